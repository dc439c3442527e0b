import Verif.Model.GdbCoredump
import Verif.Spec.Coredump

/-!
# Specification: a coredump made with GDB

From the model only the records of sections and of what is written are used.
-/

namespace Mflt.Spec.GdbCoredump

open Mflt.GdbCoredump (Section Writer)
open Spec.Coredump (Block number parseBlocks)

/-- A file with a coredump of version 1: "CORE", the version, the length of the file, blocks. -/
def parse (file : Bytes) : Option (List Block) :=
  if file.take 4 = [0x43, 0x4f, 0x52, 0x45] ∧ number ((file.drop 4).take 4) = 1 ∧
      number ((file.drop 8).take 4) = file.length then
    parseBlocks file.length (file.drop 12)
  else none

/-- The registers of a core, four bytes each in the order of `names`; zero if one is not known. -/
def RegistersIn (names : List String) (r : String → Option Nat) (payload : Bytes) : Prop :=
  payload.length = 4 * names.length ∧
  ∀ i name, names[i]? = some name → number ((payload.drop (4 * i)).take 4) = (r name).getD 0

/-- The blocks of a coredump: registers (0) of each core, serial (2), software version (10) and type (11), hardware
revision (4), machine (7), the reason (5) that a debugger halted (5), the time as memory at 0xfffffffc, memory (1),
MPU registers (9) if there are any. -/
def expected (registers : List Bytes) (w : Writer) : List Block :=
  (registers.map fun r => ⟨0, 0, r⟩) ++
  [⟨2, 0, w.serial⟩, ⟨10, 0, w.softwareVersion⟩, ⟨11, 0, w.softwareType⟩, ⟨4, 0, w.hardwareRevision⟩,
    ⟨7, 0, Spec.Coredump.fourBytes w.machineType⟩, ⟨5, 0, [5, 0, 0, 0]⟩,
    ⟨1, 0xFFFFFFFC, Spec.Coredump.fourBytes w.time⟩] ++
  (w.sections.map fun s => ⟨1, s.1, s.2⟩) ++
  if w.mpu = none ∨ w.mpu = some [] then [] else [⟨9, 0, w.mpu.getD []⟩]

/-- GDB reads the memory of the target: all of the bytes, or nothing if one cannot be read. -/
def Reads (read : Nat → Nat → Option Bytes) (mem : Nat → Option UInt8) : Prop :=
  ∀ a n, (∀ d, read a n = some d → d.length = n ∧ ∀ i, i < n → mem (a + i) = d[i]?) ∧
    (read a n = none → ∃ i, i < n ∧ mem (a + i) = none)

/-- Data from the memory at `a`, at most `n` bytes, that ends at most 4 KiB before a byte that cannot be read. -/
def Captures (mem : Nat → Option UInt8) (a n : Nat) (d : Bytes) : Prop :=
  d.length ≤ n ∧ (∀ i, i < d.length → mem (a + i) = d[i]?) ∧
  (d.length = n ∨ ∃ j, d.length ≤ j ∧ j < d.length + 4096 ∧ j < n ∧ mem (a + j) = none)

/-- The number of an exception, the low nine bits of xPSR. -/
def exceptionNumber (xpsr : Nat) : Nat := xpsr % 512

/-- An area for RAM of the Armv7-M address map that is considered: SRAM with its second half, external RAM in its
first areas. -/
def InRam (a : Nat) : Prop :=
  (0x20000000 ≤ a ∧ a < 0x40000000) ∨ (0x60000000 ≤ a ∧ a < 0x70000000) ∨ (0x80000000 ≤ a ∧ a < 0x90000000)

/-- A section to capture: not empty, not code or for the debugger, and not marked as read-only. -/
def Wanted (s : Section) : Prop :=
  s.size ≠ 0 ∧ s.name ≠ ['.', 't', 'e', 'x', 't'] ∧ ¬ ['.', 'd', 'e', 'b', 'u', 'g', '_'] <+: s.name ∧ s.readOnly = false

end Mflt.Spec.GdbCoredump
