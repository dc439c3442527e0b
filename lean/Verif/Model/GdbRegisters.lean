import Verif.Spec.GdbRegisters

/-!
# Model of the reading of registers of the GDB script

`scripts/memfault_gdb.py`: names of registers, and the MPU. `none`: an exception, or a value that is not available.
Simplifications: case is that of ASCII; a row of the list of registers is its name; a register is four bytes.
-/

namespace Mflt.GdbRegisters

open Spec.GdbRegisters

/-- `register_collection_list` and `alternative_register_name_dict`, memfault_gdb.py:253-278, 363-400. -/
structure Arch where
  expected : List Text
  alternatives : Text → List Text

/-- `ArmCortexMCoredumpArch`, memfault_gdb.py:363-400. -/
def arm : Arch where
  expected := ["r0".toList, "r1".toList, "r2".toList, "r3".toList, "r4".toList, "r5".toList, "r6".toList, "r7".toList,
    "r8".toList, "r9".toList, "r10".toList, "r11".toList, "r12".toList, "sp".toList, "lr".toList, "pc".toList,
    "xpsr".toList, "msp".toList, "psp".toList, "primask".toList, "control".toList]
  alternatives r := if r = "xpsr".toList then ["cpsr".toList] else []

/-- `_search_list_for_alt_name`, memfault_gdb.py:595-607. -/
def searchAlt (a : Arch) (names : List Text) (reg : Text) : Option Text :=
  match names.find? fun f => f.map Char.toLower == reg with
  | some f => some f
  | none => (a.alternatives reg).find? fun x => names.contains x

/-- `alt_reg_names`, memfault_gdb.py:609-621: the name to look up and the name of the result. -/
def altNames (a : Arch) (names : List Text) : List Text → List (Text × Text)
  | [] => []
  | e :: l =>
    if names.contains e then altNames a names l
    else
      match searchAlt a names e with
      | some x => (x, e) :: altNames a names l
      | none => altNames a names l

/-- The dictionary `register_list`. -/
abbrev Regs := Text → Option Nat

/-- `_try_read_register`, memfault_gdb.py:563-583. -/
def tryRead (read : Text → Option Nat) (lookup result : Text) (r : Regs) : Regs :=
  match read lookup with
  | some v => fun t => if t = result then some v else r t
  | none => r

/-- The two loops, memfault_gdb.py:629-640. -/
def readAll (read : Text → Option Nat) : List (Text × Text) → Regs → Regs
  | [], r => r
  | (x, e) :: l, r => readAll read l (tryRead read x e r)

/-- `lookup_registers_from_list`, memfault_gdb.py:586-640, before the patch for a fault. -/
def lookup (a : Arch) (names : List Text) (read : Text → Option Nat) : Regs :=
  readAll read (altNames a names a.expected)
    (readAll read ((names.filter fun n => a.expected.contains n).map fun n => (n, n)) fun _ => none)

/-- `unpack("<I")` and the bytes, memfault_gdb.py:1158-1161. -/
def pack (n : Nat) : List Byte :=
  [BitVec.ofNat 8 n, BitVec.ofNat 8 (n / 256), BitVec.ofNat 8 (n / 65536), BitVec.ofNat 8 (n / 16777216)]

/-- `_read_register`, memfault_gdb.py:1158-1161. RBAR and RASR are those of the region that is selected. -/
def readReg (d : Device) (a : Nat) : Option Nat :=
  if a = 0xE000ED98 then some d.selected
  else if a = 0xE000ED9C then some (d.address d.selected)
  else if a = 0xE000EDA0 then some (d.attributes d.selected)
  else d.word a

/-- `_write_register`, memfault_gdb.py:1164-1166. -/
def writeReg (d : Device) (a v : Nat) : Device :=
  if a = 0xE000ED98 then { d with selected := v }
  else if a = 0xE000ED9C then { d with address := fun i => if i = d.selected then v else d.address i }
  else if a = 0xE000EDA0 then { d with attributes := fun i => if i = d.selected then v else d.attributes i }
  else { d with word := fun i => if i = a then some v else d.word i }

/-- The loop over the regions, memfault_gdb.py:434-440. -/
def regions : Nat → Nat → Device → Option (List Byte) × Device
  | _, 0, d => (some [], d)
  | i, n + 1, d =>
    let d := writeReg d 0xE000ED98 i
    match readReg d 0xE000ED9C, readReg d 0xE000EDA0 with
    | some b, some s =>
      match regions (i + 1) n d with
      | (some l, d) => (some (pack b ++ pack s ++ l), d)
      | (none, d) => (none, d)
    | _, _ => (none, d)

/-- `_try_collect_mpu_settings`, memfault_gdb.py:402-442: what is collected, and the device afterwards. -/
def collectMpu (d : Device) : Option (List Byte) × Device :=
  match readReg d 0xE000ED00 with
  | none => (none, d)
  | some cpuid =>
    if [0xC20, 0xC21, 0xC23, 0xC24, 0xC27, 0xC60].contains (cpuid / 16 % 4096) then
      match readReg d 0xE000ED90, readReg d 0xE000ED94 with
      | some type, some ctrl =>
        match regions 0 (type / 256 % 256) d with
        | (some l, d) => (some (pack type ++ pack ctrl ++ l), d)
        | (none, d) => (none, d)
      | _, _ => (none, d)
    else (none, d)

end Mflt.GdbRegisters
