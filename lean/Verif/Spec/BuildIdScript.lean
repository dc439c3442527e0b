import Verif.Model.BuildIdScript
import Verif.Spec.BuildId

/-!
# Specification: what an ELF file loads

From the model only the records of the file, its sections and its symbols are used.
-/

namespace Mflt.Spec.BuildIdScript

open Mflt.BuildIdScript (Elf Section)

/-- A 32-bit number, little endian. -/
def word (n : Nat) : Bytes :=
  [UInt8.ofNat (n % 256), UInt8.ofNat (n / 256 % 256), UInt8.ofNat (n / 65536 % 256), UInt8.ofNat (n / 16777216 % 256)]

/-- A file as linkers make them: 32-bit addresses and sizes; contents that are loaded are in the file; no two
sections have a byte of the file, or an address, in common. -/
structure Sane (e : Elf) : Prop where
  small : ∀ s ∈ e.sections, s.alloc = true → s.addr < 2 ^ 32 ∧ s.size < 2 ^ 32
  inFile : ∀ s ∈ e.sections, s.alloc = true → s.nobits = false → s.offset + s.size ≤ e.file.length
  apart : ∀ s ∈ e.sections, ∀ t ∈ e.sections, s.alloc = true → t.alloc = true → s.nobits = false → t.nobits = false →
    ∀ i, s.offset ≤ i → i < s.offset + s.size → t.offset ≤ i → i < t.offset + t.size → s = t
  placed : ∀ s ∈ e.sections, ∀ t ∈ e.sections, s.alloc = true → t.alloc = true →
    ∀ x, s.addr ≤ x → x < s.addr + s.size → t.addr ≤ x → x < t.addr + t.size → s = t

/-- The program has `d` at address `a`, from the file. -/
def Loaded (e : Elf) (a : Nat) (d : Bytes) : Prop :=
  d ≠ [] ∧ ∃ s ∈ e.sections, s.alloc = true ∧ s.nobits = false ∧ s.addr ≤ a ∧ a + d.length ≤ s.addr + s.size ∧
    (e.file.drop (s.offset + (a - s.addr))).take d.length = d

/-- The symbol `name` is `n` bytes at address `a`. -/
def Named (e : Elf) (name : String) (a n : Nat) : Prop :=
  ⟨some name, a, n⟩ ∈ e.symbols ∧ ∀ y ∈ e.symbols, y.name = some name → y = ⟨some name, a, n⟩

/-- Of the file, only bytes loaded at addresses in `p` differ. -/
def OnlyAt (p : Nat → Prop) (e e' : Elf) : Prop :=
  e' = { e with file := e'.file } ∧ e'.file.length = e.file.length ∧
  ∀ i : Nat, e'.file[i]? ≠ e.file[i]? →
    ∃ s ∈ e.sections, s.alloc = true ∧ s.nobits = false ∧ ∃ x, p x ∧ s.addr ≤ x ∧ x < s.addr + s.size ∧
      i = s.offset + (x - s.addr)

/-- The bytes of a section: from the file, or zeros. -/
def bytesOf (e : Elf) (s : Section) : Bytes :=
  if s.nobits then List.replicate s.size 0 else (e.file.drop s.offset).take s.size

/-- What a build id is made from: for each section that is loaded its address and its contents, or its size if
it is memory that starts as zero. -/
def image (e : Elf) : Bytes :=
  e.sections.flatMap fun s =>
    if s.alloc then
      word s.addr ++ if s.nobits && s.write && !s.exec then word s.size else bytesOf e s
    else []

/-- The same without the `n` bytes at address `a`. -/
def imageWithout (e : Elf) (a n : Nat) : Bytes :=
  e.sections.flatMap fun s =>
    if s.alloc then
      word s.addr ++
        if s.nobits && s.write && !s.exec then word s.size
        else if s.addr ≤ a ∧ a < s.addr + s.size then
          (bytesOf e s).take (a - s.addr) ++ (bytesOf e s).drop (a - s.addr + n)
        else bytesOf e s
    else []

/-- A program that waits for its build id: its record at `a` begins with type 1, and the 20 bytes at `d` are
kept for the id. -/
structure Ready (e : Elf) (a d : Nat) (record : Bytes) : Prop where
  sane : Sane e
  waits : Loaded e a (1 :: record) ∧ 2 ≤ record.length
  named : Named e "g_memfault_build_id" a (record.length + 1)
  storage : ∃ old, Loaded e d old ∧ old.length = 20
  namedStorage : Named e "g_memfault_sdk_derived_build_id" d 20
  apart : a + (record.length + 1) ≤ d ∨ d + 20 ≤ a

/-- What the program finds when it runs: the type at `a`, the storage at `d`. -/
def Runs (e : Elf) (a d : Nat) (g : Mflt.BuildId.Id) : Prop :=
  ∃ t, Loaded e a [t] ∧ g.type = t.toNat ∧ Loaded e d g.storage ∧ g.storage.length = 20

end Mflt.Spec.BuildIdScript
