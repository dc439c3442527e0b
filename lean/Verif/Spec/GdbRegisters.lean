/-!
# Registers of a device under GDB

The GDB server of a probe names the registers; names differ between servers. The memory protection unit (MPU) has a
register that selects a region, and two that are those of the selected region.
-/

namespace Mflt.Spec.GdbRegisters

abbrev Text := List Char
abbrev Byte := BitVec 8

/-- A text in lower case. -/
def lowerCase (s : Text) : Text := s.map Char.toLower

/-- The first in a list with a property. -/
def FirstWith (p : Text → Prop) (l : List Text) (x : Text) : Prop := ∃ a b, l = a ++ x :: b ∧ p x ∧ ∀ y ∈ a, ¬ p y

/-- The bytes of a word. -/
def wordBytes (n : Nat) : List Byte :=
  [BitVec.ofNat 8 n, BitVec.ofNat 8 (n / 256), BitVec.ofNat 8 (n / 65536), BitVec.ofNat 8 (n / 16777216)]

/-- A device: the words of its memory that can be read and are not of the MPU, and the MPU: the region that is selected, and
the address and the attributes of each region. -/
structure Device where
  word : Nat → Option Nat
  selected : Nat
  address : Nat → Nat
  attributes : Nat → Nat

/-- The processors whose MPU is known, by part number: Cortex-M0, M1, M3, M4, M7, M0+. -/
def knownParts : List Nat := [0xC20, 0xC21, 0xC23, 0xC24, 0xC27, 0xC60]

end Mflt.Spec.GdbRegisters
