/-!
# What the start of the FreeRTOS example is to do
-/

namespace Mflt.Spec.ExampleStartup

/-- Memory, by number of the word. -/
abbrev Memory := Nat → BitVec 32

/-- The symbols of the linker, as numbers of words: where the initial values are, and where the two sections of variables are. -/
structure Layout where
  sidata : Nat
  sdata : Nat
  edata : Nat
  bssStart : Nat
  bssEnd : Nat

/-- The sections do not overlap. -/
def Layout.Apart (l : Layout) : Prop :=
  (l.sidata + (l.edata - l.sdata) ≤ l.sdata ∨ l.edata ≤ l.sidata) ∧ (l.edata ≤ l.bssStart ∨ l.bssEnd ≤ l.sdata)

/-- What a key sends as a byte, and what it is taken for: the keys for backspace and delete of the emulator are the ones of a
console. -/
def typed (b : UInt8) : UInt8 := if b = 0x7F then 8 else if b = 0x7E then 0x7F else b

end Mflt.Spec.ExampleStartup
