/-!
# What growing the heap of the FreeRTOS example is to do
-/

namespace Mflt.Spec.ExampleSbrk

/-- The answers to requests for a heap of `size` bytes of which `used` are given out: where the memory starts, counted from the
start of the heap, or none. -/
def answers (size : Nat) : Nat → List Int → List (Option Nat)
  | _, [] => []
  | used, i :: l =>
    if 0 ≤ (used : Int) + i ∧ (used : Int) + i ≤ size then some used :: answers size ((used : Int) + i).toNat l
    else none :: answers size used l

/-- No request gives back more than is given out at the time. -/
def Keeps (size : Nat) : Nat → List Int → Prop
  | _, [] => True
  | used, i :: l => 0 ≤ (used : Int) + i ∧ Keeps size (if (used : Int) + i ≤ size then ((used : Int) + i).toNat else used) l

end Mflt.Spec.ExampleSbrk
