import Verif.Model.PortRegions

/-! # Specification: what the regions of a coredump have to be -/

namespace Mflt.Spec.PortRegions

open Mflt.FreertosRegions (Region)
open Mflt.PortRegions (Symbols)

/-- An address is in RAM, which is made of banks with a start and an end. -/
def InRam (ram : List (Nat × Nat)) (a : Nat) : Prop := ∃ b ∈ ram, b.1 ≤ a ∧ a < b.2

/-- `m` is how many of the `n` bytes from `a` on can be collected: all that are in RAM, up to the first one that
is not. -/
structure Clips (ram : List (Nat × Nat)) (a n m : Nat) : Prop where
  le : m ≤ n
  inside : ∀ i, i < m → InRam ram (a + i)
  stop : m < n → ¬ InRam ram (a + m)

/-- Every byte of a region is in RAM. -/
def Inside (ram : List (Nat × Nat)) (r : Region) : Prop := ∀ i, i < r.size → InRam ram (r.start + i)

/-- Symbols of the linker for a part of RAM. -/
structure Linked (ram : List (Nat × Nat)) (s : Symbols) : Prop where
  ordered : s.start ≤ s.stop
  word : s.stop < 2 ^ 32
  inside : ∀ a, s.start ≤ a → a < s.stop → InRam ram a

/-- The region between two symbols. -/
def whole (s : Symbols) : Region := ⟨s.start, s.stop - s.start⟩

/-- Banks of RAM one behind the other, from a list of their bases and the end. -/
def consecutive : List Nat → Nat → List (Nat × Nat)
  | [], _ => []
  | [b], stop => [(b, stop)]
  | b :: b' :: bs, stop => (b, b') :: consecutive (b' :: bs) stop

/-- The bases are in order. -/
def Ordered : List Nat → Nat → Prop
  | [], stop => stop < 2 ^ 32
  | [b], stop => b ≤ stop ∧ stop < 2 ^ 32
  | b :: b' :: bs, stop => b ≤ b' ∧ b' ≤ stop ∧ Ordered (b' :: bs) stop

/-- What there is of `n` bytes from `a` on in the RAM between `lo` and `hi`, as a region if there is anything. -/
def part (lo hi a n : Nat) : List Region := if lo ≤ a ∧ a < hi then [⟨a, min n (hi - a)⟩] else []

end Mflt.Spec.PortRegions
