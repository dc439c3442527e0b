import Verif.Spec.Flash

/-!
# Specification: damaged bytes in RAM
-/

namespace Mflt.Spec.PartitionInfo

/-- `new` is `old` with one byte, or two adjacent bytes, overwritten by something else. -/
def Hit (old new : Bytes) : Prop :=
  new ≠ old ∧ ∃ pre a b a' b' post, old = pre ++ [a, b] ++ post ∧ new = pre ++ [a', b'] ++ post

/-- The 32-bit little endian number at an offset. -/
def word (b : Bytes) (i : Nat) : Nat :=
  (b.getD i 0).toNat + 256 * (b.getD (i + 1) 0).toNat + 65536 * (b.getD (i + 2) 0).toNat +
    16777216 * (b.getD (i + 3) 0).toNat

end Mflt.Spec.PartitionInfo
