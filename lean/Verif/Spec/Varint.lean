import Verif.Model.Mem

/-! # Specification: base-128 varints and zig-zag numbers, from the reader's side -/

namespace Mflt.Spec.Varint

/-- Read one little-endian base-128 number; the top bit of a byte says that more follow. Returns
the value and the bytes after it, `none` if the input ends early. -/
def decode : Bytes → Option (Nat × Bytes)
  | [] => none
  | b :: bs =>
    if b.toNat < 128 then some (b.toNat, bs)
    else (decode bs).map fun (v, r) => (b.toNat - 128 + 128 * v, r)

/-- Zig-zag numbers: even ones are the non-negative integers, odd ones the negative integers. -/
def unzigzag (n : Nat) : Int :=
  if n % 2 = 0 then (n / 2 : Nat) else -((n / 2 : Nat) : Int) - 1

end Mflt.Spec.Varint
