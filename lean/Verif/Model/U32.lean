import Verif.Model.Mem

/-! # 32-bit unsigned arithmetic and little-endian integers in memory -/

namespace Mflt

/-- `a - b` on `uint32_t` / a 32-bit `size_t`. -/
@[irreducible] def sub32 (a b : Nat) : Nat := (a + 2 ^ 32 - b) % 2 ^ 32

/-- `a + b` on `uint32_t` / a 32-bit `size_t`. -/
@[irreducible] def add32 (a b : Nat) : Nat := (a + b) % 2 ^ 32

/-- The memory image of a `uint16_t` (the SDK's targets are little-endian). -/
def le16 (n : Nat) : Bytes := [UInt8.ofNat (n % 256), UInt8.ofNat (n / 256 % 256)]

/-- The `uint16_t` stored in two bytes of memory. -/
def ofLe16 : Bytes → Nat
  | [a, b] => a.toNat + 256 * b.toNat
  | _ => 0

theorem sub32_eq {a b : Nat} (h : b ≤ a) (ha : a < 2 ^ 32) : sub32 a b = a - b := by
  unfold sub32; rw [show a + 2 ^ 32 - b = (a - b) + 2 ^ 32 by omega, Nat.add_mod_right,
    Nat.mod_eq_of_lt (by omega)]

theorem add32_eq {a b : Nat} (h : a + b < 2 ^ 32) : add32 a b = a + b := by
  unfold add32; exact Nat.mod_eq_of_lt h

theorem length_le16 (n : Nat) : (le16 n).length = 2 := rfl

theorem ofLe16_le16 {n : Nat} (h : n < 65536) : ofLe16 (le16 n) = n := by
  simp only [le16, ofLe16, UInt8.toNat_ofNat']
  omega

end Mflt
