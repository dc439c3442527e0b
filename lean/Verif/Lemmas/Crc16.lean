import Verif.Model.Crc16
import Verif.Spec.Crc16

namespace Mflt.Crc16

open Spec.Crc16

/-- The linear shift map: shift in a zero bit. -/
def f (x : BitVec 16) : BitVec 16 := shiftBit x false

theorem f_xor (x y : BitVec 16) : f (x ^^^ y) = f x ^^^ f y := by
  unfold f shiftBit
  simp only [BitVec.msb_xor, Bool.xor_false, BitVec.shiftLeft_xor_distrib]
  cases x.msb <;> cases y.msb <;> simp
  · ac_rfl
  · ac_rfl
  · rw [show x <<< 1 ^^^ 4129#16 ^^^ (y <<< 1 ^^^ 4129#16)
        = (x <<< 1 ^^^ y <<< 1) ^^^ (4129#16 ^^^ 4129#16) by ac_rfl]
    simp

def f8 (x : BitVec 16) : BitVec 16 := f (f (f (f (f (f (f (f x)))))))

theorem f8_xor (x y : BitVec 16) : f8 (x ^^^ y) = f8 x ^^^ f8 y := by
  simp only [f8, f_xor]

/-- A byte placed in the upper half of the register. -/
def hi (b : UInt8) : BitVec 16 := b.toBitVec.setWidth 16 <<< 8

theorem bitStep_eq (x : BitVec 16) : bitStep (x.setWidth 32) = (f x).setWidth 32 := by
  unfold bitStep f shiftBit
  have hm : ((x.setWidth 32 <<< 1) &&& 0x10000#32 ≠ 0#32) ↔ x.msb = true := by
    have e : (x.setWidth 32 <<< 1) &&& 0x10000#32 = if x.msb then 0x10000#32 else 0#32 := by
      apply BitVec.eq_of_getLsbD_eq
      intro i hi
      have : (0x10000#32).getLsbD i = decide (i = 16) := by
        revert i; decide
      simp only [BitVec.getLsbD_and, this]
      by_cases h16 : i = 16
      · subst h16
        rw [BitVec.msb_eq_getLsbD_last]
        simp only [BitVec.getLsbD_shiftLeft, BitVec.getLsbD_setWidth]
        cases x.getLsbD 15 <;> simp
      · simp only [h16, decide_false, Bool.and_false]
        split
        · simp [this, h16]
        · simp
    rw [e]
    cases x.msb <;> simp
  simp only [Bool.xor_false]
  by_cases h : x.msb = true
  · rw [if_pos (hm.mpr h), if_pos h]
    apply BitVec.eq_of_getLsbD_eq
    intro i hi
    simp only [BitVec.getLsbD_and, BitVec.getLsbD_xor, BitVec.getLsbD_shiftLeft,
      BitVec.getLsbD_setWidth]
    have hc : (0xFFFF#32).getLsbD i = decide (i < 16) ∧
        (0x1021#32).getLsbD i = (0x1021#16).getLsbD i := by
      revert i; decide
    rw [hc.1, hc.2]
    by_cases h16 : i < 16
    · by_cases h1 : i < 1
      · simp [h1, h16, hi]
      · simp [h1, h16, hi, show i - 1 < 32 by omega]
    · simp [h16]
      intro _
      exact BitVec.getLsbD_of_ge _ _ (by omega)
  · rw [if_neg (by rw [hm]; exact h), if_neg h]
    apply BitVec.eq_of_getLsbD_eq
    intro i hi
    simp only [BitVec.getLsbD_shiftLeft, BitVec.getLsbD_setWidth]
    by_cases h16 : i = 16
    · subst h16
      rw [BitVec.msb_eq_getLsbD_last] at h
      simp at h
      simp [h]
    · by_cases h1 : i < 1
      · simp [h1, hi]
      · by_cases h17 : i < 16
        · simp [h1, hi, h17, show i - 1 < 32 by omega]
        · rw [BitVec.getLsbD_of_ge x (i - 1) (by omega)]
          simp [h17]

theorem bitwiseStep_eq (x : BitVec 16) (b : UInt8) :
    bitwiseStep (x.setWidth 32) b = (f8 (x ^^^ hi b)).setWidth 32 := by
  unfold bitwiseStep
  have : x.setWidth 32 ^^^ (b.toBitVec.setWidth 32 <<< 8) = (x ^^^ hi b).setWidth 32 := by
    apply BitVec.eq_of_getLsbD_eq
    intro i hlt
    simp only [hi, BitVec.getLsbD_xor, BitVec.getLsbD_shiftLeft, BitVec.getLsbD_setWidth]
    by_cases h16 : i < 16
    · by_cases h8 : i < 8
      · simp [h16, h8, hlt]
      · simp [h16, h8, hlt, show i - 8 < 32 by omega, show i - 8 < 16 by omega]
    · simp [h16]
      rw [BitVec.getLsbD_of_ge x i (by omega), BitVec.getLsbD_of_ge _ (i - 8) (by omega)]
      simp
  rw [this]
  simp only [bitStep_eq, f8]

theorem f8_hi_lo : ∀ n : Fin 256, f8 ((BitVec.ofNat 16 n.val) <<< 8) = table[n.val]?.getD 0 ∧
    (table[n.val]?).isSome ∧
    f8 (BitVec.ofNat 16 n.val) = (BitVec.ofNat 16 n.val) <<< 8 := by
  decide +kernel

theorem split_hi_lo (x : BitVec 16) :
    x = ((x >>> 8) <<< 8) ^^^ (x &&& 0xff#16) := by
  apply BitVec.eq_of_getLsbD_eq
  intro i hi
  simp only [BitVec.getLsbD_xor, BitVec.getLsbD_shiftLeft, BitVec.getLsbD_ushiftRight,
    BitVec.getLsbD_and]
  have hc : (0xff#16).getLsbD i = decide (i < 8) := by revert i; decide
  rw [hc]
  by_cases h8 : i < 8
  · simp [h8]
  · simp [h8, hi, show 8 + (i - 8) = i by omega]

theorem f8_eq_table (x : BitVec 16) :
    table[(x >>> 8).toNat]? = some (f8 ((x >>> 8) <<< 8)) ∧ f8 (x &&& 0xff#16) = x <<< 8 := by
  constructor
  · have hlt : (x >>> 8).toNat < 256 := by
      have := x.isLt
      simp only [BitVec.toNat_ushiftRight, Nat.shiftRight_eq_div_pow]; omega
    have := f8_hi_lo ⟨(x >>> 8).toNat, hlt⟩
    simp only [BitVec.ofNat_toNat, BitVec.setWidth_eq] at this
    obtain ⟨h1, h2, -⟩ := this
    rw [h1]
    rw [Option.isSome_iff_exists] at h2
    obtain ⟨v, hv⟩ := h2
    rw [hv]; rfl
  · have hlt : (x &&& 0xff#16).toNat < 256 := by
      simp only [BitVec.toNat_and]
      exact Nat.lt_of_le_of_lt Nat.and_le_right (by decide)
    have := (f8_hi_lo ⟨(x &&& 0xff#16).toNat, hlt⟩).2.2
    simp only [BitVec.ofNat_toNat, BitVec.setWidth_eq] at this
    rw [this]
    apply BitVec.eq_of_getLsbD_eq
    intro i hi
    simp only [BitVec.getLsbD_shiftLeft, BitVec.getLsbD_and]
    have hc : ∀ j : Nat, j < 16 → (0xff#16).getLsbD j = decide (j < 8) := by decide
    by_cases h8 : i < 8
    · simp [h8]
    · rw [hc _ (by omega)]; simp [h8, hi, show i - 8 < 8 by omega]

theorem tableStep_eq (x : BitVec 16) (b : UInt8) :
    tableStep x b = some (f8 (x ^^^ hi b)) := by
  unfold tableStep
  have hidx : ((x >>> 8) ^^^ (b.toBitVec.setWidth 16)) &&& 0xff#16 = (x ^^^ hi b) >>> 8 := by
    apply BitVec.eq_of_getLsbD_eq
    intro i hlt
    have hc : (0xff#16).getLsbD i = decide (i < 8) := by revert i; decide
    simp only [hi, BitVec.getLsbD_xor, BitVec.getLsbD_shiftLeft, BitVec.getLsbD_setWidth,
      BitVec.getLsbD_and, BitVec.getLsbD_ushiftRight, hc]
    by_cases h8 : i < 8
    · simp [h8, hlt, show 8 + i < 16 by omega]
    · simp [h8]
      rw [BitVec.getLsbD_of_ge x (8 + i) (by omega)]
      simp [show ¬ (8 + i < 16) by omega]
  simp only [hidx]
  have h := f8_eq_table (x ^^^ hi b)
  rw [h.1]
  simp only [Option.map_some]
  congr 1
  conv => rhs; rw [split_hi_lo (x ^^^ hi b), f8_xor, h.2]
  have : (x ^^^ hi b) <<< 8 = x <<< 8 := by
    apply BitVec.eq_of_getLsbD_eq
    intro i hlt
    simp only [hi, BitVec.getLsbD_xor, BitVec.getLsbD_shiftLeft, BitVec.getLsbD_setWidth]
    by_cases h8 : i < 8
    · simp [h8]
    · simp [h8, hlt, show i - 8 < 8 by omega]
  rw [this, BitVec.xor_comm]

/-- Shifting in a bit is shifting after adding the bit at the top. -/
theorem shiftBit_eq (x : BitVec 16) (bit : Bool) :
    shiftBit x bit = f (x ^^^ (if bit then 0x8000#16 else 0#16)) := by
  rw [f_xor]
  cases bit
  · simp [f, shiftBit]
  · unfold f shiftBit
    have h8 : (32768#16).msb = true := by decide
    have h9 : (32768#16) <<< 1 = 0#16 := by decide
    cases x.msb <;> simp [h8, h9, BitVec.xor_assoc]

theorem byte_bits (b : UInt8) : ∀ x : BitVec 16,
    (bitsOf b).foldl shiftBit x = f8 (x ^^^ hi b) := by
  intro x
  have key : (bitsOf b).foldl shiftBit 0 = f8 (hi b) := by
    have : ∀ n : Fin 256, (bitsOf (UInt8.ofNat n.val)).foldl shiftBit 0 =
      f8 (hi (UInt8.ofNat n.val)) := by decide +kernel
    have h2 := this ⟨b.toNat, b.toNat_lt⟩
    simpa using h2
  have lin : ∀ (bits : List Bool) (x y : BitVec 16),
      bits.foldl shiftBit (x ^^^ y) = bits.foldl shiftBit x ^^^ (bits.map fun _ => false).foldl shiftBit y := by
    intro bits
    induction bits with
    | nil => intro x y; rfl
    | cons b bs ih =>
      intro x y
      simp only [List.foldl_cons, List.map_cons]
      rw [← ih]
      congr 1
      rw [shiftBit_eq, shiftBit_eq x b]
      show _ = _ ^^^ f y
      rw [← f_xor]
      congr 1
      ac_rfl
  have := lin (bitsOf b) (0#16) x
  rw [BitVec.zero_xor] at this
  rw [this, f8_xor, BitVec.xor_comm]
  rw [show (0 : BitVec 16) = 0#16 from rfl] at key
  rw [key]
  rfl

end Mflt.Crc16
