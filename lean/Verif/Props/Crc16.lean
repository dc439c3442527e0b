import Verif.Lemmas.Crc16

/-! # C03, C04: the checksum -/

namespace Mflt.Props

open Crc16 Spec.Crc16

theorem spec_crc_cons (x : BitVec 16) (b : UInt8) (bs : Bytes) :
    crc x (b :: bs) = crc (f8 (x ^^^ hi b)) bs := by
  unfold crc
  rw [List.flatMap_cons, List.foldl_append, byte_bits]

/-- **C03.** For every seed and every byte string, the table-driven variant performs no
out-of-bounds table access and both variants return the textbook CRC-16 (0x1021, MSB first). -/
theorem C03_crc_variants_agree (seed : BitVec 16) (data : Bytes) :
    computeTable seed data = some (crc seed data) ∧ computeBitwise seed data = crc seed data := by
  constructor
  · unfold computeTable
    induction data generalizing seed with
    | nil => rfl
    | cons b bs ih =>
      rw [List.foldlM_cons, tableStep_eq]
      simp only [Option.bind_eq_bind, Option.bind_some]
      rw [ih, spec_crc_cons]
  · have : data.foldl bitwiseStep (seed.setWidth 32) = (crc seed data).setWidth 32 := by
      induction data generalizing seed with
      | nil => rfl
      | cons b bs ih => rw [List.foldl_cons, bitwiseStep_eq, ih, spec_crc_cons]
    unfold computeBitwise
    rw [this]
    apply BitVec.eq_of_toNat_eq
    have := (crc seed data).isLt
    simp only [BitVec.toNat_setWidth]
    omega

/-- The published check value of CRC-16/XMODEM for "123456789" is 0x31C3. -/
example : crc 0 [0x31, 0x32, 0x33, 0x34, 0x35, 0x36, 0x37, 0x38, 0x39] = 0x31C3#16 := by decide +kernel

/-- **C04 (incremental).** Feeding the data in any number of pieces, passing each result on as the
next seed, gives the checksum of the whole. Stated for the table variant and for the bitwise one. -/
theorem C04_crc_incremental (seed : BitVec 16) (pieces : List Bytes) :
    pieces.foldlM computeTable seed = computeTable seed pieces.flatten ∧
    pieces.foldl computeBitwise seed = computeBitwise seed pieces.flatten := by
  have happ : ∀ s a b, crc s (a ++ b) = crc (crc s a) b := by
    intro s a b; unfold crc; rw [List.flatMap_append, List.foldl_append]
  constructor
  · induction pieces generalizing seed with
    | nil => rfl
    | cons p ps ih =>
      rw [List.foldlM_cons, (C03_crc_variants_agree seed p).1]
      simp only [Option.bind_eq_bind, Option.bind_some]
      rw [ih, (C03_crc_variants_agree _ _).1, (C03_crc_variants_agree _ _).1, List.flatten_cons,
        happ]
  · induction pieces generalizing seed with
    | nil => simp [computeBitwise]
    | cons p ps ih =>
      rw [List.foldl_cons, ih]
      simp only [(C03_crc_variants_agree _ _).2, List.flatten_cons, happ]

example : [[0x31, 0x32, 0x33], [], [0x34, 0x35, 0x36, 0x37, 0x38, 0x39]].foldlM computeTable 0 =
    some 0x31C3#16 := by decide

theorem xor_cancel_left {w : Nat} {a b c : BitVec w} (h : a ^^^ b = a ^^^ c) : b = c := by
  have := congrArg (fun v => a ^^^ v) h
  simpa [← BitVec.xor_assoc] using this

theorem xor_cancel_right {w : Nat} {a b c : BitVec w} (h : b ^^^ a = c ^^^ a) : b = c := by
  have := congrArg (fun v => v ^^^ a) h
  simpa [BitVec.xor_assoc] using this

theorem f_eq_zero (z : BitVec 16) (h : f z = 0#16) : z = 0#16 := by
  unfold f shiftBit at h
  simp only [Bool.xor_false] at h
  split at h
  · have := congrArg (fun v => BitVec.getLsbD v 0) h
    simp [BitVec.getLsbD_shiftLeft] at this
  · rename_i hm
    apply BitVec.eq_of_getLsbD_eq
    intro i hi
    by_cases h15 : i = 15
    · subst h15
      rw [BitVec.msb_eq_getLsbD_last] at hm
      simpa using hm
    · have := congrArg (fun v => BitVec.getLsbD v (i + 1)) h
      simp only [BitVec.getLsbD_shiftLeft, show i + 1 < 16 by omega, decide_true,
        show ¬ i + 1 < 1 by omega, decide_false, Bool.not_false, Bool.true_and,
        Nat.add_sub_cancel, BitVec.getLsbD_zero] at this
      rw [this]; simp

theorem f8_inj {x y : BitVec 16} (h : f8 x = f8 y) : x = y := by
  have hz : f8 (x ^^^ y) = 0#16 := by rw [f8_xor, h, BitVec.xor_self]
  have : x ^^^ y = 0#16 := by
    unfold f8 at hz
    exact f_eq_zero _ (f_eq_zero _ (f_eq_zero _ (f_eq_zero _ (f_eq_zero _ (f_eq_zero _
      (f_eq_zero _ (f_eq_zero _ hz)))))))
  exact BitVec.xor_eq_zero_iff.mp this

theorem crc_seed_inj (data : Bytes) {x y : BitVec 16} (h : crc x data = crc y data) : x = y := by
  induction data generalizing x y with
  | nil => exact h
  | cons b bs ih =>
    rw [spec_crc_cons, spec_crc_cons] at h
    have := f8_inj (ih h)
    exact xor_cancel_right this

theorem hi_inj {a b : UInt8} (h : hi a = hi b) : a = b := by
  have ht := congrArg BitVec.toNat h
  unfold hi at ht
  have ha := a.toNat_lt
  have hb := b.toNat_lt
  simp only [BitVec.toNat_shiftLeft, BitVec.toNat_setWidth, Nat.shiftLeft_eq, UInt8.toNat_toBitVec] at ht
  apply UInt8.toNat_inj.mp
  omega

/-- **C04 (corruption).** Changing one byte of a message, or any two adjacent bytes, always
changes the checksum: the prefix and suffix are arbitrary. -/
theorem C04_crc_detects_two_byte_change (seed : BitVec 16) (pre post : Bytes)
    (a b a' b' : UInt8) (hne : [a, b] ≠ [a', b']) :
    computeTable seed (pre ++ [a, b] ++ post) ≠ computeTable seed (pre ++ [a', b'] ++ post) ∧
    computeBitwise seed (pre ++ [a, b] ++ post) ≠ computeBitwise seed (pre ++ [a', b'] ++ post) := by
  have happ : ∀ s a b, crc s (a ++ b) = crc (crc s a) b := by
    intro s a b; unfold crc; rw [List.flatMap_append, List.foldl_append]
  have key : crc seed (pre ++ [a, b] ++ post) ≠ crc seed (pre ++ [a', b'] ++ post) := by
    intro h
    rw [happ, happ, happ, happ] at h
    have h := crc_seed_inj _ h
    generalize crc seed pre = s at h
    rw [spec_crc_cons, spec_crc_cons, spec_crc_cons, spec_crc_cons] at h
    have h := f8_inj h
    -- difference of the first bytes, pushed through one byte step, against the second bytes
    have h2 : f8 (hi a ^^^ hi a') = hi b ^^^ hi b' := by
      rw [f8_xor, f8_xor] at h
      rw [f8_xor]
      have := congrArg (fun v => v ^^^ f8 s ^^^ f8 (hi a') ^^^ hi b) h
      rw [show f8 s ^^^ f8 (hi a) ^^^ hi b ^^^ f8 s ^^^ f8 (hi a') ^^^ hi b
          = (f8 s ^^^ f8 s) ^^^ (hi b ^^^ hi b) ^^^ (f8 (hi a) ^^^ f8 (hi a')) by ac_rfl,
        show f8 s ^^^ f8 (hi a') ^^^ hi b' ^^^ f8 s ^^^ f8 (hi a') ^^^ hi b
          = (f8 s ^^^ f8 s) ^^^ (f8 (hi a') ^^^ f8 (hi a')) ^^^ (hi b ^^^ hi b') by ac_rfl] at this
      simpa using this
    have h3 : ∀ x : UInt8, (f8 (hi x)) &&& 0xff#16 = 0#16 → x = 0 := by
      intro x
      have : ∀ n : Fin 256, (f8 (hi (UInt8.ofNat n.val))) &&& 0xff#16 = 0#16 →
        UInt8.ofNat n.val = 0 := by decide +kernel
      have h := this ⟨x.toNat, x.toNat_lt⟩
      simpa using h
    have hx : ∀ x y : UInt8, hi x ^^^ hi y = hi (x ^^^ y) := by
      intro x y
      unfold hi
      rw [← BitVec.shiftLeft_xor_distrib]
      simp
    have hlow : ∀ x : UInt8, hi x &&& 0xff#16 = 0#16 := by
      intro x
      have : ∀ n : Fin 256, hi (UInt8.ofNat n.val) &&& 0xff#16 = 0#16 := by decide +kernel
      have h := this ⟨x.toNat, x.toNat_lt⟩
      simpa using h
    have haa : a ^^^ a' = 0 := by
      apply h3
      rw [← hx, h2, hx, hlow]
    have ha : a = a' := UInt8.xor_eq_zero_iff.mp haa
    subst ha
    rw [hx, haa] at h2
    have h0 : f8 (hi 0) = hi 0 := by decide
    rw [h0, hx] at h2
    have hb : b ^^^ b' = 0 := (hi_inj h2).symm
    exact hne (by rw [UInt8.xor_eq_zero_iff.mp hb])
  rw [(C03_crc_variants_agree _ _).1, (C03_crc_variants_agree _ _).1,
    (C03_crc_variants_agree _ _).2, (C03_crc_variants_agree _ _).2]
  exact ⟨fun h => key (Option.some.inj h), key⟩

/-- **C04 (one byte).** A message of at least one byte with exactly one byte replaced by a
different byte has a different checksum. -/
theorem C04_crc_detects_byte_change (seed : BitVec 16) (pre post : Bytes) (a a' : UInt8)
    (hne : a ≠ a') :
    computeTable seed (pre ++ a :: post) ≠ computeTable seed (pre ++ a' :: post) := by
  have happ : ∀ s a b, crc s (a ++ b) = crc (crc s a) b := by
    intro s a b; unfold crc; rw [List.flatMap_append, List.foldl_append]
  rw [(C03_crc_variants_agree _ _).1, (C03_crc_variants_agree _ _).1]
  intro h
  have h := Option.some.inj h
  rw [happ, happ, spec_crc_cons, spec_crc_cons] at h
  have h := f8_inj (crc_seed_inj _ h)
  exact hne (hi_inj (xor_cancel_left h))

example : computeTable 0 [1, 2, 3] ≠ computeTable 0 [1, 2, 131] := by decide

end Mflt.Props
