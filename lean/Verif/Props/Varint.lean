import Verif.Model.Varint
import Verif.Spec.Varint

/-! # C05, C06: variable-length integers -/

namespace Mflt.Props

open Varint Spec.Varint

theorem varint_loop (fuel value : Nat) (rest : Bytes) (h : value < 128 ^ fuel) (hf : 0 < fuel) :
    ∃ out, encodeLoop fuel value = some out ∧ decode (out ++ rest) = some (value, rest) ∧
      0 < out.length ∧ out.length ≤ fuel ∧ value < 128 ^ out.length ∧
      (1 < out.length → 128 ^ (out.length - 1) ≤ value) := by
  induction fuel generalizing value with
  | zero => omega
  | succ fuel ih =>
    unfold encodeLoop
    by_cases hv : value ≥ 128
    · rw [if_pos hv]
      have hsh : value >>> 7 = value / 128 := by rw [Nat.shiftRight_eq_div_pow]
      have hfuel : 0 < fuel := by
        rcases fuel with _ | n
        · simp at h; omega
        · omega
      have hlt : value >>> 7 < 128 ^ fuel := by
        rw [hsh]; rw [Nat.pow_succ] at h
        exact Nat.div_lt_of_lt_mul (by rw [Nat.mul_comm]; exact h)
      obtain ⟨out, h1, h2, h3, h4, h5, h6⟩ := ih (value >>> 7) hlt hfuel
      have hbyte : (UInt8.ofNat (0x80 ||| (value &&& 0x7f))).toNat = 128 + value % 128 := by
        have h7 : value &&& 0x7f = value % 128 := Nat.and_two_pow_sub_one_eq_mod value 7
        have h8 : 0x80 ||| (value % 128) = 128 + value % 128 := by
          have := Nat.two_pow_add_eq_or_of_lt (i := 7) (b := value % 128)
            (Nat.mod_lt _ (by decide)) 1
          simpa using this.symm
        rw [h7, h8]
        have := Nat.mod_lt value (show 0 < 128 by decide)
        rw [UInt8.toNat_ofNat']; omega
      refine ⟨_, by rw [h1]; rfl, ?_, by simp, by simp; omega, ?_, ?_⟩
      · simp only [List.cons_append, decode]
        rw [if_neg (by rw [hbyte]; omega), h2]
        simp only [Option.map_some, hbyte, hsh]
        congr 2; omega
      · rw [List.length_cons, Nat.pow_succ]; rw [hsh] at h5; omega
      · intro _
        simp only [List.length_cons, Nat.add_sub_cancel]
        by_cases h9 : 1 < out.length
        · have h10 := h6 h9
          rw [hsh] at h10
          obtain ⟨k, hk⟩ : ∃ k, out.length = k + 1 := ⟨out.length - 1, by omega⟩
          rw [hk] at h10 ⊢
          simp only [Nat.add_sub_cancel] at h10
          rw [Nat.pow_succ]; omega
        · have : out.length = 1 := by omega
          rw [this]; omega
    · rw [if_neg hv]
      have h7 : value &&& 0xff = value % 256 := Nat.and_two_pow_sub_one_eq_mod value 8
      have hb : (UInt8.ofNat (value &&& 0xff)).toNat = value := by
        rw [h7, UInt8.toNat_ofNat']; omega
      refine ⟨_, rfl, ?_, by simp, by simp, by simp; omega, by simp⟩
      simp only [List.cons_append, List.nil_append, decode, hb]
      rw [if_pos (by omega)]

/-- **C05.** Encoding any 32-bit value ends, fits in five bytes, and an independent reader gets
the value back and knows where it ends, whatever bytes follow; the encoding is the shortest
possible one. -/
theorem C05_varint_roundtrip (value : BitVec 32) (rest : Bytes) :
    ∃ out, encodeU32 value = some out ∧ decode (out ++ rest) = some (value.toNat, rest) ∧
      1 ≤ out.length ∧ out.length ≤ 5 ∧
      (∀ k, 1 ≤ k → (value.toNat < 128 ^ k ↔ out.length ≤ k)) := by
  have hlt : value.toNat < 128 ^ 5 := by have := value.isLt; omega
  obtain ⟨out, h1, h2, h3, h4, h5, h6⟩ := varint_loop 5 value.toNat rest hlt (by omega)
  refine ⟨out, h1, h2, h3, h4, fun k hk => ⟨fun h => ?_, fun h => ?_⟩⟩
  · by_cases h1 : 1 < out.length
    · have := h6 h1
      have h9 := Nat.lt_of_le_of_lt this h
      have := (Nat.pow_lt_pow_iff_right (show 1 < 128 by decide)).mp h9
      omega
    · omega
  · exact Nat.lt_of_lt_of_le h5 (Nat.pow_le_pow_right (by decide) h)

example : encodeU32 300 = some [0xAC, 0x02] ∧ encodeU32 0xFFFFFFFF =
    some [0xFF, 0xFF, 0xFF, 0xFF, 0x0F] := by decide

/-- The encodings of a sequence of values can be concatenated: reading value after value returns
exactly the sequence. In particular encoding is injective and no encoding is a prefix of another. -/
theorem C05_varint_prefix_free (a b : BitVec 32) (x y r s : Bytes)
    (hx : encodeU32 a = some x) (hy : encodeU32 b = some y) (h : x ++ r = y ++ s) :
    a = b ∧ r = s := by
  obtain ⟨x', h1, h2, -⟩ := C05_varint_roundtrip a r
  obtain ⟨y', h3, h4, -⟩ := C05_varint_roundtrip b s
  rw [hx] at h1; rw [hy] at h3
  cases h1; cases h3
  rw [h, h4] at h2
  simp only [Option.some.injEq, Prod.mk.injEq] at h2
  exact ⟨BitVec.eq_of_toNat_eq h2.1.symm, h2.2.symm⟩

theorem zigzag_toNat (value : BitVec 32) :
    ((value <<< 1) ^^^ (value.sshiftRight 31)).toNat =
      if value.toInt < 0 then (-2 * value.toInt - 1).toNat else (2 * value.toInt).toNat := by
  have hs : value.sshiftRight 31 = if value.msb then BitVec.allOnes 32 else 0#32 := by
    apply BitVec.eq_of_getLsbD_eq
    intro i hi
    rw [BitVec.getLsbD_sshiftRight]
    cases hm : value.msb
    · simp only [Bool.false_eq_true, if_false, BitVec.getLsbD_zero]
      rw [BitVec.msb_eq_getLsbD_last] at hm
      simp at hm
      by_cases h0 : i = 0
      · subst h0; simp [hm]
      · simp [show ¬ (31 + i < 32) by omega]
    · simp only [if_true, BitVec.getLsbD_allOnes, hi, decide_true]
      rw [BitVec.msb_eq_getLsbD_last] at hm
      simp at hm
      by_cases h0 : i = 0
      · subst h0; simp [hm]
      · simp [show ¬ (31 + i < 32) by omega]; omega
  rw [hs, BitVec.toInt_eq_msb_cond]
  have hlt := value.isLt
  have hm := BitVec.msb_eq_decide value
  cases h : value.msb
  · rw [h] at hm
    simp at hm
    simp only [Bool.false_eq_true, if_false, BitVec.xor_zero]
    rw [if_neg (by omega)]
    simp only [BitVec.toNat_shiftLeft, Nat.shiftLeft_eq]
    omega
  · rw [h] at hm
    simp at hm
    simp only [if_true]
    rw [if_pos (by omega)]
    rw [BitVec.xor_allOnes, BitVec.toNat_not]
    simp only [BitVec.toNat_shiftLeft, Nat.shiftLeft_eq]
    omega

/-- **C06.** A signed value survives zig-zag plus varint encoding, in at most five bytes. -/
theorem C06_zigzag_roundtrip (value : BitVec 32) (rest : Bytes) :
    ∃ out n, encodeSi32 value = some out ∧ decode (out ++ rest) = some (n, rest) ∧
      unzigzag n = value.toInt ∧ out.length ≤ 5 := by
  obtain ⟨out, h1, h2, h3, h4, -⟩ :=
    C05_varint_roundtrip ((value <<< 1) ^^^ (value.sshiftRight 31)) rest
  refine ⟨out, _, h1, h2, ?_, h4⟩
  rw [zigzag_toNat]
  have h5 := value.toInt_lt
  have h6 := value.le_toInt
  unfold unzigzag
  split <;> split <;> omega

/-- **C06 (magnitude).** Small numbers of either sign are short: a value needs one byte exactly
when -64 ≤ value < 64, and in general `k` bytes suffice exactly when
-(128^k/2) ≤ value < 128^k/2. -/
theorem C06_zigzag_length (value : BitVec 32) (out : Bytes) (h : encodeSi32 value = some out)
    (k : Nat) (hk : 1 ≤ k) :
    out.length ≤ k ↔ (-(128 ^ k : Nat) ≤ 2 * value.toInt ∧ 2 * value.toInt < (128 ^ k : Nat)) := by
  obtain ⟨out', h1, h2, h3, h4, h5⟩ :=
    C05_varint_roundtrip ((value <<< 1) ^^^ (value.sshiftRight 31)) []
  have : out' = out := by
    unfold encodeSi32 at h; rw [h] at h1; exact (Option.some.inj h1).symm
  subst this
  rw [← h5 k hk, zigzag_toNat]
  generalize hp : 128 ^ k = p
  split <;> omega

example : encodeSi32 (BitVec.ofInt 32 (-1)) = some [1] ∧ encodeSi32 (BitVec.ofInt 32 (-65)) =
    some [0x81, 0x01] ∧ unzigzag 3 = -2 := by decide

end Mflt.Props
