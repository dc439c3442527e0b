import Verif.Lemmas.HttpNum

/-!
# Lemmas about URL encoding
-/

namespace Mflt.Http

open Mflt.Spec.Http (Unreserved percentDecode encodedLength hexValue IsDigit)

theorem isUnreserved_iff (c : UInt8) : isUnreserved c = true ↔ Unreserved c := by
  have h : ∀ n < 256, isUnreserved (UInt8.ofNat n) = decide (Unreserved (UInt8.ofNat n)) := by decide +kernel
  have := h c.toNat c.toNat_lt
  rw [UInt8.ofNat_toNat] at this
  rw [this, decide_eq_true_iff]

/-- The characters for one character. -/
def enc (c : UInt8) : Bytes := if isUnreserved c then [c] else (escaped c).take 3

theorem enc_length (c : UInt8) : (enc c).length = if Unreserved c then 1 else 3 := by
  unfold enc
  by_cases h : isUnreserved c = true
  · rw [if_pos h, if_pos ((isUnreserved_iff c).1 h)]; rfl
  · rw [if_neg h, if_neg (fun hx => h ((isUnreserved_iff c).2 hx))]; rfl

theorem encodedLength_cons (c : UInt8) (cs : Bytes) :
    encodedLength (c :: cs) = (enc c).length + encodedLength cs := by
  rw [enc_length]; rfl

theorem decode_escape (c : UInt8) : hexValue (upperHex (c.toNat / 16)) = some (c.toNat / 16) ∧
    hexValue (upperHex (c.toNat % 16)) = some (c.toNat % 16) := by
  have h : ∀ n < 16, hexValue (upperHex n) = some n := by decide +kernel
  have := c.toNat_lt
  exact ⟨h _ (by omega), h _ (by omega)⟩

theorem percentDecode_enc (c : UInt8) (rest : Bytes) :
    percentDecode (enc c ++ rest) = (percentDecode rest).map (c :: ·) := by
  unfold enc
  by_cases h : isUnreserved c = true
  · rw [if_pos h]
    have hne : c ≠ 37 := by rintro rfl; exact absurd h (by decide)
    show percentDecode (c :: rest) = _
    rw [percentDecode, if_pos ((isUnreserved_iff c).1 h)]
    rintro _ _ _ rfl
    exact absurd rfl hne
  · rw [if_neg h]
    show percentDecode (37 :: upperHex (c.toNat / 16) :: upperHex (c.toNat % 16) :: rest) = _
    rw [percentDecode, (decode_escape c).1, (decode_escape c).2]
    cases percentDecode rest with
    | none => rfl
    | some s =>
      dsimp only [Option.map_some]
      rw [show 16 * (c.toNat / 16) + c.toNat % 16 = c.toNat by omega, UInt8.ofNat_toNat]

/-- The loop with `done` written and `room` bytes of the buffer left. -/
theorem urlencodeLoop_eq : ∀ (s done left : Bytes), 1 ≤ left.length →
    if encodedLength s + 1 ≤ left.length then
      ∃ e, e = s.flatMap enc ∧ e.length = encodedLength s ∧ percentDecode e = some s ∧
        urlencodeLoop s done.length left.length (done ++ left) =
          some (0, done ++ e ++ [0] ++ left.drop (e.length + 1))
    else ∃ out, out.length = (done ++ left).length ∧ out.take done.length = done ∧
        urlencodeLoop s done.length left.length (done ++ left) = some (-1, out)
  | [], done, left, h => by
    rw [if_pos (by simpa [encodedLength] using h)]
    refine ⟨[], rfl, rfl, rfl, ?_⟩
    unfold urlencodeLoop
    rw [memcpyIn_at rfl (by simpa using h)]
    simp
  | c :: cs, done, left, h => by
    rw [encodedLength_cons]
    unfold urlencodeLoop
    by_cases h2 : left.length < 2
    · rw [if_pos h2, if_neg (by rw [enc_length]; split <;> omega)]
      exact ⟨_, rfl, List.take_left' rfl, rfl⟩
    · rw [if_neg h2]
      have hcl := enc_length c
      by_cases hu : isUnreserved c = true
      · rw [if_pos hu, memcpyIn_at rfl (by simpa using h)]
        have hel : (enc c).length = 1 := by rw [hcl, if_pos ((isUnreserved_iff c).1 hu)]
        have he : enc c = [c] := by unfold enc; rw [if_pos hu]
        have ih := urlencodeLoop_eq cs (done ++ [c]) (left.drop 1) (by rw [List.length_drop]; omega)
        rw [List.length_drop, List.length_append] at ih
        rw [hel]
        by_cases hfit : encodedLength cs + 1 ≤ left.length - 1
        · rw [if_pos hfit] at ih
          rw [if_pos (by omega)]
          obtain ⟨e, e0, e1, e2, e3⟩ := ih
          refine ⟨enc c ++ e, by rw [e0, List.flatMap_cons], by rw [List.length_append, hel, e1], ?_, ?_⟩
          · rw [percentDecode_enc, e2]; rfl
          · dsimp only
            refine Eq.trans e3 ?_
            rw [he, List.drop_drop]
            congr 2
            simp only [List.append_assoc, List.length_append, List.length_singleton]
            rw [show 1 + e.length + 1 = 1 + (e.length + 1) by omega]
        · rw [if_neg hfit] at ih
          rw [if_neg (by omega)]
          obtain ⟨out, e1, e2, e3⟩ := ih
          refine ⟨out, ?_, ?_, e3⟩
          · rw [e1]; simp; omega
          · have := congrArg (List.take done.length) e2
            rw [List.take_take, List.take_left' rfl, Nat.min_eq_left (by omega)] at this
            exact this
      · rw [if_neg hu]
        have hel : (enc c).length = 3 := by rw [hcl, if_neg (fun hx => hu ((isUnreserved_iff c).2 hx))]
        have he : escaped c = enc c ++ [0] := by unfold enc; rw [if_neg hu]; rfl
        by_cases h4 : left.length < 4
        · rw [if_pos h4, if_neg (by omega)]
          exact ⟨_, rfl, List.take_left' rfl, rfl⟩
        · rw [if_neg h4, memcpyIn_at rfl (by rw [he, List.length_append, hel]; show 3 + 1 ≤ _; omega)]
          have ih := urlencodeLoop_eq cs (done ++ enc c) ([0] ++ left.drop 4) (by simp)
          rw [List.length_append, List.length_append, List.length_drop, hel] at ih
          have hroom : ([0] : Bytes).length + (left.length - 4) = left.length - 3 := by
            show 1 + (left.length - 4) = _; omega
          rw [hroom] at ih
          have hbuf : done ++ escaped c ++ left.drop (escaped c).length = done ++ enc c ++ ([0] ++ left.drop 4) := by
            rw [he]
            have : (enc c ++ [0]).length = 4 := by rw [List.length_append, hel]; rfl
            rw [this]
            simp only [List.append_assoc]
          dsimp only
          rw [hbuf, hel]
          by_cases hfit : encodedLength cs + 1 ≤ left.length - 3
          · rw [if_pos hfit] at ih
            rw [if_pos (by omega)]
            obtain ⟨e, e0, e1, e2, e3⟩ := ih
            refine ⟨enc c ++ e, by rw [e0, List.flatMap_cons], by rw [List.length_append, hel, e1], ?_, ?_⟩
            · rw [percentDecode_enc, e2]; rfl
            · refine Eq.trans e3 ?_
              congr 2
              simp only [List.append_assoc, List.length_append, hel]
              have hdr : ([0] ++ left.drop 4).drop (e.length + 1) = left.drop (3 + e.length + 1) := by
                show (left.drop 4).drop e.length = _
                rw [List.drop_drop]
                congr 1
                omega
              rw [hdr]
          · rw [if_neg hfit] at ih
            rw [if_neg (by omega)]
            obtain ⟨out, e1, e2, e3⟩ := ih
            refine ⟨out, ?_, ?_, e3⟩
            · rw [e1]; simp [hel]; omega
            · have := congrArg (List.take done.length) e2
              rw [List.take_take, List.take_left' rfl, Nat.min_eq_left (by omega)] at this
              exact this

end Mflt.Http
