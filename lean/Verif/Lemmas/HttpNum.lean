import Verif.Model.Http
import Verif.Spec.Http
import Verif.Lemmas.Mem
import Mathlib.Tactic.Ring
import Mathlib.Tactic.Linarith

/-!
# Lemmas about numbers, spaces and names in HTTP lines
-/

namespace Mflt.Http

open Mflt.Spec.Http (IsDigit decimal word toLower RollsOver)

theorem isNumber_iff (c : UInt8) : isNumber c = true ↔ IsDigit c := by
  unfold isNumber IsDigit
  rw [Bool.and_eq_true, decide_eq_true_iff, decide_eq_true_iff, UInt8.le_iff_toNat_le, UInt8.le_iff_toNat_le]
  rfl

theorem lower_eq (c : UInt8) : lower c = if 97 ≤ c.toNat ∧ c.toNat ≤ 122 then c else
    if c.toNat = 64 ∨ c.toNat = 96 then c else toLower c := by
  have h : ∀ n < 256, lower (UInt8.ofNat n) = if 97 ≤ n ∧ n ≤ 122 then UInt8.ofNat n else
      if n = 64 ∨ n = 96 then UInt8.ofNat n else toLower (UInt8.ofNat n) := by decide +kernel
  have := h c.toNat c.toNat_lt
  simpa using this

theorem lower_toLower (c : UInt8) : lower c = toLower c := by
  rw [lower_eq]
  unfold toLower
  split
  · rw [if_neg (by omega)]
  · split
    · rw [if_neg (by omega)]
    · rfl

/-! ## Numbers -/

/-- The loop on the characters that are left. -/
def decL : Bytes → Nat → Nat → Int → Option (Option (Int × Nat))
  | _, 0, idx, r => some (some (r, idx))
  | [], _ + 1, _, _ => none
  | c :: cs, fuel + 1, idx, r =>
    if c = 32 then some (some (r, idx))
    else if !isNumber c then some none
    else if 214748364 < wrap (r + (c.toNat - 48)) then some none
    else decL cs fuel (idx + 1) (wrap (r * 10 + (c.toNat - 48)))

theorem strToDecLoop_eq (line : Bytes) (start : Nat) : ∀ (fuel idx : Nat) (r : Int),
    strToDecLoop line start fuel idx r = decL (line.drop (start + idx)) fuel idx r
  | 0, idx, r => by unfold strToDecLoop; cases line.drop (start + idx) <;> rfl
  | fuel + 1, idx, r => by
    unfold strToDecLoop
    by_cases h : start + idx < line.length
    · rw [List.getElem?_eq_getElem h, List.drop_eq_getElem_cons h]
      unfold decL
      dsimp only
      split
      · rfl
      · split
        · rfl
        · split
          · rfl
          · rw [strToDecLoop_eq line start fuel, Nat.add_assoc]
    · rw [List.getElem?_eq_none (by omega), List.drop_eq_nil_of_le (by omega)]
      rfl

theorem strToDec_eq (line : Bytes) (start len : Nat) :
    strToDec line start len = decL (line.drop start) len 0 0 := strToDecLoop_eq line start len 0 0

theorem decL_take : ∀ (s : Bytes) (fuel idx : Nat) (r : Int), fuel ≤ s.length →
    decL s fuel idx r = decL (s.take fuel) fuel idx r
  | _, 0, _, _, _ => by simp [decL]
  | [], fuel + 1, _, _, h => by simp at h
  | c :: cs, fuel + 1, idx, r, h => by
    simp only [List.take_succ_cons]
    unfold decL
    rw [decL_take cs fuel _ _ (by simpa using h)]

/-- The loop does not run out of the string when it is as long as the number may be, or when it has
something which is no digit. -/
theorem decL_total : ∀ (s : Bytes) (fuel idx : Nat) (r : Int),
    (fuel ≤ s.length ∨ ∃ c ∈ s, isNumber c = false) → ∃ o, decL s fuel idx r = some o
  | s, 0, idx, r, _ => ⟨_, by unfold decL; rfl⟩
  | [], fuel + 1, _, _, h => by simp at h
  | c :: cs, fuel + 1, idx, r, h => by
    unfold decL
    split
    · exact ⟨_, rfl⟩
    · split
      · exact ⟨_, rfl⟩
      · rename_i hn
        split
        · exact ⟨_, rfl⟩
        · refine decL_total cs fuel _ _ ?_
          rcases h with h | ⟨d, hd, hn'⟩
          · left; simpa using h
          · right
            rcases List.mem_cons.1 hd with rfl | hd
            · simp [hn'] at hn
            · exact ⟨d, hd, hn'⟩

theorem wrap_small {x : Int} (h : -2147483648 ≤ x) (h' : x < 2147483648) : wrap x = x := by
  unfold wrap
  rw [Int.bmod_eq_of_le (by omega) (by omega)]

theorem word_cons {c : UInt8} (h : c ≠ 32) (cs : Bytes) : word (c :: cs) = c :: word cs := by
  simp [word, h]

theorem word_space (cs : Bytes) : word (32 :: cs) = [] := by simp [word]

theorem decimal_snoc (s : Bytes) (c : UInt8) : decimal (s ++ [c]) = 10 * decimal s + (c.toNat - 48) := by
  simp [decimal]

theorem foldl_mono (s : Bytes) : ∀ n, n ≤ s.foldl (fun n c => 10 * n + (c.toNat - 48)) n := by
  induction s with
  | nil => intro n; exact Nat.le_refl _
  | cons c cs ih => intro n; exact Nat.le_trans (by show n ≤ 10 * n + (c.toNat - 48); omega) (ih _)

theorem decimal_prefix (s t : Bytes) : decimal s ≤ decimal (s ++ t) := by
  simp only [decimal, List.foldl_append]
  exact foldl_mono t _

/-- What the loop computes, as long as the string is long enough. -/
theorem decL_sound (s : Bytes) : ∀ (fuel idx : Nat) (pre : Bytes) (v : Int) (n : Nat),
    decimal pre ≤ 2147483640 → decimal pre ≠ 2147483639 → pre.length = idx →
    ¬RollsOver (pre ++ word (s.take fuel)) →
    decL s fuel idx (decimal pre) = some (some (v, n)) →
    (∀ c ∈ word (s.take fuel), IsDigit c) ∧ v = decimal (pre ++ word (s.take fuel)) ∧
      n = idx + (word (s.take fuel)).length ∧ v ≤ 2147483640 := by
  have hz : ∀ (s : Bytes) (idx : Nat) (pre : Bytes) (v : Int) (n : Nat), decimal pre ≤ 2147483640 →
      some (some ((decimal pre : Int), idx)) = some (some (v, n)) →
      (∀ c ∈ ([] : Bytes), IsDigit c) ∧ v = decimal (pre ++ []) ∧
      n = idx + ([] : Bytes).length ∧ v ≤ 2147483640 := by
    intro s idx pre v n hp h
    simp only [Option.some.injEq, Prod.mk.injEq] at h
    obtain ⟨rfl, rfl⟩ := h
    rw [List.append_nil]
    exact ⟨by simp, rfl, rfl, by omega⟩
  induction s with
  | nil =>
    intro fuel idx pre v n hp h39 hi hro h
    cases fuel with
    | zero => exact hz [] idx pre v n hp h
    | succ fuel => unfold decL at h; simp at h
  | cons c cs ih =>
    intro fuel idx pre v n hp h39 hi hro h
    cases fuel with
    | zero => exact hz [] idx pre v n hp h
    | succ fuel =>
    unfold decL at h
    by_cases hc : c = 32
    · subst hc
      rw [if_pos rfl] at h
      rw [List.take_succ_cons, word_space]
      exact hz [] idx pre v n hp h
    · rw [if_neg hc] at h
      rw [List.take_succ_cons, word_cons hc] at hro ⊢
      by_cases hd : isNumber c = true
      · rw [hd] at h
        simp only [Bool.not_true, Bool.false_eq_true, if_false] at h
        have hdig := (isNumber_iff c).1 hd
        have hdig' := hdig
        unfold IsDigit at hdig'
        have hdec := decimal_snoc pre c
        have hcast : ((decimal (pre ++ [c]) : Nat) : Int) = decimal pre * 10 + (c.toNat - 48) := by
          rw [hdec]; push_cast; omega
        have hno : ¬(decimal pre = 2147483640 ∧ (c = 56 ∨ c = 57)) := fun hx =>
          hro ⟨pre, word (cs.take fuel), c, rfl, hx.1, hx.2⟩
        have hno' : (decimal pre : Int) + (c.toNat - 48) < 2147483648 := by
          by_contra hov
          refine hno ⟨by omega, ?_⟩
          have h89 : c.toNat = 56 ∨ c.toNat = 57 := by omega
          rcases h89 with h | h
          · left; exact UInt8.toNat.inj h
          · right; exact UInt8.toNat.inj h
        rw [wrap_small (by omega) hno'] at h
        by_cases hsmall : (214748364 : Int) < decimal pre + (c.toNat - 48)
        · rw [if_pos hsmall] at h; cases h
        · rw [if_neg hsmall, wrap_small (by omega) (by omega), ← hcast] at h
          have ih := ih fuel (idx + 1) (pre ++ [c]) v n (by omega) (by omega)
            (by rw [List.length_append, hi]; rfl)
            (by rw [List.append_assoc]; exact hro) h
          obtain ⟨i1, i2, i3, i4⟩ := ih
          refine ⟨?_, ?_, ?_, i4⟩
          · intro x hx
            rcases List.mem_cons.1 hx with rfl | hx
            · exact hdig
            · exact i1 x hx
          · rw [i2, List.append_assoc]; rfl
          · rw [i3, List.length_cons]; omega
      · rw [Bool.not_eq_true] at hd
        rw [hd] at h
        simp at h

/-- A string of digits whose value is not too large is parsed. -/
theorem decL_complete (s : Bytes) : ∀ (fuel idx : Nat) (pre : Bytes),
    (∀ c ∈ s, IsDigit c) → decimal (pre ++ s) < 2147483560 → ∀ (t : Bytes),
    (fuel = s.length ∨ (s.length < fuel ∧ t.head? = some 32)) →
    decL (s ++ t) fuel idx (decimal pre) = some (some (((decimal (pre ++ s) : Nat) : Int), idx + s.length)) := by
  induction s with
  | nil =>
    intro fuel idx pre _ _ t hf
    rw [List.append_nil]
    rcases hf with rfl | ⟨h1, h2⟩
    · unfold decL; rfl
    · obtain ⟨fuel, rfl⟩ : ∃ f, fuel = f + 1 := ⟨fuel - 1, by simp at h1; omega⟩
      cases t with
      | nil => cases h2
      | cons c t =>
        cases h2
        rw [List.nil_append]
        unfold decL
        rw [if_pos rfl]
        rfl
  | cons c s ih =>
    intro fuel idx pre hd hv t hf
    have hdig := hd c (List.mem_cons_self ..)
    have hnum := (isNumber_iff c).2 hdig
    unfold IsDigit at hdig
    obtain ⟨fuel, rfl⟩ : ∃ f, fuel = f + 1 := ⟨fuel - 1, by rw [List.length_cons] at hf; omega⟩
    have hc : c ≠ 32 := by rintro rfl; exact absurd hdig.1 (by decide)
    have hpre := decimal_prefix (pre ++ [c]) s
    have hdec := decimal_snoc pre c
    have hcast : ((decimal (pre ++ [c]) : Nat) : Int) = decimal pre * 10 + (c.toNat - 48) := by
      rw [hdec]; push_cast; omega
    have happ : pre ++ c :: s = (pre ++ [c]) ++ s := by rw [List.append_assoc]; rfl
    rw [happ] at hv ⊢
    rw [List.cons_append]
    unfold decL
    rw [if_neg hc, hnum, wrap_small (by omega) (by omega), wrap_small (by omega) (by omega)]
    simp only [Bool.not_true, Bool.false_eq_true, if_false]
    rw [if_neg (by omega), ← hcast, ih fuel (idx + 1) (pre ++ [c]) (fun x hx => hd x (List.mem_cons_of_mem _ hx))
      hv t (by rw [List.length_cons] at hf
               rcases hf with h | ⟨h1, h2⟩
               · left; omega
               · right; exact ⟨by omega, h2⟩)]
    rw [List.length_cons]
    congr 3
    omega

/-! ## Spaces -/

theorem countSpacesLoop_run (line : Bytes) (k : Nat) : ∀ (fuel i : Nat) (pre rest : Bytes), pre.length = i →
    line = pre ++ List.replicate k 32 ++ rest →
    (fuel = k ∨ (k < fuel ∧ ∃ c, rest.head? = some c ∧ c ≠ 32)) →
    countSpacesLoop line fuel i = some k := by
  induction k with
  | zero =>
    intro fuel i pre rest hp hl hf
    rcases hf with rfl | ⟨h1, c, h2, h3⟩
    · unfold countSpacesLoop; rfl
    · obtain ⟨fuel, rfl⟩ : ∃ f, fuel = f + 1 := ⟨fuel - 1, by omega⟩
      cases rest with
      | nil => cases h2
      | cons d rest =>
        cases h2
        unfold countSpacesLoop
        have : line[i]? = some c := by subst hp; rw [hl]; simp
        rw [this]
        dsimp only
        rw [if_pos (by simpa using h3)]
  | succ k ih =>
    intro fuel i pre rest hp hl hf
    obtain ⟨fuel, rfl⟩ : ∃ f, fuel = f + 1 := ⟨fuel - 1, by omega⟩
    unfold countSpacesLoop
    have : line[i]? = some 32 := by subst hp; rw [hl]; simp
    rw [this]
    dsimp only
    rw [if_neg (by simp), ih fuel (i + 1) (pre ++ [32]) rest (by simp [hp])
      (by rw [hl, List.replicate_succ]; simp)
      (by rcases hf with h | ⟨h1, h2⟩
          · left; omega
          · right; exact ⟨by omega, h2⟩)]
    rfl

/-- Spaces are counted inside the line. -/
theorem countSpacesLoop_total (line : Bytes) : ∀ (fuel i : Nat), i + fuel ≤ line.length →
    ∃ n ≤ fuel, countSpacesLoop line fuel i = some n
  | 0, i, _ => ⟨0, Nat.le_refl _, by unfold countSpacesLoop; rfl⟩
  | fuel + 1, i, h => by
    unfold countSpacesLoop
    rw [List.getElem?_eq_getElem (by omega)]
    dsimp only
    split
    · exact ⟨0, by omega, rfl⟩
    · obtain ⟨n, h1, h2⟩ := countSpacesLoop_total line fuel (i + 1) (by omega)
      exact ⟨n + 1, by omega, by rw [h2]; rfl⟩

/-! ## Names -/

theorem strcasecmp_eq : ∀ (line str : Bytes), str.length ≤ line.length →
    strcasecmp line str = some (decide ((line.take str.length).map toLower = str))
  | line, [], _ => by unfold strcasecmp; simp
  | [], s :: str, h => by simp at h
  | c :: line, s :: str, h => by
    unfold strcasecmp
    rw [lower_toLower, strcasecmp_eq line str (by simpa using h)]
    by_cases hc : toLower c = s
    · simp [hc]
    · simp [hc]

end Mflt.Http
