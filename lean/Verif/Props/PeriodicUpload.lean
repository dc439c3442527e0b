import Verif.Model.PeriodicUpload

/-! # C89: periodic uploads -/

namespace Mflt.Props

open PeriodicUpload

/-- C89: the first upload is due between 60 s (5 s for an interval below a minute) and that plus the interval,
whatever the random number; every delay in that range is possible. -/
theorem C89_first {interval : Nat} (h0 : 0 < interval) (h : interval + 60 ≤ 2 ^ 32) :
    (∀ random, ∃ s, firstDelay interval random = some s ∧
      (60 ≤ interval → 60 ≤ s ∧ s < 60 + interval) ∧ (interval < 60 → 5 ≤ s ∧ s < 5 + interval)) ∧
    ∀ s, (60 ≤ interval → 60 ≤ s ∧ s < 60 + interval) → (interval < 60 → 5 ≤ s ∧ s < 5 + interval) →
      ∃ random < 2 ^ 32, firstDelay interval random = some s := by
  constructor
  · intro random
    have hm := Nat.mod_lt random h0
    unfold firstDelay
    rw [if_neg (show ¬ interval = 0 by omega)]
    by_cases hi : interval ≥ 60
    · refine ⟨_, rfl, ?_, fun h => by omega⟩
      intro _
      rw [if_pos hi, Nat.mod_eq_of_lt (by omega)]
      omega
    · refine ⟨_, rfl, fun h => by omega, ?_⟩
      intro _
      rw [if_neg hi, Nat.mod_eq_of_lt (by omega)]
      omega
  · intro s h1 h2
    unfold firstDelay
    simp only [if_neg (show ¬ interval = 0 by omega)]
    by_cases hi : 60 ≤ interval
    · have := h1 hi
      refine ⟨s - 60, by omega, ?_⟩
      rw [if_pos (show interval ≥ 60 from hi), Nat.mod_eq_of_lt (show s - 60 < interval by omega), Nat.mod_eq_of_lt (by omega)]
      congr 1; omega
    · have := h2 (by omega)
      refine ⟨s - 5, by omega, ?_⟩
      rw [if_neg hi, Nat.mod_eq_of_lt (show s - 5 < interval by omega), Nat.mod_eq_of_lt (by omega)]
      congr 1; omega

example : firstDelay 3600 7205 = some 65 := by decide

/-- C89: in ticks of a whole number of milliseconds the delays are those in seconds, rounded down, for intervals
of up to 49 days. Missing: other tick rates and longer intervals (`C89_false_division`, `C89_false_long`). -/
theorem C89_ticks_partial {interval tickMs : Nat} (h0 : 0 < interval) (hi : interval + 60 ≤ 4294967)
    (ht : 0 < tickMs) (random : Nat) :
    ∃ first ticks period, firstDelay interval random = some first ∧
      espDelays interval random tickMs = some (ticks, period) ∧
      ticks * tickMs ≤ 1000 * first ∧ 1000 * first < (ticks + 1) * tickMs ∧
      period * tickMs ≤ 1000 * interval ∧ 1000 * interval < (period + 1) * tickMs := by
  obtain ⟨first, f1, f2, f3⟩ := (C89_first h0 (by omega)).1 random
  have hb : first < 60 + interval := by
    by_cases hx : 60 ≤ interval
    · exact (f2 hx).2
    · have := (f3 (by omega)).2; omega
  refine ⟨first, 1000 * first / tickMs, 1000 * interval / tickMs, f1, ?_, Nat.div_mul_le_self _ _, ?_,
    Nat.div_mul_le_self _ _, ?_⟩
  · unfold espDelays
    rw [f1]
    simp only
    rw [if_neg (by omega), Nat.mod_eq_of_lt (show 1000 * first < 2 ^ 32 by omega),
      Nat.mod_eq_of_lt (show 1000 * interval < 2 ^ 32 by omega)]
  · rw [Nat.mul_comm (_ / _ + 1)]; exact Nat.lt_mul_div_succ _ ht
  · rw [Nat.mul_comm (_ / _ + 1)]; exact Nat.lt_mul_div_succ _ ht

example : espDelays 3600 7205 10 = some (6500, 360000) := by decide +kernel

private theorem loop_times (period : Nat) : ∀ (busy : List Nat) (now k : Nat), k < busy.length →
    (espLoop period now busy)[k]? = some (now + k * period + (busy.take k).sum) := by
  intro busy
  induction busy with
  | nil => intro now k h; simp at h
  | cons d t ih =>
    intro now k h
    cases k with
    | zero => simp [espLoop]
    | succ k =>
      rw [espLoop, List.getElem?_cons_succ, ih _ _ (by simpa using h), List.take_succ_cons, List.sum_cons, Nat.succ_mul]
      congr 1
      omega

/-- C89: upload number `k` of the ESP-IDF starts after the first delay, `k` intervals, and the time that the
uploads before took. So two uploads are at least an interval apart. -/
theorem C89_times {interval random tickMs ticks period : Nat}
    (h : espDelays interval random tickMs = some (ticks, period)) (busy : List Nat) :
    ∃ times, espTimes interval random tickMs busy = some times ∧
      ∀ k < busy.length, times[k]? = some (ticks + k * period + (busy.take k).sum) := by
  unfold espTimes
  rw [h]
  exact ⟨_, rfl, fun k hk => loop_times period busy ticks k hk⟩

example : espTimes 60 0 10 [7, 3, 0] = some [6000, 12007, 18010] := by decide +kernel

/-- The documentation says that the first check runs between 60 s and 60 s plus the interval: for a short
interval it is earlier. -/
theorem C89_false_documented : firstDelay 59 0 = some 5 := by decide

/-- "Subsequent checks will run at intervals": uploads that take time delay all those after them. -/
theorem C89_false_drift : espTimes 60 0 10 [500, 500, 0] = some [6000, 12500, 19000] := by decide +kernel

/-- An interval of 50 days becomes one of 7 hours; the configuration has no range. -/
theorem C89_false_long : (espDelays 4320000 0 10).map (·.2) = some 2503270 ∧ 2503270 * 10 < 26000000 := by
  decide +kernel

/-- With more than 1000 ticks a second, or an interval of 0, there is a division by 0. -/
theorem C89_false_division (interval random : Nat) :
    (∀ hz > 1000, espDelays interval random (tickPeriod hz) = none) ∧ espDelays 0 random 1 = none ∧
      firstDelay 0 random = none := by
  refine ⟨fun hz h => ?_, rfl, rfl⟩
  have : tickPeriod hz = 0 := by unfold tickPeriod; exact Nat.div_eq_of_lt h
  rw [this]
  unfold espDelays
  cases firstDelay interval random with
  | none => rfl
  | some f => rfl

/-! ## Zephyr -/

private theorem run_inv (evs : List Ev) : ∀ w : Work,
    (run w evs).uploads + (if (run w evs).waiting then 1 else 0) ≤
      w.uploads + (if w.waiting then 1 else 0) + evs.count .expire := by
  induction evs with
  | nil => intro w; exact Nat.le_refl _
  | cons e t ih =>
    intro w
    have := ih (step w e)
    rw [show run w (e :: t) = run (step w e) t from rfl]
    rcases w with ⟨wait, runn, n⟩
    cases e with
    | expire =>
      simp only [step, List.count_cons_self] at this ⊢
      cases wait <;> simp only [if_true, Bool.false_eq_true, if_false] at this ⊢ <;> omega
    | start a =>
      rw [List.count_cons_of_ne (by simp)]
      cases wait <;> cases runn <;> cases a <;>
        simp only [step, Bool.and_true, Bool.and_false, Bool.not_true, Bool.not_false, Bool.false_eq_true,
          if_true, if_false] at this ⊢ <;> omega
    | finish =>
      rw [List.count_cons_of_ne (by simp)]
      exact this

/-- C89: with Zephyr there are never more uploads than expirations of the timer, whatever the order of
events. -/
theorem C89_zephyr_bound (evs : List Ev) : (run {} evs).uploads ≤ evs.count .expire := by
  have := run_inv evs {}
  simp only [Bool.false_eq_true, if_false] at this
  have h0 : ({} : Work).uploads = 0 := rfl
  omega

/-- C89: after an expiration, data that is there when the queue is free is uploaded; without data nothing
is. -/
theorem C89_zephyr_upload (w : Work) (hw : w.running = false) (available : Bool) :
    (run w [.expire, .start available]).uploads = w.uploads + (if available then 1 else 0) ∧
      (run w [.expire, .start available]).running = available := by
  rcases w with ⟨wait, runn, n⟩
  simp only at hw
  subst hw
  cases available <;> simp [run, step]

/-- Expirations during an upload that takes longer than an interval come to a single upload after it. -/
theorem C89_false_coalesced (n : Nat) (h : 0 < n) :
    (run {} ([.expire, .start true] ++ List.replicate n .expire ++ [.finish, .start true, .finish, .start true])).uploads
      = 2 := by
  have hr : ∀ n, run { waiting := false, running := true, uploads := 1 } (List.replicate (n + 1) .expire) =
      { waiting := true, running := true, uploads := 1 } := by
    intro n
    induction n with
    | zero => rfl
    | succ n ih =>
      rw [List.replicate_succ', run, List.foldl_append]
      rw [run] at ih
      rw [ih]
      rfl
  obtain ⟨m, rfl⟩ : ∃ m, n = m + 1 := ⟨n - 1, by omega⟩
  have h1 : run {} [.expire, .start true] = { waiting := false, running := true, uploads := 1 } := by decide
  unfold run at *
  rw [List.foldl_append, List.foldl_append, h1, hr]
  decide

end Mflt.Props
