import Verif.Model.ExampleMetrics

/-!
# C132: metrics of the FreeRTOS example
-/

namespace Mflt.Props

open Mflt.Spec.ExampleMetrics Mflt.ExampleMetrics

namespace ExampleMetricsAux

theorem at_append {l : List Nat} {i : Nat} (h : i ≤ l.length) (t : Nat) : at_ (l ++ [t]) i = at_ l i := by
  unfold at_
  split
  · rfl
  · rw [List.getD_eq_getElem?_getD, List.getD_eq_getElem?_getD, List.getElem?_append_left (by omega)]

theorem at_last (l : List Nat) (t : Nat) : at_ (l ++ [t]) (l.length + 1) = t := by
  unfold at_
  rw [if_neg (by omega), List.getD_eq_getElem?_getD]
  simp

theorem day_append {c : Nat} {l : List Nat} {d : Nat} (h : (d + 1) * c ≤ l.length) (t : Nat) :
    day c (l ++ [t]) d = day c l d := by
  have h1 : d * c ≤ l.length := Nat.le_trans (Nat.mul_le_mul_right c (Nat.le_succ d)) h
  unfold day
  rw [at_append h, at_append h1]

theorem days_append {c : Nat} (l : List Nat) (t : Nat) :
    (List.range' 1 (l.length / c - 1)).map (day c (l ++ [t])) = (List.range' 1 (l.length / c - 1)).map (day c l) := by
  refine List.map_congr_left fun d hd => ?_
  rw [List.mem_range'_1] at hd
  refine day_append ?_ t
  have : d + 1 ≤ l.length / c := by omega
  exact Nat.le_trans (Nat.mul_le_mul_right c this) (Nat.div_mul_le_self _ _)

/-- The state after the heartbeats of `l`. -/
structure Inv (c : Nat) (l : List Nat) (s : State) : Prop where
  count : s.count.toNat = l.length
  began : s.began = if l.length / c = 0 then none else some (at_ l (l.length / c * c))

theorem step {interval : Nat} (hi : interval ∣ 86400) {l : List Nat} {s : State} (h : Inv (86400 / interval) l s) {t : Nat}
    (hl : l.length + 1 < 2 ^ 64) (ht : t / 1000 < 2 ^ 32) :
    Inv (86400 / interval) (l ++ [t]) (dailyHeartbeat interval s t).1 ∧
      reports (86400 / interval) (l ++ [t]) 1 = reports (86400 / interval) l 1 ++ (dailyHeartbeat interval s t).2 := by
  have hc : 0 < 86400 / interval := Nat.div_pos (Nat.le_of_dvd (by decide) hi) (Nat.pos_of_dvd_of_pos hi (by decide))
  have e : intervalCount interval = 86400 / interval := rfl
  unfold dailyHeartbeat
  rw [e]
  generalize 86400 / interval = c at hc h
  have hn : (s.count + 1).toNat = l.length + 1 := by
    rw [BitVec.toNat_add, h.count]
    exact Nat.mod_eq_of_lt hl
  have hlen : (l ++ [t]).length = l.length + 1 := by simp
  by_cases hm : (l.length + 1) % c = 0
  · have hd : (l.length + 1) / c = l.length / c + 1 := by
      rw [Nat.succ_div]
      rw [if_pos (Nat.dvd_of_mod_eq_zero hm)]
    have hcc : (l.length / c + 1) * c = l.length + 1 := by
      rw [← hd]
      exact Nat.div_mul_cancel (Nat.dvd_of_mod_eq_zero hm)
    simp only [hn, hm, if_true]
    refine ⟨⟨?_, ?_⟩, ?_⟩
    · rw [hlen]
      unfold sessionStart sessionEnd
      cases hb : s.began <;> exact hn
    · rw [hlen, hd, hcc, at_last, if_neg (Nat.succ_ne_zero _)]
      rfl
    · unfold reports
      rw [hlen, hd]
      have hb := h.began
      by_cases h0 : l.length / c = 0
      · rw [if_pos h0] at hb
        simp [sessionEnd, hb, h0]
      · rw [if_neg h0] at hb
        have hp : 0 < l.length / c := Nat.pos_of_ne_zero h0
        have e1 : l.length / c + 1 - 1 = (l.length / c - 1) + 1 := by generalize l.length / c = q at hp ⊢; omega
        rw [e1, List.range'_1_concat, List.map_append, days_append]
        congr 1
        have e2 : 1 + (l.length / c - 1) = l.length / c := by generalize l.length / c = q at hp ⊢; omega
        simp only [sessionEnd, hb, List.map_cons, List.map_nil, e2]
        unfold day
        rw [hcc, at_last, at_append (Nat.div_mul_le_self _ _), Nat.mod_eq_of_lt ht]
  · have hd : (l.length + 1) / c = l.length / c := by
      rw [Nat.succ_div]
      rw [if_neg fun h' => hm (Nat.mod_eq_zero_of_dvd h')]
      rfl
    simp only [hn, hm, if_false]
    refine ⟨⟨?_, ?_⟩, ?_⟩
    · rw [hlen]
      exact hn
    · rw [hlen, hd, at_append (Nat.div_mul_le_self _ _)]
      exact h.began
    · unfold reports
      rw [hlen, hd, days_append, List.append_nil]

theorem all {interval : Nat} (hi : interval ∣ 86400) : ∀ (m l : List Nat) (s : State), Inv (86400 / interval) l s →
    (l ++ m).length < 2 ^ 64 → (∀ t ∈ m, t / 1000 < 2 ^ 32) →
      reports (86400 / interval) (l ++ m) 1 = reports (86400 / interval) l 1 ++ (heartbeats interval s m).2 := by
  intro m
  induction m with
  | nil => intro l s _ _ _; simp [heartbeats]
  | cons t m ih =>
    intro l s h hl ht
    have hl' : l.length + 1 < 2 ^ 64 := by
      rw [List.length_append, List.length_cons] at hl
      omega
    obtain ⟨h1, h2⟩ := step hi h hl' (ht t (List.mem_cons_self ..))
    have := ih (l ++ [t]) _ h1 (by simpa using hl) fun u hu => ht u (List.mem_cons_of_mem _ hu)
    rw [List.append_assoc, List.singleton_append, h2] at this
    rw [this, List.append_assoc]
    rfl

end ExampleMetricsAux

open ExampleMetricsAux

/-- C132. For every interval of heartbeats that divides a day, and every number of heartbeats at any times: each full day but the
first has exactly one report, in order, from the last heartbeat of the day before to its own last heartbeat, with the seconds since
boot at its end. Missing: the first day, which has no report (`C132_false_first_day`). -/
theorem C132_days_partial {interval : Nat} (hi : interval ∣ 86400) (times : List Nat) (hn : times.length < 2 ^ 64)
    (ht : ∀ t ∈ times, t / 1000 < 2 ^ 32) :
    (heartbeats interval init times).2 = reports (86400 / interval) times 1 := by
  have := all hi times [] init ⟨rfl, by simp [init]⟩ (by simpa using hn) ht
  rw [List.nil_append] at this
  rw [this]
  simp [reports]

example : (heartbeats 28800 init [1000, 2000, 3000, 4000, 5000, 6000, 7000]).2 = [⟨3000, 6000, some 6⟩] ∧
    reports (86400 / 28800) [1000, 2000, 3000, 4000, 5000, 6000, 7000] 1 = [⟨3000, 6000, some 6⟩] ∧
    28800 ∣ 86400 := by decide

/-- C132. If heartbeats come once in an interval, every report covers 24 hours. -/
theorem C132_day_length {interval : Nat} (hi : interval ∣ 86400) (times : List Nat) (hn : times.length < 2 ^ 64)
    (ht : ∀ t ∈ times, t / 1000 < 2 ^ 32) (start : Nat)
    (hr : ∀ (i : Nat) (h : i < times.length), times[i] = start + i * (interval * 1000)) :
    ∀ r ∈ (heartbeats interval init times).2, r.ended = r.began + 86400000 := by
  intro r hr'
  rw [C132_days_partial hi times hn ht] at hr'
  unfold reports at hr'
  obtain ⟨d, hd, rfl⟩ := List.mem_map.1 hr'
  rw [List.mem_range'_1] at hd
  have hc : 0 < 86400 / interval := Nat.div_pos (Nat.le_of_dvd (by decide) hi) (Nat.pos_of_dvd_of_pos hi (by decide))
  have hm : 86400 / interval * interval = 86400 := Nat.div_mul_cancel hi
  generalize 86400 / interval = c at *
  have h1 : (d + 1) * c ≤ times.length := by
    have : d + 1 ≤ times.length / c := by omega
    exact Nat.le_trans (Nat.mul_le_mul_right c this) (Nat.div_mul_le_self _ _)
  have h2 : c ≤ d * c := Nat.le_mul_of_pos_left c (by omega)
  have h3 : (d + 1) * c = d * c + c := Nat.succ_mul d c
  have key : ∀ i, 0 < i → i ≤ times.length → at_ times i = start + (i - 1) * (interval * 1000) := by
    intro i h0 hle
    unfold at_
    rw [if_neg (by omega), List.getD_eq_getElem?_getD, List.getElem?_eq_getElem (by omega), Option.getD_some, hr]
  show at_ times ((d + 1) * c) = at_ times (d * c) + 86400000
  rw [key _ (by omega) h1, key _ (by omega) (by omega), h3]
  have e : d * c + c - 1 = (d * c - 1) + c := by omega
  rw [e, Nat.add_mul, ← Nat.mul_assoc c, hm]
  omega

example : (heartbeats 43200 init [43200000, 86400000, 129600000, 172800000]).2 = [⟨86400000, 172800000, some 172800⟩] := by decide

/-- C132 is false for the first day: no interval has a report of it. -/
theorem C132_false_first_day {interval : Nat} (hi : interval ∣ 86400) (times : List Nat) (hn : times.length = 86400 / interval)
    (ht : ∀ t ∈ times, t / 1000 < 2 ^ 32) :
    (heartbeats interval init times).2 = [] ∧ (reports (86400 / interval) times 0).length = 1 := by
  have hc : 0 < 86400 / interval := Nat.div_pos (Nat.le_of_dvd (by decide) hi) (Nat.pos_of_dvd_of_pos hi (by decide))
  have hlt : times.length < 2 ^ 64 := by
    have := Nat.div_le_self 86400 interval
    omega
  rw [C132_days_partial hi times hlt ht]
  unfold reports
  rw [hn, Nat.div_self hc]
  simp

/-- C132. The most that was used of the FreeRTOS heap is reported in hundredths of a percent, and never as more than everything.
Missing: heaps of more than 429496 bytes (`C132_false_heap`). -/
theorem C132_heap_partial (total free : BitVec 32) (h0 : 0 < total.toNat) (h : total.toNat ≤ 429496)
    (hf : free.toNat ≤ total.toNat) :
    IsPercent (heapPctMax total free).toNat (total.toNat - free.toNat) total.toNat ∧ (heapPctMax total free).toNat ≤ 10000 := by
  have hs : (total - free).toNat = total.toNat - free.toNat := BitVec.toNat_sub_of_le hf
  have hv : (heapPctMax total free).toNat = 10000 * (total.toNat - free.toNat) / total.toNat := by
    unfold heapPctMax
    rw [BitVec.toNat_udiv, BitVec.toNat_mul, hs]
    show 10000 * (total.toNat - free.toNat) % 2 ^ 32 / total.toNat = _
    rw [Nat.mod_eq_of_lt (by omega)]
  rw [hv]
  refine ⟨⟨Nat.div_mul_le_self _ _, ?_⟩, ?_⟩
  · rw [Nat.mul_comm (_ + 1) total.toNat]
    exact Nat.lt_mul_div_succ _ h0
  · exact Nat.div_le_of_le_mul (by rw [Nat.mul_comm]; exact Nat.mul_le_mul_right _ (Nat.sub_le _ _))

example : heapPctMax 2048 512 = 7500 := by decide

/-- C132 is false for a FreeRTOS heap of 512 KiB of which all was used: 1808 hundredths of a percent are reported. -/
theorem C132_false_heap : ∃ total free : BitVec 32, free.toNat ≤ total.toNat ∧
    ¬ IsPercent (heapPctMax total free).toNat (total.toNat - free.toNat) total.toNat :=
  ⟨524288, 0, by decide, by unfold IsPercent; decide⟩

namespace ExampleMetricsAux

theorem words {top bottom : BitVec 32} (hb : bottom.toNat ≤ top.toNat) (hs : top.toNat - bottom.toNat < 2 ^ 31) :
    (wordsBetween top bottom).toNat = (top.toNat - bottom.toNat) / 4 := by
  have h1 : (top - bottom).toNat = top.toNat - bottom.toNat := BitVec.toNat_sub_of_le hb
  unfold wordsBetween
  rw [BitVec.toInt_eq_toNat_of_lt (by rw [h1]; omega), h1, BitVec.toNat_ofInt]
  omega

theorem libc {top bottom used : BitVec 32} (hb : bottom.toNat ≤ top.toNat) (hs : top.toNat - bottom.toNat < 2 ^ 31)
    (hu : used.toNat ≤ 429496) :
    (libcHeapPct top bottom used).toNat = 10000 * used.toNat / ((top.toNat - bottom.toNat) / 4) := by
  unfold libcHeapPct
  rw [BitVec.toNat_udiv, BitVec.toNat_mul, words hb hs]
  show 10000 * used.toNat % 2 ^ 32 / _ = _
  rw [Nat.mod_eq_of_lt (by omega)]

end ExampleMetricsAux

/-- C132. What is used of the C library's heap is reported in hundredths of a percent of a quarter of the heap. Missing: it is to be
a share of the heap (`C132_false_libc`). -/
theorem C132_libc_partial (top bottom used : BitVec 32) (hb : bottom.toNat + 4 ≤ top.toNat)
    (hs : top.toNat - bottom.toNat < 2 ^ 31) (ha : 4 ∣ top.toNat - bottom.toNat) (hu : used.toNat ≤ 429496) :
    IsPercent (libcHeapPct top bottom used).toNat (4 * used.toNat) (top.toNat - bottom.toNat) := by
  rw [libc (by omega) hs hu]
  obtain ⟨w, hw⟩ := ha
  rw [hw, Nat.mul_div_cancel_left _ (by decide)]
  have h0 : 0 < w := by omega
  have h1 := Nat.div_mul_le_self (10000 * used.toNat) w
  have h2 := Nat.lt_mul_div_succ (10000 * used.toNat) h0
  rw [Nat.mul_comm w] at h2
  unfold IsPercent
  generalize 10000 * used.toNat / w = q at *
  constructor
  · calc q * (4 * w) = 4 * (q * w) := by ac_rfl
      _ ≤ 4 * (10000 * used.toNat) := Nat.mul_le_mul_left _ h1
      _ = _ := by ac_rfl
  · calc 10000 * (4 * used.toNat) = 4 * (10000 * used.toNat) := by ac_rfl
      _ < 4 * ((q + 1) * w) := Nat.mul_lt_mul_of_pos_left h2 (by decide)
      _ = _ := by ac_rfl

example : libcHeapPct 0x20003000 0x20000000 0x600 = 5000 := by decide

/-- C132 is false for the C library's heap: once a quarter of it is used, 100 % and more are reported. -/
theorem C132_false_libc (top bottom used : BitVec 32) (hb : bottom.toNat + 4 ≤ top.toNat)
    (hs : top.toNat - bottom.toNat < 2 ^ 31) (ha : 4 ∣ top.toNat - bottom.toNat) (hu : used.toNat ≤ 429496)
    (hq : top.toNat - bottom.toNat ≤ 4 * used.toNat) : 10000 ≤ (libcHeapPct top bottom used).toNat := by
  rw [libc (by omega) hs hu]
  obtain ⟨w, hw⟩ := ha
  rw [hw, Nat.mul_div_cancel_left _ (by decide), Nat.le_div_iff_mul_le (by omega)]
  omega

example : libcHeapPct 0x20003000 0x20000000 0xc00 = 10000 ∧ libcHeapPct 0x20003000 0x20000000 0x3000 = 40000 := by decide

end Mflt.Props
