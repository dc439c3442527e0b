import Verif.Model.SystemTime

/-!
# C114: the time of day a device attaches to its data

`Spec.SystemTime` has the calendar and says when the time is known.
-/

namespace Mflt.Props

open SystemTime
open Spec.SystemTime

namespace SystemTimeAux

theorem u64_eq {x : Int} (h0 : 0 ≤ x) (h1 : x < 2 ^ 64) : u64 x = x.toNat := by
  unfold u64
  rw [Int.emod_eq_of_lt h0 h1]

theorem ready_eq (evts : List Evt) : ∀ b, evts.foldl dateTimeEvent b =
    match evts.getLast? with
    | none => b
    | some e => decide (e ≠ .failed) := by
  induction evts with
  | nil => intro b; rfl
  | cons e es ih =>
    intro b
    rw [List.foldl_cons, ih]
    cases es with
    | nil => cases b <;> cases e <;> rfl
    | cons e' es =>
      rw [List.getLast?_cons_cons]
      rw [List.getLast?_cons]

theorem daysTo_mono {a b : Nat} (h : a ≤ b) : daysTo a ≤ daysTo b := by
  induction b with
  | zero => rw [Nat.le_zero.1 h]; exact Nat.le_refl _
  | succ b ih =>
    by_cases hb : a = b + 1
    · rw [hb]; exact Nat.le_refl _
    · have := ih (by omega)
      rw [daysTo]
      omega

/-- A year is before another one iff the times in it are. -/
theorem year_le {y k : Nat} {t : Int} (h : InYear y t) (hk : 1970 ≤ k) : k ≤ y ↔ (daysTo (k - 1970) * 86400 : Nat) ≤ t := by
  obtain ⟨h1, h2, h3⟩ := h
  constructor
  · intro hle
    have := daysTo_mono (show k - 1970 ≤ y - 1970 by omega)
    omega
  · intro hle
    by_cases hc : k ≤ y
    · exact hc
    · have := daysTo_mono (show y + 1 - 1970 ≤ k - 1970 by omega)
      omega

theorem months_bound (y i : Nat) : (months y).getD i 0 ≤ 31 := by
  unfold months
  by_cases hl : leap y = true
  · rw [if_pos hl]
    match i with
    | 0 | 1 | 2 | 3 | 4 | 5 | 6 | 7 | 8 | 9 | 10 | 11 => decide
    | _ + 12 => simp
  · rw [if_neg hl]
    match i with
    | 0 | 1 | 2 | 3 | 4 | 5 | 6 | 7 | 8 | 9 | 10 | 11 => decide
    | _ + 12 => simp

theorem before_bound (y i : Nat) : ((months y).take i).sum + (months y).getD i 0 ≤ yearDays y := by
  unfold months yearDays
  by_cases hl : leap y = true
  · rw [if_pos hl, if_pos hl]
    match i with
    | 0 | 1 | 2 | 3 | 4 | 5 | 6 | 7 | 8 | 9 | 10 | 11 => decide
    | _ + 12 => simp
  · rw [if_neg hl, if_neg hl]
    match i with
    | 0 | 1 | 2 | 3 | 4 | 5 | 6 | 7 | 8 | 9 | 10 | 11 => decide
    | _ + 12 => simp

end SystemTimeAux

open SystemTimeAux

/-- The Unix time of a date lies in its year: the two parts of the specification agree. -/
theorem C114_calendar {c : Civil} (h : OnCalendar c) : InYear c.year (unix c) := by
  obtain ⟨h1, h2, h3, h4, h5, h6, h7, h8⟩ := h
  have hb := before_bound c.year (c.month - 1)
  have hd : daysTo (c.year + 1 - 1970) = daysTo (c.year - 1970) + yearDays c.year := by
    rw [show c.year + 1 - 1970 = (c.year - 1970) + 1 by omega, daysTo, show 1970 + (c.year - 1970) = c.year by omega]
  refine ⟨?_, ?_, h1⟩
  · unfold unix; omega
  · rw [hd]; unfold unix; omega

/-- **C114.** Zephyr with the date-time library: after any history of events, a time is given iff the last
attempt to get it was successful and the library still has it; then it is the time in seconds. -/
theorem C114_date_time (evts : List Evt) (err ms : Int) (h0 : 0 ≤ ms) (h1 : ms < 2 ^ 63) (t : Nat) :
    dateTimeGet (evts.foldl dateTimeEvent false) err ms = some t ↔
      Known evts ∧ err = 0 ∧ (t * 1000 ≤ ms ∧ ms < t * 1000 + 1000) := by
  have hms : u64 (ms.tdiv 1000) = (ms / 1000).toNat := by
    rw [Int.tdiv_eq_ediv_of_nonneg h0, u64_eq (by omega) (by omega)]
  rw [ready_eq]
  unfold dateTimeGet Known
  rw [hms]
  cases hl : evts.getLast? with
  | none => simp
  | some e =>
    by_cases he : e = .failed
    · subst he; simp
    · by_cases hr : err = 0
      · simp only [he, hr, ne_eq, not_false_eq_true, decide_true, if_true, Option.some.injEq, true_and]
        constructor
        · intro h; exact ⟨⟨e, rfl, he⟩, by omega⟩
        · rintro ⟨-, h⟩; omega
      · simp [he, hr]

/-- Failed, then from a time server: known. Failed once more: not known. -/
example : Known [.failed, .ntp] ∧ ¬ Known [.ntp, .failed] ∧
    dateTimeGet ([Evt.failed, .ntp].foldl dateTimeEvent false) 0 1704067200123 = some 1704067200 ∧
    dateTimeGet ([Evt.ntp, .failed].foldl dateTimeEvent false) 0 1704067200123 = none := by
  refine ⟨⟨.ntp, rfl, by decide⟩, ?_, by decide, by decide⟩
  rintro ⟨e, h, he⟩
  injection h with h
  exact he h.symm

/-- The date a driver stores: years from 1900, months from 0. -/
def rtcOf (c : Civil) : RtcTime := ⟨c.second, c.minute, c.hour, c.day, (c.month : Int) - 1, (c.year : Int) - 1900⟩

/-- `mktime` of the C library, in a zone so many seconds ahead of UTC. -/
def IsMktime (zone : Int) (mktime : RtcTime → Int) : Prop := ∀ c, OnCalendar c → mktime (rtcOf c) = unix c - zone

theorem rtc_in {zone : Int} {mktime : RtcTime → Int} (hm : IsMktime zone mktime) {c : Civil} (hc : OnCalendar c)
    (hz : -86400 < zone ∧ zone < 86400) (stack : RtcTime) :
    rtcGet mktime stack (some (rtcOf c)) =
      if 2023 ≤ c.year ∧ c.year ≤ 2100 then some ((unix c : Int) - zone).toNat else none := by
  unfold rtcGet
  have hy : (rtcOf c).year = (c.year : Int) - 1900 := rfl
  simp only [Option.getD_some, hm c hc, hy]
  by_cases h : 2023 ≤ c.year ∧ c.year ≤ 2100
  · rw [if_pos h, if_neg (by omega)]
    have hlo := (year_le (C114_calendar hc) (show 1970 ≤ 2023 by decide)).1 h.1
    have hhi : ¬ 2101 ≤ c.year := by omega
    rw [year_le (C114_calendar hc) (by decide)] at hhi
    have e1 : daysTo (2023 - 1970) = 19358 := by decide +kernel
    have e2 : daysTo (2101 - 1970) = 47847 := by decide +kernel
    rw [e1] at hlo
    rw [e2] at hhi
    rw [if_neg (by omega), u64_eq (by omega) (by omega)]
  · rw [if_neg h, if_pos (by omega)]

/-- **C114 (partial).** Zephyr with a real-time clock that is set to a date of UTC, the C library taking local
time for UTC: a time is given iff the year is one from 2023 to 2100; then it is the Unix time of the date.
Missing: a clock that is not set (`C114_false_rtc_not_set`), and other zones (`C114_false_rtc_zone`). -/
theorem C114_rtc_partial {mktime : RtcTime → Int} (hm : IsMktime 0 mktime) {c : Civil} (hc : OnCalendar c)
    (stack : RtcTime) :
    rtcGet mktime stack (some (rtcOf c)) = if 2023 ≤ c.year ∧ c.year ≤ 2100 then some (unix c) else none := by
  rw [rtc_in hm hc (by decide) stack]
  simp

/-- A leap day; `mktime` for this one date. -/
example : OnCalendar ⟨2024, 2, 29, 12, 0, 1⟩ ∧ unix ⟨2024, 2, 29, 12, 0, 1⟩ = 1709208001 ∧
    rtcGet (fun _ => 1709208001) ⟨0, 0, 0, 0, 0, 0⟩ (some (rtcOf ⟨2024, 2, 29, 12, 0, 1⟩)) = some 1709208001 := by
  refine ⟨by decide +kernel, by decide +kernel, by decide +kernel⟩

/-- **C114 is false for a real-time clock that is not set** (or cannot be read): the error is not looked at, and
what happens to be on the stack is taken for the date. -/
theorem C114_false_rtc_not_set {mktime : RtcTime → Int} (hm : IsMktime 0 mktime) {c : Civil} (hc : OnCalendar c)
    (hy : 2023 ≤ c.year ∧ c.year ≤ 2100) : rtcGet mktime (rtcOf c) none = some (unix c) := by
  have := C114_rtc_partial hm hc (rtcOf c)
  rw [if_pos hy] at this
  exact this

/-- **C114 is false if a time zone is set on a device whose clock keeps UTC**: the time is wrong by the distance
to UTC. -/
theorem C114_false_rtc_zone {zone : Int} {mktime : RtcTime → Int} (hm : IsMktime zone mktime)
    (hz : -86400 < zone ∧ zone < 86400 ∧ zone ≠ 0) {c : Civil} (hc : OnCalendar c) (hy : 2023 ≤ c.year ∧ c.year ≤ 2100)
    (stack : RtcTime) :
    ∃ t, rtcGet mktime stack (some (rtcOf c)) = some t ∧ (t : Int) = unix c - zone ∧ t ≠ unix c := by
  refine ⟨((unix c : Int) - zone).toNat, ?_, ?_, ?_⟩
  · rw [rtc_in hm hc ⟨hz.1, hz.2.1⟩ stack, if_pos hy]
  · have hlo := (year_le (C114_calendar hc) (show 1970 ≤ 2023 by decide)).1 hy.1
    have e1 : daysTo (2023 - 1970) = 19358 := by decide +kernel
    rw [e1] at hlo
    omega
  · have hlo := (year_le (C114_calendar hc) (show 1970 ≤ 2023 by decide)).1 hy.1
    have e1 : daysTo (2023 - 1970) = 19358 := by decide +kernel
    rw [e1] at hlo
    omega

/-- There is such a `mktime`: one hour ahead of UTC. -/
example : IsMktime 3600 (fun r => unix ⟨(r.year + 1900).toNat, (r.mon + 1).toNat, r.mday.toNat, r.hour.toNat,
    r.min.toNat, r.sec.toNat⟩ - 3600) := by
  intro c hc
  have h2 := hc.2.1
  simp only [rtcOf]
  rw [show ((c.year : Int) - 1900 + 1900).toNat = c.year by omega,
    show ((c.month : Int) - 1 + 1).toNat = c.month by omega]
  simp

/-- `gmtime_r` of the C library, for times from 1970. -/
def IsGmtime (gmtime : Int → Option Int) : Prop :=
  ∀ y t, InYear y t → gmtime t = some ((y : Int) - 1900)

/-- **C114.** ESP-IDF: with the time counted from 1970, a time is given iff it is one from the beginning of 2024
to the end of 2100 (which a device that has not been told the time does not reach); then it is that time. -/
theorem C114_esp_idf {gmtime : Int → Option Int} (hg : IsGmtime gmtime) {y : Nat} {now : Int} (h : InYear y now)
    (t : Nat) :
    espGet gmtime now = some t ↔
      (unix ⟨2024, 1, 1, 0, 0, 0⟩ : Int) ≤ now ∧ now ≤ unix ⟨2100, 12, 31, 23, 59, 59⟩ ∧ t = now := by
  have e1 : unix ⟨2024, 1, 1, 0, 0, 0⟩ = 1704067200 := by decide +kernel
  have e2 : unix ⟨2100, 12, 31, 23, 59, 59⟩ = 4133980799 := by decide +kernel
  have l1 := year_le h (show 1970 ≤ 2024 by decide)
  have l2 := year_le h (show 1970 ≤ 2101 by decide)
  have d1 : daysTo (2024 - 1970) = 19723 := by decide +kernel
  have d2 : daysTo (2101 - 1970) = 47847 := by decide +kernel
  rw [d1] at l1
  rw [d2] at l2
  rw [e1, e2]
  have h0 : 0 ≤ now := by have := h.1; omega
  unfold espGet
  rw [if_neg (by omega), hg y now h]
  simp only
  by_cases hy : 2024 ≤ y ∧ y ≤ 2100
  · have hn : ¬ 2101 ≤ y := by omega
    have b1 := l1.1 hy.1
    rw [l2] at hn
    rw [if_neg (by omega), u64_eq h0 (by omega)]
    constructor
    · intro hh; have hh := Option.some.inj hh; omega
    · intro hh
      have ht : now.toNat = t := by omega
      rw [ht]
  · rw [if_pos (by omega)]
    constructor
    · intro hh; cases hh
    · intro hh
      have b1 := l1.2 (by omega)
      have hn : ¬ 2101 ≤ y := by rw [l2]; omega
      omega

/-- A time in 2026, and one shortly after a start without a clock. -/
example : InYear 2026 1795000000 ∧ InYear 1970 12 ∧ espGet (fun _ => some 126) 1795000000 = some 1795000000 ∧
    espGet (fun _ => some 70) 12 = none := by
  refine ⟨⟨by decide +kernel, by decide +kernel, by decide⟩, ⟨by decide, by decide, by decide⟩, by decide +kernel,
    by decide⟩

end Mflt.Props
