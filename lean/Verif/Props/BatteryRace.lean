import Verif.Spec.BatteryRace

/-!
# Theorems: the battery metrics under preemption (C112)
-/

namespace Mflt.Props

open Mflt.BatteryRace (Sys Act Ev Pc run step value record)
open Mflt.Spec.BatteryRace

namespace BatteryRace

theorem value_eq {n : Nat} (h : n < 2 ^ 31) : value (some n) = (n : Int) := by
  simp only [value]
  rw [BitVec.toInt_eq_toNat_of_lt (by rw [BitVec.toNat_ofNat]; omega), BitVec.toNat_ofNat]
  omega

/-- What is recorded, in the terms of the specification. -/
theorem record_eq (s : Sys) (stopped dis : Bool) (a b : Option Nat) (ha : Gauge a) (hb : Gauge b)
    (hl : s.last = value a) :
    record s stopped (value b) dis =
      ((if !dis || stopped then none else dropOf a b).map fun d => (d, (s.now - s.start) % 2 ^ 32)) := by
  simp only [record, hl]
  cases a with
  | none => cases dis <;> cases stopped <;> simp [value, dropOf]
  | some a =>
    cases b with
    | none => cases dis <;> cases stopped <;> simp [value, dropOf]
    | some b =>
      rw [value_eq ha, value_eq hb]
      cases dis <;> cases stopped <;> simp [dropOf]

/-- The state and what was seen without discipline. -/
def Any (s : Sys) (t : Told) : Prop :=
  Gauge s.level ∧ Gauge t.last ∧ t.on = s.charging ∧ s.start = t.ended ∧
  match s.pc with
  | none | some .flag => s.last = value t.last ∧ s.stopped = (t.atStart || t.noted)
  | some (.sample st) => s.last = value t.last ∧ st = (t.atStart || t.looked)
  | some (.store st lv dis) => t.last = lv ∧ dis = !t.atStart ∧
      ∃ a, Gauge a ∧ s.last = value a ∧ t.due = if !dis || st then none else dropOf a lv
  | some (.finish st lv dis) => t.last = lv ∧ s.stopped = (t.atStart || t.noted) ∧
      ∃ a, Gauge a ∧ s.last = value a ∧ t.due = if !dis || st then none else dropOf a lv

theorem any_run (as : List Act) : ∀ (s : Sys) (t : Told), Any s t → Gauges as →
    recorded (run s as).2 = told t (run s as).2 := by
  induction as with
  | nil => intros; rfl
  | cons a as ih =>
    intro s t h hg
    have hgs : Gauges as := fun l hl => hg l (List.mem_cons_of_mem _ hl)
    obtain ⟨charging, level, now, last, start, stopped, pc⟩ := s
    obtain ⟨h1, h2, h3, h4, h5⟩ := h
    simp only at h1 h2 h3 h4 h5
    subst h3 h4
    cases a with
    | tick ms => exact ih _ t ⟨h1, h2, rfl, rfl, h5⟩ hgs
    | gauge l => exact ih _ t ⟨hg l (by simp), h2, rfl, rfl, h5⟩ hgs
    | plug =>
      simp only [run, step]
      cases hc : t.on
      · simp only [Bool.false_eq_true, if_false, List.cons_append, List.nil_append, recorded, told]
        exact ih _ _ ⟨h1, h2, rfl, rfl, h5⟩ hgs
      · simp only [if_true, List.nil_append]
        exact ih _ t ⟨h1, h2, hc, rfl, h5⟩ hgs
    | unplug =>
      simp only [run, step]
      cases hc : t.on
      · simp only [Bool.false_eq_true, if_false, List.nil_append]
        exact ih _ t ⟨h1, h2, hc, rfl, h5⟩ hgs
      · simp only [if_true, List.cons_append, List.nil_append, recorded, told]
        exact ih _ _ ⟨h1, h2, rfl, rfl, h5⟩ hgs
    | notify =>
      simp only [run, step, List.cons_append, List.nil_append, recorded, told]
      refine ih _ _ ⟨h1, h2, rfl, rfl, ?_⟩ hgs
      clear ih
      rcases pc with _ | _ | _ | _ | _
      · simp_all
      · simp_all
      · exact h5
      · exact h5
      · exact ⟨h5.1, by simp, h5.2.2⟩
    | collect =>
      simp only [run, step]
      rcases pc with _ | pc
      · simp only [List.nil_append]
        exact ih _ t ⟨h1, h2, rfl, rfl, h5⟩ hgs
      · simp only [List.nil_append]
        exact ih _ t ⟨h1, h2, rfl, rfl, h5⟩ hgs
    | next =>
      simp only [run, step]
      rcases pc with _ | _ | st | ⟨st, lv, dis⟩ | ⟨st, lv, dis⟩
      · simp only [List.nil_append]
        exact ih _ t ⟨h1, h2, rfl, rfl, h5⟩ hgs
      · simp only [List.cons_append, List.nil_append, recorded, told]
        exact ih _ _ ⟨h1, h2, rfl, rfl, h5⟩ hgs
      · simp only [List.cons_append, List.nil_append, recorded, told]
        refine ih _ _ ⟨h1, h1, rfl, rfl, rfl, rfl, t.last, h2, h5.1, ?_⟩ hgs
        simp only [h5.2, Bool.not_not, Bool.or_assoc]
      · simp only [List.cons_append, List.nil_append, recorded, told]
        exact ih _ _ ⟨h1, h2, rfl, rfl, h5.1, by simp [h5.2.1], h5.2.2⟩ hgs
      · obtain ⟨e1, e2, a, e3, e4, e5⟩ := h5
        simp only [List.cons_append, List.nil_append, recorded, told]
        refine congr (congrArg _ ?_) (ih _ _ ⟨h1, h2, rfl, rfl, by simp [e1], e2⟩ hgs)
        rw [e5]
        exact record_eq _ st dis a lv e3 (e1 ▸ h2) e4

/-- The state and what was seen with discipline. `looking`: a collection looks at the battery. -/
def Inv (s : Sys) (t : Seen) (tl looking : Bool) : Prop :=
  Gauge s.level ∧ Gauge t.last ∧ t.on = s.charging ∧ s.start = t.ended ∧
  (t.on = true → t.charged = true) ∧
  match s.pc with
  | none | some .flag => looking = false ∧ s.last = value t.last ∧
      (s.stopped = true → t.charged = true) ∧
      (t.charged = true → s.stopped = true ∨ (t.on = true ∧ tl = false))
  | some (.sample st) => looking = true ∧ s.last = value t.last ∧
      (st = true → t.charged = true) ∧ (t.charged = true → st = true ∨ (t.on = true ∧ tl = false))
  | some (.store st lv dis) => looking = true ∧ t.last = lv ∧
      (dis = false → t.charged = true) ∧ (t.charged = true → dis = false ∨ (t.on = true ∧ tl = false)) ∧
      ∃ a, Gauge a ∧ s.last = value a ∧ t.due = if !dis || st then none else dropOf a lv
  | some (.finish st lv dis) => looking = false ∧ t.last = lv ∧
      (s.stopped = true → t.charged = true) ∧
      (t.charged = true → s.stopped = true ∨ (t.on = true ∧ tl = false)) ∧
      ∃ a, Gauge a ∧ s.last = value a ∧ t.due = if !dis || st then none else dropOf a lv

theorem inv_run (as : List Act) : ∀ (s : Sys) (t : Seen) (tl looking : Bool), Inv s t tl looking →
    Gauges as → Announced t.on tl (run s as).2 → Separate looking (run s as).2 →
    recorded (run s as).2 = due t (run s as).2 := by
  induction as with
  | nil => intros; rfl
  | cons a as ih =>
    intro s t tl looking h hg hA hS
    have hgs : Gauges as := fun l hl => hg l (List.mem_cons_of_mem _ hl)
    obtain ⟨charging, level, now, last, start, stopped, pc⟩ := s
    obtain ⟨h1, h2, h3, h4, h6, h5⟩ := h
    simp only at h1 h2 h3 h4 h5
    subst h3 h4
    cases a with
    | tick ms => exact ih _ t tl looking ⟨h1, h2, rfl, rfl, h6, h5⟩ hgs hA hS
    | gauge l => exact ih _ t tl looking ⟨hg l (by simp), h2, rfl, rfl, h6, h5⟩ hgs hA hS
    | plug =>
      simp only [run, step] at hA hS ⊢
      cases hc : t.on
      · simp only [hc, Bool.false_eq_true, if_false, List.cons_append, List.nil_append, recorded, due, Announced,
          Separate] at hA hS ⊢
        refine ih _ _ false looking ⟨h1, h2, rfl, rfl, fun _ => rfl, ?_⟩ hgs hA hS
        rcases pc with _ | _ | _ | _ | _ <;> simp_all
      · simp only [hc, if_true, List.nil_append] at hA hS ⊢
        exact ih _ t tl looking ⟨h1, h2, hc, rfl, h6, h5⟩ hgs (hc ▸ hA) hS
    | unplug =>
      simp only [run, step] at hA hS ⊢
      cases hc : t.on
      · simp only [hc, Bool.false_eq_true, if_false, List.nil_append] at hA hS ⊢
        exact ih _ t tl looking ⟨h1, h2, hc, rfl, h6, h5⟩ hgs (hc ▸ hA) hS
      · simp only [hc, if_true, List.cons_append, List.nil_append, recorded, due, Announced,
          Separate] at hA hS ⊢
        refine ih _ _ false looking ⟨h1, h2, rfl, rfl, (fun h => by cases h), ?_⟩ hgs hA.2 hS
        have ht := hA.1
        clear ih
        rcases pc with _ | _ | _ | _ | _
        · simp_all
        · simp_all
        · simp_all
        · exact ⟨h5.1, h5.2.1, h5.2.2.1, (by have := h5.2.2.2.1; simp_all), h5.2.2.2.2⟩
        · exact ⟨h5.1, h5.2.1, h5.2.2.1, (by have := h5.2.2.2.1; simp_all), h5.2.2.2.2⟩
    | notify =>
      simp only [run, step, List.cons_append, List.nil_append, recorded, due, Announced, Separate] at hA hS ⊢
      refine ih _ _ true looking ⟨h1, h2, rfl, rfl, h6, ?_⟩ hgs hA.2 hS.2
      have := hA.1
      have := hS.1
      rcases pc with _ | _ | _ | _ | _ <;> simp_all
    | collect =>
      simp only [run, step] at hA hS ⊢
      rcases pc with _ | pc
      · simp only [List.nil_append] at hA hS ⊢
        exact ih _ t tl looking ⟨h1, h2, rfl, rfl, h6, h5⟩ hgs hA hS
      · simp only [List.nil_append] at hA hS ⊢
        exact ih _ t tl looking ⟨h1, h2, rfl, rfl, h6, h5⟩ hgs hA hS
    | next =>
      simp only [run, step] at hA hS ⊢
      rcases pc with _ | _ | st | ⟨st, lv, dis⟩ | ⟨st, lv, dis⟩
      · simp only [List.nil_append] at hA hS ⊢
        exact ih _ t tl looking ⟨h1, h2, rfl, rfl, h6, h5⟩ hgs hA hS
      · simp only [List.cons_append, List.nil_append, recorded, due, Announced, Separate] at hA hS ⊢
        exact ih _ _ tl true ⟨h1, h2, rfl, rfl, h6, rfl, h5.2⟩ hgs hA hS
      · simp only [List.cons_append, List.nil_append, recorded, due, Announced, Separate] at hA hS ⊢
        refine ih _ _ tl looking ⟨h1, h1, rfl, rfl, fun h => h, h5.1, rfl, ?_, ?_, t.last, h2, h5.2.1, ?_⟩ hgs hA hS
        · cases t.on <;> simp
        · cases t.on <;> simp
        · obtain ⟨-, -, a1, a2⟩ := h5
          cases hon : t.on <;> cases st <;> cases hch : t.charged <;> simp_all
      · simp only [List.cons_append, List.nil_append, recorded, due, Announced, Separate] at hA hS ⊢
        obtain ⟨-, e1, e2, e3, e4⟩ := h5
        refine ih _ _ tl false ⟨h1, h2, rfl, rfl, h6, rfl, e1, ?_, ?_, e4⟩ hgs hA hS
        · simpa using e2
        · simpa using e3
      · obtain ⟨e0, e1, e2, e2', a, e3, e4, e5⟩ := h5
        simp only [List.cons_append, List.nil_append, recorded, due, Announced, Separate] at hA hS ⊢
        refine congr (congrArg _ ?_) (ih _ _ tl looking ⟨h1, h2, rfl, rfl, h6, e0, by simp [e1], e2, e2'⟩ hgs hA hS)
        rw [e5]
        exact record_eq _ st dis a lv e3 (e1 ▸ h2) e4

end BatteryRace

/-- **C112.** For every schedule of the charger, the gauge, the announcements and the accesses of
collections: if plugging in the charger is announced before it is unplugged, nothing else is announced, and
no announcement arrives while a collection looks at the battery, then every collection records exactly the
drop of its interval if the battery discharged throughout (and both readings are known and the charge did
not rise), with the time since the collection before. Missing: an announcement between the readings of a
collection, and other announcements (`C112_false_before_reading`, `C112_false_after_reading`). -/
theorem C112_drop_partial (charging : Bool) (level : Option Nat) (now : Nat) (as : List Act)
    (h0 : Gauge level) (hg : Gauges as)
    (hA : Announced charging charging (run (Sys.boot charging level now) as).2)
    (hS : Separate false (run (Sys.boot charging level now) as).2) :
    recorded (run (Sys.boot charging level now) as).2 =
      due ⟨charging, charging, level, now, none⟩ (run (Sys.boot charging level now) as).2 :=
  BatteryRace.inv_run as (Sys.boot charging level now) ⟨charging, charging, level, now, none⟩ charging false
    ⟨h0, h0, rfl, rfl, fun h => h, rfl, rfl, fun h => h, fun h => Or.inl h⟩ hg hA hS

/-- **C112.** For every schedule, announced or not: a collection records a drop exactly if the battery was
discharging at both ends of its interval, both readings are known and the charge did not rise, and no
announcement arrived from the time at which the collection before had prepared the interval to the time at
which this collection looked. A drop that is wrong is therefore always due to an announcement that did not
arrive, or arrived while a collection looked at the battery. -/
theorem C112_any (charging : Bool) (level : Option Nat) (now : Nat) (as : List Act)
    (h0 : Gauge level) (hg : Gauges as) :
    recorded (run (Sys.boot charging level now) as).2 =
      told ⟨charging, charging, false, false, level, now, none⟩ (run (Sys.boot charging level now) as).2 :=
  BatteryRace.any_run as (Sys.boot charging level now) ⟨charging, charging, false, false, level, now, none⟩
    ⟨h0, h0, rfl, rfl, rfl, by simp [Sys.boot]⟩ hg

/-- Three intervals: discharging, charging for a while in between, discharging again; the charger is
plugged in while the first collection has read the battery, and announced afterwards. -/
private def day : List Act :=
  [.tick 1000, .gauge (some 80), .collect, .next, .next, .plug, .next, .next, .notify, .tick 500, .unplug,
    .gauge (some 70), .collect, .next, .next, .next, .tick 5, .next, .gauge (some 64), .tick 700, .collect,
    .next, .next, .next, .next]

example : Gauges day ∧ Announced false false (run (Sys.boot false (some 90) 0) day).2 ∧
    Separate false (run (Sys.boot false (some 90) 0) day).2 ∧
    recorded (run (Sys.boot false (some 90) 0) day).2 = [some (10, 1000), none, some (6, 700)] := by
  refine ⟨?_, ?_, ?_, by decide +kernel⟩
  · intro l hl
    simp only [day, List.mem_cons, reduceCtorEq, Act.gauge.injEq, false_or, List.not_mem_nil, or_false] at hl
    rcases hl with rfl | rfl | rfl <;> simp [Gauge]
  · simp [Announced, day, run, step, Sys.boot]
  · simp [Separate, day, run, step, Sys.boot]

/-- **C112 (false in general).** The charger is plugged in, announced and unplugged between the moment a
collection looks for announcements and the moment it reads the battery: the announcement is lost and a drop
is recorded for an interval in which the battery was charged. The comment in the code names only the time
after the reading. -/
theorem C112_false_before_reading : ∃ as : List Act,
    Announced false false (run (Sys.boot false (some 90) 0) as).2 ∧
    recorded (run (Sys.boot false (some 90) 0) as).2 = [some (5, 1000)] ∧
    due ⟨false, false, some 90, 0, none⟩ (run (Sys.boot false (some 90) 0) as).2 = [none] := by
  refine ⟨[.tick 1000, .gauge (some 85), .collect, .next, .plug, .notify, .unplug, .next, .next, .next],
    ?_, by decide +kernel, by decide +kernel⟩
  simp [Announced, run, step, Sys.boot]

/-- **C112 (false in general).** The announcement arrives after the reading and before the flag is written:
it is lost, and a drop is recorded for the next interval, in which the battery was charged. -/
theorem C112_false_after_reading : ∃ as : List Act,
    Announced false false (run (Sys.boot false (some 90) 0) as).2 ∧
    recorded (run (Sys.boot false (some 90) 0) as).2 = [some (0, 0), some (5, 1000)] ∧
    due ⟨false, false, some 90, 0, none⟩ (run (Sys.boot false (some 90) 0) as).2 = [some (0, 0), none] := by
  refine ⟨[.collect, .next, .next, .plug, .notify, .next, .next, .tick 1000, .unplug, .gauge (some 85), .collect,
    .next, .next, .next, .next], ?_, by decide +kernel, by decide +kernel⟩
  simp [Announced, run, step, Sys.boot]

end Mflt.Props
