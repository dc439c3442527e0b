import Verif.Model.BatteryRace

/-!
# Specification of the battery metrics under preemption (C112)

Only what can be observed: when the charger is plugged in, when that is announced, and what the
collections read and record. An interval lasts from one reading of the battery to the next; the first
begins with the boot.
-/

namespace Mflt.Spec.BatteryRace

open Mflt.BatteryRace (Ev Act)

/-- The gauge shows a number that is one (a percentage). -/
def Gauge : Option Nat → Prop
  | none => True
  | some n => n < 2 ^ 31

/-- Every number that the gauge shows is one. -/
def Gauges (as : List Act) : Prop := ∀ l, Act.gauge l ∈ as → Gauge l

/-- What the collections recorded. -/
def recorded : List Ev → List (Option (Nat × Nat))
  | [] => []
  | .result r _ :: evs => r :: recorded evs
  | _ :: evs => recorded evs

/-- The drop from one reading to the next, if both are known and the charge did not rise. -/
def dropOf : Option Nat → Option Nat → Option Nat
  | some a, some b => if b ≤ a then some (a - b) else none
  | _, _ => none

/-- The charger is plugged in now; it was at some time of the interval; the reading at the beginning of
the interval; the last collection ended then; the drop of the interval that the collection under way has
ended. -/
structure Seen where
  on : Bool
  charged : Bool
  last : Option Nat
  ended : Nat
  due : Option Nat
  deriving Repr, DecidableEq

/-- What the collections should record: the drop of each interval in which the battery discharged
throughout, with the time since the collection before (a 32-bit number). -/
def due : Seen → List Ev → List (Option (Nat × Nat))
  | _, [] => []
  | s, .plugged :: evs => due { s with on := true, charged := true } evs
  | s, .unplugged :: evs => due { s with on := false } evs
  | s, .sampled level :: evs =>
    due { s with due := if s.charged then none else dropOf s.last level
                 last := level, charged := s.on } evs
  | s, .result _ t :: evs =>
    (s.due.map fun d => (d, (t - s.ended) % 2 ^ 32)) :: due { s with ended := t } evs
  | s, _ :: evs => due s evs

/-- Plugging in the charger is announced before it is unplugged again, and nothing else is. `told`: it
was announced. -/
def Announced : Bool → Bool → List Ev → Prop
  | _, _, [] => True
  | _, _, .plugged :: evs => Announced true false evs
  | _, told, .unplugged :: evs => told = true ∧ Announced false false evs
  | on, _, .notified :: evs => on = true ∧ Announced on true evs
  | on, told, _ :: evs => Announced on told evs

/-- No announcement arrives while a collection looks at the battery. -/
def Separate : Bool → List Ev → Prop
  | _, [] => True
  | looking, .notified :: evs => looking = false ∧ Separate looking evs
  | _, .begun :: evs => Separate true evs
  | _, .prepared :: evs => Separate false evs
  | looking, _ :: evs => Separate looking evs

/-- For schedules without discipline. The charger is plugged in now; it was at the beginning of the
interval; an announcement arrived since an interval was prepared; one had arrived when the collection
under way looked; the reading at the beginning; the end of the last collection; the drop. -/
structure Told where
  on : Bool
  atStart : Bool
  noted : Bool
  looked : Bool
  last : Option Nat
  ended : Nat
  due : Option Nat
  deriving Repr, DecidableEq

/-- What is recorded in any case: the drop of each interval with the battery discharging at both ends, for
which no announcement arrived between the preparation of the interval and the beginning of the collection
that ends it. -/
def told : Told → List Ev → List (Option (Nat × Nat))
  | _, [] => []
  | s, .plugged :: evs => told { s with on := true } evs
  | s, .unplugged :: evs => told { s with on := false } evs
  | s, .notified :: evs => told { s with noted := true } evs
  | s, .begun :: evs => told { s with looked := s.noted } evs
  | s, .sampled level :: evs =>
    told { s with due := if s.on || s.atStart || s.looked then none else dropOf s.last level
                  last := level, atStart := s.on } evs
  | s, .prepared :: evs => told { s with noted := false } evs
  | s, .result _ t :: evs =>
    (s.due.map fun d => (d, (t - s.ended) % 2 ^ 32)) :: told { s with ended := t } evs

end Mflt.Spec.BatteryRace
