/-!
# Specification: the calendar, and when a device knows the time

Unix time counts the seconds since the beginning of 1970 (UTC), leap seconds left out. Events and logs are
sorted by the times that devices attach to them, so a device that does not know the time has to say so.
-/

namespace Mflt.Spec.SystemTime

/-- A leap year of the Gregorian calendar. -/
def leap (y : Nat) : Bool := y % 4 = 0 ∧ (y % 100 ≠ 0 ∨ y % 400 = 0)

/-- Days of a year. -/
def yearDays (y : Nat) : Nat := if leap y then 366 else 365

/-- Days from the beginning of 1970 to the beginning of `1970 + n`. -/
def daysTo : Nat → Nat
  | 0 => 0
  | n + 1 => daysTo n + yearDays (1970 + n)

/-- Days of the months of year `y`. -/
def months (y : Nat) : List Nat := [31, if leap y then 29 else 28, 31, 30, 31, 30, 31, 31, 30, 31, 30, 31]

/-- A date and a time of day; months and days count from 1. -/
structure Civil where
  year : Nat
  month : Nat
  day : Nat
  hour : Nat
  minute : Nat
  second : Nat
  deriving Repr, DecidableEq

/-- There is such a date. -/
def OnCalendar (c : Civil) : Prop :=
  1970 ≤ c.year ∧ 1 ≤ c.month ∧ c.month ≤ 12 ∧ 1 ≤ c.day ∧ c.day ≤ (months c.year).getD (c.month - 1) 0 ∧
    c.hour < 24 ∧ c.minute < 60 ∧ c.second < 60

instance (c : Civil) : Decidable (OnCalendar c) := by unfold OnCalendar; exact inferInstance

/-- Its Unix time, if it is one of UTC. -/
def unix (c : Civil) : Nat :=
  (daysTo (c.year - 1970) + ((months c.year).take (c.month - 1)).sum + (c.day - 1)) * 86400 +
    c.hour * 3600 + c.minute * 60 + c.second

/-- The year of a Unix time. -/
def InYear (y : Nat) (t : Int) : Prop := daysTo (y - 1970) * 86400 ≤ t ∧ t < daysTo (y + 1 - 1970) * 86400 ∧ 1970 ≤ y

/-- What the library that asks the network for the time reports: where it got the time from, or that it did
not get it. -/
inductive Evt where
  | modem
  | ntp
  | ext
  | failed
  deriving Repr, DecidableEq

/-- The last attempt gave the time. -/
def Known (evts : List Evt) : Prop := ∃ e, evts.getLast? = some e ∧ e ≠ .failed

end Mflt.Spec.SystemTime
