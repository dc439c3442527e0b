/-!
# What the metrics of the FreeRTOS example are to say
-/

namespace Mflt.Spec.ExampleMetrics

/-- A report of a day: when it began and ended (milliseconds since boot), and the metric in it. -/
structure Report where
  began : Nat
  ended : Nat
  uptime : Option Nat
  deriving DecidableEq, Repr

/-- When the heartbeat `i` (counted from 1) was; 0, when the device booted, for `i = 0`. -/
def at_ (times : List Nat) (i : Nat) : Nat := if i = 0 then 0 else times.getD (i - 1) 0

/-- The report of the day `d` (counted from 0), with `n` heartbeats in a day. -/
def day (n : Nat) (times : List Nat) (d : Nat) : Report :=
  ⟨at_ times (d * n), at_ times ((d + 1) * n), some (at_ times ((d + 1) * n) / 1000)⟩

/-- The reports of all full days, from the day `first` on. -/
def reports (n : Nat) (times : List Nat) (first : Nat) : List Report :=
  (List.range' first (times.length / n - first)).map (day n times)

/-- `p` hundredths of a percent of `total` are used, rounded down. -/
def IsPercent (p used total : Nat) : Prop := p * total ≤ 10000 * used ∧ 10000 * used < (p + 1) * total

end Mflt.Spec.ExampleMetrics
