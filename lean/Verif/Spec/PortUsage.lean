import Verif.Model.PortUsage

/-!
# What the usage metrics mean

A metric with a scale of 100 holds hundredths of a percent: 0 to 10000.
-/

namespace Mflt.Spec.PortUsage

open Mflt.PortUsage

/-- `v` is `part / whole` in units of 1/10000, rounded up. -/
def RoundsUp (v part whole : Nat) : Prop :=
  part * 10000 ≤ v * whole ∧ v * whole < part * 10000 + whole

/-- `v` is `part / whole` in units of `1 / unit`, rounded down. -/
def RoundsDown (unit v part whole : Nat) : Prop :=
  v * whole ≤ part * unit ∧ part * unit < v * whole + whole

/-- The values set by successive heartbeats for the given run times `(idle, total)`, after an
earlier sample: nothing if no time has passed, else the share of the time since the sample before
that was not spent idle. -/
def CpuReports : Nat × Nat → List (Nat × Nat) → List (Option (Option Nat)) → Prop
  | _, [], [] => True
  | prev, (idle, total) :: samples, r :: results =>
    (if total = prev.2 then r = some none
     else ∃ v, r = some (some v) ∧ v ≤ 10000 ∧
       RoundsUp v (total - prev.2 - (idle - prev.1)) (total - prev.2)) ∧
    CpuReports (idle, total) samples results
  | _, _, _ => False

/-- Run times that never decrease and gain less than `2 ^ width` from one sample to the next. -/
def Advancing (width : Nat) : Nat × Nat → List (Nat × Nat) → Prop
  | _, [] => True
  | prev, s :: rest =>
    prev.1 ≤ s.1 ∧ s.1 < prev.1 + 2 ^ width ∧ prev.2 ≤ s.2 ∧ s.2 < prev.2 + 2 ^ width ∧
    Advancing width s rest

/-- The Zephyr metrics of successive heartbeats for the cycle counts `(task, all, non-idle)`. -/
def ZephyrReports : Nat × Nat × Nat → List (Nat × Nat × Nat) → List (Option ZephyrCpu) → Prop
  | _, [], [] => True
  | prev, s :: samples, r :: results =>
    (∃ c, r = some c ∧ c.task = (s.1 - prev.1) % 2 ^ 32 ∧ c.all = (s.2.1 - prev.2.1) % 2 ^ 32 ∧
      c.pct ≤ 10000 ∧ RoundsDown 10000 c.pct (s.2.2 - prev.2.2) (s.2.1 - prev.2.1)) ∧
    ZephyrReports s samples results
  | _, _, _ => False

/-- Cycle counts that advance from one sample to the next, the non-idle cycles being part of all
cycles, by less than `2 ^ 64 / 10000` (21 days at 1 GHz). -/
def ZephyrAdvancing : Nat × Nat × Nat → List (Nat × Nat × Nat) → Prop
  | _, [] => True
  | prev, s :: rest =>
    prev.1 ≤ s.1 ∧ s.1 < prev.1 + 2 ^ 64 ∧
    prev.2.1 < s.2.1 ∧ s.2.1 - prev.2.1 < 1844674407370955 ∧
    prev.2.2 ≤ s.2.2 ∧ s.2.2 - prev.2.2 ≤ s.2.1 - prev.2.1 ∧
    ZephyrAdvancing s rest

end Mflt.Spec.PortUsage
