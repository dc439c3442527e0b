import Verif.Model.PortTime

/-!
# What "time since boot" means

Times are true numbers of counter ticks since boot, unbounded.
-/

namespace Mflt.Spec.PortTime

open Mflt.PortTime

/-- Calls made at non-decreasing times, each less than `gap` ticks after the one before (the first
one after `prev`). -/
def Spaced (gap : Nat) : Nat → List Nat → Prop
  | _, [] => True
  | prev, t :: rest => prev ≤ t ∧ t < prev + gap ∧ Spaced gap t rest

/-- A history of the nRF5 port at non-decreasing times, in which the metrics timer's handler runs at
least once every `gap` ticks.  `upd` is when it last ran (0: boot) and `now` the current time. -/
def Timed (gap : Nat) : Nat → Nat → List Nrf5Op → Prop
  | _, _, [] => True
  | upd, now, .get t :: rest => now ≤ t ∧ t < upd + gap ∧ Timed gap upd t rest
  | upd, now, .timer t :: rest => now ≤ t ∧ t < upd + gap ∧ Timed gap t t rest

/-- When the application asked for the time. -/
def asked : List Nrf5Op → List Nat
  | [] => []
  | .get t :: rest => t :: asked rest
  | .timer _ :: rest => asked rest

end Mflt.Spec.PortTime
