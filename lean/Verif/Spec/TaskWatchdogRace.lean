import Verif.Model.TaskWatchdogRace

/-!
# What a channel of the task watchdog is entitled to

Everything here is about the observable events only: calls that begin and end, and checks that begin and
end with a verdict, each with its time.
-/

namespace Mflt.Spec.TaskWatchdogRace

open Mflt.TaskWatchdogRace (Op Ev)

/-- One channel. -/
structure View where
  /-- If the channel runs: when the call that started or fed it last began and when it ended. -/
  running : Option (Nat × Nat)
  /-- The call in progress and when it began. -/
  call : Option (Op × Nat)
  /-- When the latest check began. -/
  check : Nat
  /-- What `running` was when the latest check began. -/
  before : Option (Nat × Nat)
  /-- A call for the channel was in progress at some time since the latest check began. -/
  used : Bool
  /-- Since the latest check began, the channel was being started, or a feeding of it ended at a later
  millisecond than the one in which the check began. -/
  disturbed : Bool
  deriving Repr, DecidableEq

def View.init : View := ⟨none, none, 0, none, false, false⟩

/-- One event, as channel `i` sees it. -/
def View.see (i : Nat) (v : View) : Ev → View
  | .begun j op t =>
    if j = i then { v with call := some (op, t), used := true, disturbed := v.disturbed || decide (op = .start) }
    else v
  | .ended j op t =>
    if j = i then
      let b := match v.call with
        | some (_, b) => b
        | none => t
      let running := match op with
        | .start => some (b, t)
        | .feed => v.running.map fun _ => (b, t)
        | .stop => none
      { v with
        call := none, running := running, disturbed := v.disturbed || decide (op = .feed ∧ t > v.check) }
    else v
  | .checkBegun t =>
    { v with
      check := t, before := v.running, used := v.call.isSome,
      disturbed := match v.call with
        | some (.start, _) => true
        | _ => false }
  | .panic _ => v
  | .refresh _ => v

/-- All events so far. -/
def view (i : Nat) (evs : List Ev) : View := evs.foldl (View.see i) View.init

end Mflt.Spec.TaskWatchdogRace
