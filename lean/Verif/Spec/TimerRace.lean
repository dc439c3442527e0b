import Verif.Model.TimerRace

/-!
# Specification of a timer that is used while a heartbeat is made (C103)

Only what can be observed: the calls and when they began and ended.
-/

namespace Mflt.Spec.TimerRace

open Mflt.TimerRace (Ev Op)

/-- A stop watch: since when it runs, and the length of its completed runs. -/
structure Watch where
  since : Option Nat
  ran : Nat
  deriving Repr, DecidableEq

def Watch.on (w : Watch) (t : Nat) : Watch :=
  match w.since with
  | none => { w with since := some t }
  | some _ => w

def Watch.off (w : Watch) (t : Nat) : Watch :=
  match w.since with
  | none => w
  | some u => ⟨none, w.ran + (t - u)⟩

/-- What the watch shows at a time. -/
def Watch.shows (w : Watch) (t : Nat) : Nat :=
  match w.since with
  | none => w.ran
  | some u => w.ran + (t - u)

/-- A watch that runs as long as the timer can be said to run: from the beginning of a call that starts it
to the end of a call that stops it. -/
def longest : List Ev → Watch → Watch
  | [], w => w
  | .begun .start t :: evs, w => longest evs (w.on t)
  | .ended .stop t :: evs, w => longest evs (w.off t)
  | _ :: evs, w => longest evs w

/-- A watch that runs only as long as the timer must be said to run: from the end of a call that starts it
to the beginning of a call that stops it. -/
def shortest : List Ev → Watch → Watch
  | [], w => w
  | .ended .start t :: evs, w => shortest evs (w.on t)
  | .begun .stop t :: evs, w => shortest evs (w.off t)
  | _ :: evs, w => shortest evs w

/-- Calls that stop or read the timer and updates by heartbeats do not overlap. `call`: such a call is
under way. `lap`: an update is under way. -/
def Separate : Bool → Bool → List Ev → Prop
  | _, _, [] => True
  | call, lap, .begun op _ :: evs =>
    (op ≠ .start → lap = false) ∧ Separate (call || op != .start) lap evs
  | _, lap, .ended _ _ :: evs => Separate false lap evs
  | call, lap, .value _ _ _ :: evs => Separate call lap evs
  | call, _, .lapBegun :: evs => call = false ∧ Separate call true evs
  | call, _, .lapEnded :: evs => Separate call false evs

end Mflt.Spec.TimerRace
