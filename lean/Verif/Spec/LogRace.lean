import Verif.Spec.Log
import Verif.Model.LogRace

/-!
# What users of the log may rely on when they run at the same time

The log is the bounded log of `Spec/Log.lean`. A collection that is triggered announces the logs that
were not yet sent when its task counted them.
-/

namespace Mflt.Spec.LogRace

open Mflt.Log (Config)
open Mflt.LogRace (Ev)
open Spec.Log (Op Out unsent)

structure State where
  log : Spec.Log.State
  /-- What each task has counted last. -/
  counted : Nat → Nat

def init (minLevel cap : Nat) : State := ⟨Spec.Log.init minLevel cap, fun _ => 0⟩

/-- Calls that hold the lock for all of their work. -/
def plain : Op → Bool
  | .trigger _ => false
  | .markSent => false
  | _ => true

/-- The state after something happened. `none`: outside of what is claimed. This is so for calls that the
log does not specify, if fewer logs are unsent than were counted when a collection is triggered, and if the
uploader looks at an incomplete context. -/
def next (cfg : Config) (S : State) : Ev → Option State
  | .op o _ =>
    if plain o then (Spec.Log.step cfg S.log o).map fun r => { S with log := r.2 } else none
  | .counted i _ =>
    some { S with counted := fun j => if j = i then unsent S.log.entries else S.counted j }
  | .triggered _ n now =>
    if n ≤ unsent S.log.entries then some { S with log := { S.log with frozen := some (n, now) } } else none
  | .size _ => some S
  | .data _ _ _ => some S
  | .marked _ =>
    S.log.frozen.map fun f =>
      { S with log := { S.log with entries := Spec.Log.markSent f.1 S.log.entries, frozen := none } }
  | .peek => none

def follow (cfg : Config) (S : State) : List Ev → Option State
  | [] => some S
  | e :: es => (next cfg S e).bind fun S => follow cfg S es

/-- What is claimed of each result. The announced size and the data of an upload are a matter of more
than one event. -/
def agrees (cfg : Config) (S : State) : Ev → Prop
  | .op o r => plain o = true → ∀ out T, Spec.Log.step cfg S.log o = some (out, T) → r = some out
  | .counted _ r => r = some (unsent S.log.entries)
  | .triggered i n _ => S.log.frozen = none ∧ 0 < n ∧ n = S.counted i
  | .size r => S.log.frozen = none → r = some none
  | .data _ _ _ => S.log.frozen.isSome = true
  | .marked ok => ok = true ∧ S.log.frozen.isSome = true
  | .peek => True

end Mflt.Spec.LogRace
