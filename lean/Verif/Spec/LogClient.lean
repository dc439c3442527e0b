import Verif.Model.LogDataSource
import Verif.Spec.Log

/-! # The same calls on the model -/

namespace Mflt.Log

open Spec.Log (Op Out)

def ReadOut.out : ReadOut → Out
  | .nothing => .nothing
  | .droppedLine n => .droppedLine n
  | .log r => .log r

def step (cfg : Config) (s : State) : Op → Option (Out × State)
  | .save level type text now => (save cfg s level type text now).map fun s => (.unit, s)
  | .setMinLevel level => some (.unit, setMinLevel s level)
  | .read => (read cfg s).map fun r => (r.1.out, r.2)
  | .trigger now => (triggerCollection s now).map fun s => (.unit, s)
  | .markSent => (markSent s).map fun s => (.unit, s)
  | .unsentCount => (countUnsent s).map fun n => (.count n, s)
  | .droppedCount => some (.count s.dropped, s)
  | .recordedCount => some (.count s.recorded, s)

def run (cfg : Config) (s : State) : List Op → Option (List Out × State)
  | [] => some ([], s)
  | op :: ops =>
    (step cfg s op).bind fun r => (run cfg r.2 ops).map fun q => (r.1 :: q.1, q.2)

end Mflt.Log
