import Verif.Model.EventStorage
import Verif.Spec.EventQueue

/-! # A client of the event storage: any sequence of calls, and the history it produces -/

namespace Mflt

open Spec.EventQueue (Op Out)

/-- One call to the storage. -/
def EventStorage.step (cfg : EventStorage.Config) (s : EventStorage.State) :
    Op → Option (Out × EventStorage.State)
  | .begin => (EventStorage.beginWrite s).map fun (n, s) => (.size n, s)
  | .append d => (EventStorage.appendData s d).map fun (b, s) => (.ok b, s)
  | .finish rollback => (EventStorage.finishWrite s rollback).map fun s => (.unit, s)
  | .hasData => (EventStorage.hasData cfg s).map fun (b, n, s) => (.avail b n, s)
  | .read offset len => (EventStorage.read s offset len).map fun d => (.data d, s)
  | .markRead => (EventStorage.markRead s).map fun s => (.unit, s)
  | .bytesUsed => some (.size (EventStorage.bytesUsed s), s)
  | .bytesFree => some (.size (EventStorage.bytesFree s), s)

/-- The results of a sequence of calls. -/
def EventStorage.run (cfg : EventStorage.Config) (s : EventStorage.State) :
    List Op → Option (List Out × EventStorage.State)
  | [] => some ([], s)
  | op :: ops => do
    let (o, s) ← EventStorage.step cfg s op
    let (os, s) ← EventStorage.run cfg s ops
    return (o :: os, s)

namespace Spec.EventQueue

/-- The events finished by one call. -/
def finishedBy (q : State) : Op → List Bytes
  | .finish false => q.pending.toList
  | _ => []

/-- The events marked read by one call. -/
def consumedBy (q : State) : Op → List Bytes
  | .markRead => q.committed.take q.reading
  | _ => []

/-- The events finished in a history, in order. -/
def finished (b : Option Nat) (q : State) : List Op → List Bytes
  | [] => []
  | op :: ops => finishedBy q op ++
    match step b q op with
    | none => []
    | some (_, q') => finished b q' ops

/-- The events marked read in a history, in order. -/
def consumed (b : Option Nat) (q : State) : List Op → List Bytes
  | [] => []
  | op :: ops => consumedBy q op ++
    match step b q op with
    | none => []
    | some (_, q') => consumed b q' ops

end Spec.EventQueue
end Mflt
