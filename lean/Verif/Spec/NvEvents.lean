import Verif.Model.NvEvents
import Verif.Spec.EventQueue

/-!
# Specification: events that are moved from RAM to a storage that survives resets

Two queues: `Spec.EventQueue` for the events in RAM, and the messages that were moved. From the model only
the list of possible calls is used.
-/

namespace Mflt.Spec.NvEvents

open Mflt.NvEvents (Op)
open Spec.EventQueue (Out)

/-- `moved`: messages in the storage that survives resets, each made of some events. `tries`: how often
something was to be written to it. `source`: where the message that is being read comes from. `enabled`:
whether this storage is in use, `known`: and whether it was when it was used last. -/
structure State where
  ram : EventQueue.State
  moved : List (List Bytes)
  tries : Nat
  enabled : Bool
  known : Bool
  source : Option Bool
  deriving Repr, DecidableEq

/-- `accept`: whether the storage takes the message of the n-th try. `auto`: events are moved
whenever possible. -/
structure Env where
  batchMax : Option Nat
  accept : Nat → Bool
  auto : Bool

/-- The batch that is next in RAM is fixed. -/
def fixBatch (e : Env) (q : EventQueue.State) : EventQueue.State :=
  { q with reading := if q.reading = 0 then EventQueue.batchCount e.batchMax q.committed else q.reading }

/-- If the storage is no longer in use the batch is free again. -/
def notice (S : State) : State :=
  { S with
    ram := if S.known && !S.enabled then { S.ram with reading := 0 } else S.ram
    known := S.enabled }

/-- Batches are moved until there are no more or one is not taken. There are at most `n` events. -/
def moveAll (e : Env) : Nat → State → Nat × State
  | 0, S => (0, { S with ram := fixBatch e S.ram })
  | n + 1, S =>
    let q := fixBatch e S.ram
    if q.reading = 0 then (0, { S with ram := q })
    else if e.accept S.tries then
      let r := moveAll e n { S with
        ram := { q with committed := q.committed.drop q.reading, reading := 0 }
        moved := S.moved ++ [q.committed.take q.reading]
        tries := S.tries + 1 }
      (r.1 + 1, r.2)
    else (0, { S with ram := q, tries := S.tries + 1 })

def move (e : Env) (S : State) : Nat × State :=
  let S := notice S
  if S.enabled then moveAll e S.ram.committed.length S else (0, S)

/-- Only the state after a call that may move events. -/
def maybeMove (e : Env) (S : State) : State := if e.auto then (move e S).2 else S

/-- What each call does. `none`: the contract is broken. The contract is that of the event queue, and that
a message is read and marked as read from where it was found: the storage must not be put into or out of
use in between. -/
def step (e : Env) (S : State) : Op → Option (Out × State)
  | .begin => (EventQueue.step e.batchMax S.ram .begin).map fun r => (r.1, { S with ram := r.2 })
  | .append d => (EventQueue.step e.batchMax S.ram (.append d)).map fun r => (r.1, { S with ram := r.2 })
  | .finish rollback =>
    (EventQueue.step e.batchMax S.ram (.finish rollback)).map fun r =>
      (r.1, if S.ram.pending.isSome && !rollback then maybeMove e { S with ram := r.2 }
        else { S with ram := r.2 })
  | .has =>
    let S := notice S
    if S.enabled then
      match S.moved with
      | [] => some (.avail false 0, { S with source := none })
      | m :: _ => some (.avail true (EventQueue.messageOf m).length, { S with source := some true })
    else
      let q := fixBatch e S.ram
      some (.avail (decide (q.reading ≠ 0)) (EventQueue.message q).length,
        { S with ram := q, source := if q.reading ≠ 0 then some false else none })
  | .read offset len =>
    if S.source ≠ some S.enabled then none
    else
      let S := notice S
      let m := if S.enabled then EventQueue.messageOf (S.moved.headD []) else EventQueue.message S.ram
      some (.data (if offset + len ≤ m.length then some ((m.drop offset).take len) else none), S)
  | .mark =>
    if S.source ≠ some S.enabled then none
    else
      let S := { notice S with source := none }
      if S.enabled then
        let q := fixBatch e S.ram
        let S := { S with ram := q, moved := S.moved.tail }
        some (.unit, if q.reading ≠ 0 then maybeMove e S else S)
      else
        some (.unit, { S with ram :=
          { S.ram with committed := S.ram.committed.drop S.ram.reading, reading := 0 } })
  | .persist => let r := move e S; some (.size r.1, r.2)
  | .enable b => some (.unit, { S with enabled := b, source := if b = S.enabled then S.source else none })
  | .reset => some (.unit, { S with ram := EventQueue.empty S.ram.cap, known := false, source := none })

def run (e : Env) (S : State) : List Op → Option (List Out × State)
  | [] => some ([], S)
  | op :: ops => (step e S op).bind fun r => (run e r.2 ops).map fun q => (r.1 :: q.1, q.2)

/-- The event finished by a call. -/
def finishedBy (S : State) : Op → List Bytes
  | .finish false => S.ram.pending.toList
  | _ => []

/-- The events of the message that is next. -/
def current (S : State) : List Bytes :=
  if S.enabled then S.moved.headD [] else S.ram.committed.take S.ram.reading

/-- The events of the message marked as read by a call. -/
def deliveredBy (S : State) : Op → List Bytes
  | .mark => current (notice S)
  | _ => []

/-- The events lost in a reset. -/
def lostBy (S : State) : Op → List Bytes
  | .reset => S.ram.committed
  | _ => []

/-- The events that are accounted for by `f` in a history. -/
def collect (f : State → Op → List Bytes) (e : Env) (S : State) : List Op → List Bytes
  | [] => []
  | op :: ops => f S op ++
    match step e S op with
    | none => []
    | some (_, S') => collect f e S' ops

/-- The events that are there. -/
def present (S : State) : List Bytes := S.moved.flatten ++ S.ram.committed

/-- After a boot: no events in RAM, and those that were moved before. -/
def start (cap : Nat) (moved : List (List Bytes)) (tries : Nat) (enabled : Bool) : State :=
  ⟨EventQueue.empty cap, moved, tries, enabled, false, none⟩

/-- A storage that does what it is asked to: it holds a queue of messages. Whether it takes one is told
by `accept`, for the n-th try. It may read the message it is to write in any pieces. -/
structure Works {ν : Type} (impl : Mflt.NvEvents.Impl ν) (accept : Nat → Bool)
    (holds : ν → List Bytes → Nat → Prop) : Prop where
  has : ∀ v q n, holds v q n → impl.has v = q.head?.map List.length
  read : ∀ v m q n, holds v (m :: q) n → ∀ o l,
    impl.read v o l = if o + l ≤ m.length then some ((m.drop o).take l) else none
  consume : ∀ v q n, holds v q n → holds (impl.consume v) q.tail n
  write : ∀ v q n, holds v q n → ∀ (m : Bytes) (rd : Mflt.NvEvents.Reader), m ≠ [] →
    (∀ o l, o + l ≤ m.length → rd o l = some (some ((m.drop o).take l))) →
    ∃ v', impl.write v rd m.length = some (accept n, v') ∧
      holds v' (if accept n then q ++ [m] else q) (n + 1)

end Mflt.Spec.NvEvents

namespace Mflt.NvEvents

open Spec.EventQueue (Out)

variable {ν : Type}

/-- The same calls on the model. -/
def step (env : Env ν) (bufLen : Nat) (s : Sys ν) : Op → Option (Out × Sys ν)
  | .begin => (EventStorage.beginWrite s.ram).map fun r => (.size r.1, { s with ram := r.2 })
  | .append d => (EventStorage.appendData s.ram d).map fun r => (.ok r.1, { s with ram := r.2 })
  | .finish rollback => (finish env s rollback).map fun s => (.unit, s)
  | .has => (has env s).map fun r => (.avail r.1 r.2.1, r.2.2)
  | .read offset len => (readEvent env s offset len).map fun r => (.data r.1, r.2)
  | .mark => (mark env s).map fun s => (.unit, s)
  | .persist => (persist env s).map fun r => (.size r.1, r.2)
  | .enable b => some (.unit, { s with enabled := b })
  | .reset => (EventStorage.boot bufLen).map fun ram => (.unit, { s with ram := ram, seenEnabled := false })

def run (env : Env ν) (bufLen : Nat) (s : Sys ν) : List Op → Option (List Out × Sys ν)
  | [] => some ([], s)
  | op :: ops => (step env bufLen s op).bind fun r =>
      (run env bufLen r.2 ops).map fun q => (r.1 :: q.1, q.2)

end Mflt.NvEvents
