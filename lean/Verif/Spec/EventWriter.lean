import Verif.Spec.EventQueue
import Verif.Model.SerializerHelper

/-!
# Specification: saving events through the serializer, with a count of what was dropped
-/

namespace Mflt.Spec.EventWriter

open Spec.EventQueue (used)

/-- What a client does: save an event (the list of encoder calls made by its callback, which may
also give up by itself at the end), ask for the number of dropped events, or read the queue. -/
inductive Op
  | save (calls : List Cbor.Call) (giveUp : Bool)
  | dropCount
  | reader (op : EventQueue.Op)

/-- Only the calls of a reader. -/
def readerOp : EventQueue.Op → Bool
  | .begin | .append _ | .finish _ => false
  | _ => true

/-- `drops`: events dropped since the count was last read. -/
structure State where
  queue : EventQueue.State
  drops : Nat
  deriving Repr, DecidableEq

inductive Out
  | saved (b : Bool)
  | count (n : Nat)
  | reader (o : EventQueue.Out)
  deriving Repr, DecidableEq

/-- Saving an event whose encoding is `bytes`: it is stored whole if there is room for it and two
bytes of bookkeeping; otherwise nothing is stored and one more event counts as dropped. The counter
is 32 bits wide. `bytesOf` gives the encoding of a list of encoder calls. -/
def step (batchMax : Option Nat) (bytesOf : List Cbor.Call → Bytes) (st : State) :
    Op → Option (Out × State)
  | .save calls giveUp =>
    let bytes := bytesOf calls
    if ¬ (1 ≤ bytes.length ∧ bytes.length ≤ 65532) then none
    else if giveUp = false ∧ used st.queue + 2 + bytes.length ≤ st.queue.cap then
      some (.saved true,
        { st with queue := { st.queue with committed := st.queue.committed ++ [bytes] } })
    else some (.saved false, { st with drops := st.drops + 1 })
  | .dropCount => some (.count (st.drops % 2 ^ 32), { st with drops := 0 })
  | .reader op =>
    if readerOp op then
      (EventQueue.step batchMax st.queue op).map fun (o, q) => (.reader o, { st with queue := q })
    else none

def run (batchMax : Option Nat) (bytesOf : List Cbor.Call → Bytes) (st : State) :
    List Op → Option (List Out × State)
  | [] => some ([], st)
  | op :: ops => do
    let (o, st) ← step batchMax bytesOf st op
    let (os, st) ← run batchMax bytesOf st ops
    return (o :: os, st)

end Mflt.Spec.EventWriter
