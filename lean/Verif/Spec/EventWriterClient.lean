import Verif.Spec.EventWriter
import Verif.Spec.EventClient

/-! # A client that saves events through the serializer helper -/

namespace Mflt.SerializerHelper

open Spec.EventWriter (Op Out)

/-- The serializer helper on top of the event storage. -/
structure State where
  storage : EventStorage.State
  drops : Drops
  deriving Repr, DecidableEq

/-- An encode callback that makes the given calls and may then give up by itself. -/
def callback (calls : List Cbor.Call) (giveUp : Bool) (e : Cbor.Encoder Ctx) :
    Bool × Cbor.Encoder Ctx :=
  let r := Cbor.callAll e calls
  (r.1 && !giveUp, r.2)

def step (cfg : EventStorage.Config) (st : State) : Op → Option (Out × State)
  | .save calls giveUp =>
    (encodeToStorage (callback calls giveUp) st.storage st.drops).map
      fun (b, s, d) => (.saved b, ⟨s, d⟩)
  | .dropCount => let (n, d) := readDropCount st.drops; some (.count n, { st with drops := d })
  | .reader op => (EventStorage.step cfg st.storage op).map
      fun (o, s) => (.reader o, { st with storage := s })

def run (cfg : EventStorage.Config) (st : State) : List Op → Option (List Out × State)
  | [] => some ([], st)
  | op :: ops => do
    let (o, st) ← step cfg st op
    let (os, st) ← run cfg st ops
    return (o :: os, st)

end Mflt.SerializerHelper
