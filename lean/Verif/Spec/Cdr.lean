import Verif.Spec.Event
import Verif.Model.Cdr

/-!
# Specification: custom data recordings

From the model only the record of a recording is used. The application has sources, each a queue of
recordings. At most one recording is being delivered at any time. The delivery is described for an
arbitrary `head`: the bytes a recording's message has in front of the recorded data.
-/

namespace Mflt.Spec.Cdr

open Spec.Cbor (Item)
open Mflt.Cdr (Recording)
open SerializerHelper (Device)

/-- The event a recording is to be delivered as: event type 5, and in the information the duration
(key 1), the MIME types (key 2), the reason (key 3) and the recorded data (key 4). -/
def event (dev : Device) (r : Recording) : Item :=
  Event.event dev 5 r.time
    (.map [.uint 1, .uint r.duration, .uint 2, .array (r.mimetypes.map .text),
           .uint 3, .text r.reason, .uint 4, .bytes r.data])

/-- Numbers fit 32 bits, texts are C strings, at most `2^32 - limit` bytes of data. -/
structure Ok (limit : Nat) (r : Recording) : Prop where
  duration : r.duration < 2 ^ 32
  reason : r.reason.length < 2 ^ 32 ∧ 0 ∉ r.reason
  mimetypes : ∀ t ∈ r.mimetypes, t.length < 2 ^ 32 ∧ 0 ∉ t
  count : r.mimetypes.length < 2 ^ 32
  data : r.data.length + limit < 2 ^ 32

/-- What can happen. -/
inductive Op
  /-- The application registers a source. -/
  | register (source : Nat)
  /-- A source completes a recording. -/
  | record (source : Nat) (r : Recording)
  /-- The packetizer asks for a message. -/
  | has
  /-- The packetizer reads a window of the message. -/
  | read (off len : Nat)
  /-- The packetizer reports the message as delivered. -/
  | mark
  /-- The module is reset. -/
  | reset
  deriving Repr, DecidableEq

/-- What can be observed. -/
inductive Out
  | registered (ok : Bool)
  | size (n : Option Nat)
  | bytes (b : Option Bytes)
  | done
  deriving Repr, DecidableEq

/-- Windows are not empty and, added to the metadata limit, fit 32 bits. -/
def Op.Ok (limit : Nat) : Op → Prop
  | .record _ r => Cdr.Ok limit r
  | .read off len => 0 < len ∧ len + limit < 2 ^ 32 ∧ off < 2 ^ 32
  | _ => True

/-- Registered sources, waiting recordings, the source whose oldest recording is being
delivered. -/
structure State where
  sources : List Nat
  waiting : Nat → List Recording
  current : Option Nat

def State.init : State := { sources := [], waiting := fun _ => [], current := none }

/-- The recording being delivered. -/
def State.recording (s : State) : Option Recording :=
  match s.current with
  | none => none
  | some i => (s.waiting i).head?

/-- Choose what to deliver: go on with the current one, else the first registered source that has
something. -/
def State.choose (s : State) : State :=
  match s.current with
  | some _ => s
  | none => { s with current := s.sources.find? fun i => !(s.waiting i).isEmpty }

/-- One step. `slots` sources can be registered and `limit` bytes of description are possible. -/
def step (slots limit : Nat) (head : Recording → Bytes) (s : State) : Op → Out × State
  | .register i =>
    if s.sources.length < slots then (.registered true, { s with sources := s.sources ++ [i] })
    else (.registered false, s)
  | .record i r =>
    (.done, { s with waiting := fun j => if j = i then s.waiting i ++ [r] else s.waiting j })
  | .has =>
    (.size (match s.choose.recording with
      | none => none
      | some r => if (head r).length ≤ limit then some (head r ++ r.data).length else none),
     s.choose)
  | .read off len =>
    (.bytes (match s.recording with
      | none => none
      | some r =>
        if (head r).length ≤ limit ∧ off + len ≤ (head r ++ r.data).length then
          some (((head r ++ r.data).drop off).take len)
        else none), s)
  | .mark =>
    match s.current with
    | none => (.done, s)
    | some i =>
      (.done, { s with waiting := fun j => if j = i then (s.waiting i).tail else s.waiting j
                       current := none })
  | .reset => (.done, { s with sources := [], current := none })

/-- A history: everything that is observed, and the final state. -/
def run (slots limit : Nat) (head : Recording → Bytes) : State → List Op → List Out × State
  | s, [] => ([], s)
  | s, op :: ops =>
    let (o, s) := step slots limit head s op
    let (os, s) := run slots limit head s ops
    (o :: os, s)

end Mflt.Spec.Cdr
