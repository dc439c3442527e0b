import Verif.Spec.Event
import Verif.Model.TraceEvent

/-!
# Specification: trace events

From the model only the record of what is captured and the slot for interrupts are used.
-/

namespace Mflt.Spec.TraceEvent

open Cbor (Item)
open SerializerHelper (Device)
open Mflt.TraceEvent (Info)

/-- The event a capture stands for: reason 6, program counter 2, return address 3, status 7, log 8;
addresses that are zero are left out. -/
def traceEvent (dev : Device) (time : Option Nat) (i : Info) : Item :=
  Event.event dev 2 time (.map (
    [.uint 6, .uint i.reason] ++
    (if i.pc = 0 then [] else [.uint 2, .uint i.pc]) ++
    (if i.lr = 0 then [] else [.uint 3, .uint i.lr]) ++
    (match i.status with | some v => [.uint 7, Item.int v.toInt] | none => []) ++
    (match i.log with | some l => [.uint 8, .bytes l] | none => [])))

/-- 32-bit values. -/
structure InfoOk (i : Info) : Prop where
  reason : i.reason < 2 ^ 32
  pc : i.pc < 2 ^ 32
  lr : i.lr < 2 ^ 32
  log : ∀ l, i.log = some l → l.length < 2 ^ 32

/-- The stored bytes are, one by one, the events of these captures, each with some capture time. -/
def Records (dev : Device) : List Bytes → List Info → Prop
  | [], [] => True
  | b :: bs, i :: is =>
    (∃ time, Cbor.decode b = some (traceEvent dev time i)) ∧ Records dev bs is
  | _, _ => False

/-- The event an interrupt has captured that is not in the storage yet. -/
def waiting (sys : Mflt.TraceEvent.Sys) : List Info :=
  if sys.slot.reason = 0 then [] else [sys.slot.info]

/-- The captures that were answered with success, in order. -/
def accepted (outs : List (Info × Int)) : List Info :=
  (outs.filter fun o => o.2 == 0).map Prod.fst

/-- The number of steps the task makes. -/
def taskSteps (evs : List Mflt.TraceEvent.Ev) : Nat :=
  (evs.filter fun e => match e with | .task _ => true | .isr _ => false).length

end Mflt.Spec.TraceEvent
