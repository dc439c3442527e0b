import Verif.Spec.Event
import Verif.Spec.RebootTracking
import Verif.Spec.EventClient
import Verif.Model.RebootEvent

/-!
# Specification: reporting reboots

What is remembered about a reboot (`Spec.Reboot`) is moved to the event queue (`Spec.EventQueue`).
-/

namespace Mflt.Spec.RebootEvent

open Cbor (Item)
open SerializerHelper (Device)
open RebootTracking (Info)

/-- The event of a reboot: reason 1, program counter 2, return address 3, reset register 4, whether a
coredump was saved 5; addresses and a register that are zero are left out. -/
def rebootEvent (dev : Device) (time : Option Nat) (i : Info) : Item :=
  Event.event dev 2 time (.map (
    [.uint 1, .uint i.reason] ++
    (if i.pc = 0 then [] else [.uint 2, .uint i.pc]) ++
    (if i.lr = 0 then [] else [.uint 3, .uint i.lr]) ++
    (if i.reg0 = 0 then [] else [.uint 4, .uint i.reg0]) ++
    [.uint 5, .uint (if i.coredumpSaved then 1 else 0)]))

/-- 32-bit values. -/
structure InfoOk (i : Info) : Prop where
  reason : i.reason < 2 ^ 32
  pc : i.pc < 2 ^ 32
  lr : i.lr < 2 ^ 32
  reg0 : i.reg0 < 2 ^ 32

inductive Op
  /-- a call to reboot tracking, or a reset, which empties the queue in RAM -/
  | reboot (op : Reboot.Op)
  /-- a call to the event storage -/
  | storage (op : EventQueue.Op)
  /-- collecting the reset information, at some time -/
  | collect (time : Option Nat)
  deriving Repr, DecidableEq

inductive Out
  | reboot (o : Reboot.Out)
  | storage (o : EventQueue.Out)
  | rv (rv : Int)
  deriving Repr, DecidableEq

structure State where
  reboot : Reboot.State
  queue : EventQueue.State

/-- What is known about the last reboot. -/
def known (S : Reboot.State) : Option Info :=
  if S.live then S.pending.map fun p => ⟨p.reason, p.pc, p.lr, S.reg, S.coredump⟩ else none

/-- `enc` gives the bytes of a reboot event. Collecting while another event is being written is not
allowed. -/
def step (batchMax : Option Nat) (enc : Option Nat → Info → Bytes) (S : State) : Op → Option (Out × State)
  | .reboot op =>
    (Reboot.step S.reboot op).map fun r =>
      (.reboot r.1, ⟨r.2, if op = .reset then EventQueue.empty S.queue.cap else S.queue⟩)
  | .storage op => (EventQueue.step batchMax S.queue op).map fun r => (.storage r.1, ⟨S.reboot, r.2⟩)
  | .collect time =>
    if S.queue.pending.isSome then none
    else match known S.reboot with
      | none => some (.rv 0, S)
      | some i =>
        if EventQueue.used S.queue + 2 + (enc time i).length ≤ S.queue.cap then
          -- reported, and forgotten
          some (.rv 0, ⟨{ S.reboot with pending := none, reg := 0, coredump := false },
            { S.queue with committed := S.queue.committed ++ [enc time i] }⟩)
        else
          -- no room: nothing changes
          some (.rv (-2), S)

def run (batchMax : Option Nat) (enc : Option Nat → Info → Bytes) (S : State) :
    List Op → Option (List Out × State)
  | [] => some ([], S)
  | op :: ops => (step batchMax enc S op).bind fun r =>
      (run batchMax enc r.2 ops).map fun q => (r.1 :: q.1, q.2)

end Mflt.Spec.RebootEvent

namespace Mflt.RebootEvent

open Spec.RebootEvent (Op Out)
open SerializerHelper (Device)

/-- The same on the model; the storage has a buffer of `bufLen` bytes, which is set up again after a
reset. -/
def step (dev : Device) (batchMax : Option Nat) (bufLen : Nat) (sys : Sys) : Op → Option (Out × Sys)
  | .reboot op =>
    (RebootTracking.step sys.reboot op).bind fun r =>
      if op = .reset then
        (EventStorage.boot bufLen).map fun s => (.reboot r.1, ⟨r.2, s, ⟨0, 0⟩⟩)
      else some (.reboot r.1, { sys with reboot := r.2 })
  | .storage op =>
    (EventStorage.step ⟨batchMax⟩ sys.storage op).map fun r => (.storage r.1, { sys with storage := r.2 })
  | .collect time => (collect dev time sys).map fun r => (.rv r.1, r.2)

def run (dev : Device) (batchMax : Option Nat) (bufLen : Nat) (sys : Sys) :
    List Op → Option (List Out × Sys)
  | [] => some ([], sys)
  | op :: ops => (step dev batchMax bufLen sys op).bind fun r =>
      (run dev batchMax bufLen r.2 ops).map fun q => (r.1 :: q.1, q.2)

end Mflt.RebootEvent
