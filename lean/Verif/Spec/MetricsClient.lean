import Verif.Model.Metrics
import Verif.Spec.Metrics

/-!
# The modelled metrics behind the operations of the specification

Only the translation of arguments and results is here. A session is reported by encoding it and
decoding the bytes with the specification's CBOR reader.
-/

namespace Mflt.Metrics

open Spec.Metrics (Op Out)

def tyOf : MType → Spec.Metrics.Ty
  | .unsigned => .unsigned
  | .signed => .signed
  | .timer => .timer
  | .string => .text

/-- A key as the specification sees it. -/
def keyOf (kv : KV) : Spec.Metrics.Key := ⟨tyOf kv.type, kv.range, kv.session⟩

/-- A sink that appends what it is given. -/
def collectBytes (acc : Bytes) (_offset : Nat) (data : Bytes) : Bytes := acc ++ data

/-- The bytes that report a session, encoded into a sink of the computed size. -/
def reportBytes (tab : Table) (st : State) (dev : SerializerHelper.Device) (time : Option Nat)
    (session : Nat) : Option Bytes :=
  (dataOf tab st (sessionKeys tab session)).map fun ds =>
    (encodeHeartbeat dev time session false ds (.init collectBytes []
      (SerializerHelper.computeSize (encodeHeartbeat dev time session false ds)))).2.ctx

def outValue (f : BitVec 32 → Int) : Int ⊕ BitVec 32 → Out
  | .inl rv => .code rv
  | .inr v => .num (f v)

def exec (dev : SerializerHelper.Device) (tab : Table) (st : State) : Op → Option (Out × State)
  | .setSigned k v => (setValue tab st .signed k (BitVec.ofInt 32 v)).map fun r => (.code r.1, r.2)
  | .setUnsigned k v => (setValue tab st .unsigned k (BitVec.ofNat 32 v)).map fun r => (.code r.1, r.2)
  | .setText k s => (setString tab st k s).map fun r => (.code r.1, r.2)
  | .add k amount => (add tab st k (BitVec.ofInt 32 amount)).map fun r => (.code r.1, r.2)
  | .timerStart k now => (timerOp tab st k .start now).map fun r => (.code r.1, r.2)
  | .timerStop k now => (timerOp tab st k .stop now).map fun r => (.code r.1, r.2)
  | .timerRead k now => (timerRead tab st k now).map fun r => (outValue (fun v => v.toNat) r.1, r.2)
  | .readSigned k => (readValue tab st k .signed).map fun r => (outValue (fun v => v.toInt) r, st)
  | .readUnsigned k => (readValue tab st k .unsigned).map fun r => (outValue (fun v => v.toNat) r, st)
  | .readText k n => (readString tab st k (List.replicate n 0xaa)).bind fun r =>
      if r.1 ≠ 0 then some (.code r.1, st) else (cstring r.2).map fun s => (.text s, st)
  | .updateTimers times => (timersUpdate tab st times).map fun st => (.done, st)
  | .report session time =>
      (reportBytes tab st dev time session).map fun b => (.event (Spec.Cbor.decode b), st)
  | .clear session => (resetSession tab session st).map fun st => (.done, st)
  | .clearAll => some (.done, resetAll st)

def execAll (dev : SerializerHelper.Device) (tab : Table) (st : State) :
    List Op → Option (List Out × State)
  | [] => some ([], st)
  | op :: ops => (exec dev tab st op).bind fun r => (execAll dev tab r.2 ops).map fun q => (r.1 :: q.1, q.2)

/-- A history with reports of a session, each followed by clearing it. -/
def execActs (dev : SerializerHelper.Device) (tab : Table) (session : Nat) (st : State) :
    List Spec.Metrics.Act → Option (List (Option Spec.Cbor.Item) × State)
  | [] => some ([], st)
  | .call op :: as => (exec dev tab st op).bind fun r => execActs dev tab session r.2 as
  | .flush time :: as =>
    (exec dev tab st (.report session time)).bind fun r => (exec dev tab r.2 (.clear session)).bind fun q =>
      (execActs dev tab session q.2 as).map fun p =>
        (r.1.event? :: p.1, p.2)

end Mflt.Metrics
