import Verif.Model.MetricsSession
import Verif.Spec.RebootTracking

/-!
# Specification of metrics sessions (C57, C58)

`Act` and `play` only name the calls of the model; `running`, `recorded` and `quiet` say what is
expected in terms of the calls that were made.
-/

namespace Mflt.Spec.Session

open Metrics (Key Val Op cleared clamp Ty)
open Cbor (Item)

/-- What happens on a device between two resets. -/
inductive Act
  | call (op : Op)
  | start (session now : Nat)
  | finish (session now : Nat) (time : Option Nat)
  /-- a call of reboot tracking that is not about sessions -/
  | reboot (op : Mflt.Spec.Reboot.Op)

/-- A session runs from its start to its end. -/
def running (i : Nat) : Bool → List Act → Bool
  | b, [] => b
  | b, .start j _ :: as => running i (if j = i then true else b) as
  | b, .finish j _ _ :: as => running i (if j = i then false else b) as
  | b, _ :: as => running i b as

/-- What a call does to an integer or a text of type `key` that is metric `k`. -/
def recorded (key : Key) (k : Nat) (v : Val) : Op → Val
  | .setSigned k' x => if k' = k ∧ key.ty = .signed then .int (some x) else v
  | .setUnsigned k' x => if k' = k ∧ key.ty = .unsigned then .int (some x) else v
  | .setText k' t => if k' = k ∧ key.ty = .text then .text (t.take key.maxLen) else v
  | .add k' a =>
    match key.ty, v with
    | .signed, .int x =>
      if k' = k then .int (some (clamp (-2147483648) 2147483647 (x.getD 0 + a))) else v
    | .unsigned, .int x => if k' = k then .int (some (clamp 0 4294967295 (x.getD 0 + a))) else v
    | _, _ => v
  | _ => v

/-- The call neither clears the metrics of the session nor starts or stops the session's timer. -/
def quiet (session timer : Nat) : Op → Prop
  | .clear s => s ≠ session
  | .clearAll => False
  | .timerStart k _ => k ≠ timer
  | .timerStop k _ => k ≠ timer
  | _ => True

instance (session timer : Nat) (op : Op) : Decidable (quiet session timer op) := by
  cases op <;> unfold quiet <;> infer_instance

/-- What is reported for a session that was cut off by a crash: one crash, and nothing else. -/
def crashValue (crashKey k : Nat) (ty : Ty) : Val :=
  if k = crashKey then .int (some 1) else Metrics.fresh ty

/-- The event for such a session. -/
def crashEvent (dev : SerializerHelper.Device) (time : Option Nat) (keys : List Key) (crashKey session : Nat) :
    Item :=
  Metrics.sessionEvent dev time keys
    (fun k => ((keys[k]?).map fun key => crashValue crashKey k key.ty).getD (.text [])) session

end Mflt.Spec.Session

namespace Mflt.Session

open Spec.Session (Act)

/-- The calls on the model. The reports of sessions are the result. -/
def play (cfg : Cfg) (tab : Metrics.Table) (dev : SerializerHelper.Device) (s : Sys) :
    List Act → Option (List Bytes × Sys)
  | [] => some ([], s)
  | .call op :: as => (Metrics.exec dev tab s.metrics op).bind fun r =>
      play cfg tab dev ⟨r.2, s.reboot⟩ as
  | .start i now :: as => (start cfg tab s i true now).bind fun r => play cfg tab dev r.2 as
  | .finish i now time :: as => (finish cfg tab dev s i true now time).bind fun r =>
      (play cfg tab dev r.2.2 as).map fun q => (r.2.1.toList ++ q.1, q.2)
  | .reboot op :: as => (RebootTracking.step s.reboot op).bind fun r =>
      play cfg tab dev ⟨s.metrics, r.2⟩ as

end Mflt.Session
