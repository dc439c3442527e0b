import Verif.Model.MetricsRace

/-!
# Specification of counters while heartbeats are made (C102)

Only what can be observed: the calls, the data of the heartbeats, and when a heartbeat ends.
-/

namespace Mflt.Spec.MetricsRace

open Mflt.MetricsRace (Ev Change)
open Mflt.Metrics (Datum Table)

/-- The amount of a call that adds to the counter `k`. -/
def amountOf (k : Nat) : Ev → Nat
  | .begun j (.add a) => if j = k then a.toNat else 0
  | _ => 0

/-- Everything that calls added to the counter `k`. -/
def addedTo (k : Nat) (evs : List Ev) : Nat := (evs.map (amountOf k)).sum

/-- What was added to the counter `k` by calls that were not made between the values of a heartbeat
being read and the heartbeat being over. `busy`: a heartbeat is between these two. -/
def addedApart (k : Nat) : Bool → List Ev → Nat
  | _, [] => 0
  | busy, e :: evs =>
    (if busy then 0 else amountOf k e) +
      addedApart k (match e with
        | .reported _ => true
        | .cleared => false
        | _ => busy) evs

/-- The position of the metric `k` in the heartbeats of its session. -/
def place (tab : Table) (session k : Nat) : Nat := (tab.take k).countP fun kv => kv.session == session

/-- The value of the metric at position `p` of a heartbeat; null counts as zero. -/
def valueAt (p : Nat) (ds : List Datum) : Nat :=
  match ds[p]? with
  | some (.num _ v true) => v.toNat
  | _ => 0

/-- The sum of all values reported at position `p`. -/
def reportedAt (p : Nat) : List Ev → Nat
  | [] => 0
  | .reported ds :: evs => valueAt p ds + reportedAt p evs
  | _ :: evs => reportedAt p evs

/-- The metric `k` is only changed by adding to it, and by no negative amount. -/
def OnlyCounts (k : Nat) (evs : List Ev) : Prop :=
  ∀ c, Ev.begun k c ∈ evs → ∃ a : BitVec 32, c = .add a ∧ a.toNat < 2147483648

/-- No call is under way when a heartbeat clears something. `busy`: a call is under way. -/
def Undisturbed : Bool → List Ev → Prop
  | _, [] => True
  | busy, e :: evs =>
    (e = .clearing → busy = false) ∧
      Undisturbed (match e with
        | .begun _ _ => true
        | .ended _ => false
        | _ => busy) evs

end Mflt.Spec.MetricsRace
