import Verif.Model.WifiMetrics

/-!
# Specification: Wi-Fi metrics

What is reported for an interval is told by the events of the history: the time for which something held, and how
often something happened.
-/

namespace Mflt.Spec.WifiMetrics

open Mflt.WifiMetrics (Act Wcm Mgmt SysEvent)
open Mflt.NetMetrics (Sta)

/-- For each heartbeat, the time since the one before for which `up` held of the events so far. -/
def times {ε : Type} (up : List ε → Bool) : List ε → Nat → List (Act ε) → List Nat
  | _, _, [] => []
  | past, n, .event e :: as => times up (past ++ [e]) n as
  | past, n, .wait ms :: as => times up past (if up past then n + ms else n) as
  | past, n, .beat :: as => n :: times up past 0 as

/-- For each heartbeat, how many events since the one before were `hit`s, given the events before them. -/
def counts {ε : Type} (hit : List ε → ε → Bool) : List ε → Nat → List (Act ε) → List Nat
  | _, _, [] => []
  | past, n, .event e :: as => counts hit (past ++ [e]) (if hit past e then n + 1 else n) as
  | past, n, .wait _ :: as => counts hit past n as
  | past, n, .beat :: as => n :: counts hit past 0 as

/-- The events of a history. -/
def events {ε : Type} : List (Act ε) → List ε
  | [] => []
  | .event e :: as => e :: events as
  | _ :: as => events as

/-! ## PSoC 6 -/

/-- A connection was made (again), and was not lost since. -/
def wcmUp (es : List Wcm) : Bool :=
  match (es.filter fun e => e ∈ [Wcm.connected, .reconnected, .connectFailed, .disconnected]).getLast? with
  | some .connected => true
  | some .reconnected => true
  | _ => false

/-- The last thing that happened to the connection is that it is being made. -/
def wcmConnecting (es : List Wcm) : Bool :=
  (es.filter fun e => e ≠ .other).getLast? = some .connecting

/-! ## Zephyr -/

/-- A connection was made, and has not ended since, for whatever reason. -/
def mgmtUp (es : List Mgmt) : Bool :=
  match (es.filter fun e => match e with
    | .connectResult s => s = 0
    | .disconnectResult _ => true
    | .other => false).getLast? with
  | some (.connectResult _) => true
  | _ => false

/-! ## ESP-IDF -/

/-- The station is connected. The driver also says `disconnected` when an attempt to connect failed. -/
def espUp (es : List Sta) : Bool :=
  (es.filter fun e => e = .connected ∨ e = .disconnected).getLast? = some .connected

/-! ## Particle -/

/-- The connection to the cloud is up: it was made, and since then it neither ended nor began to end. -/
def cloudUp (es : List SysEvent) : Bool :=
  (es.filter fun e => e ∈ [SysEvent.cloud .connected, .cloud .disconnecting, .cloud .disconnected]).getLast? =
    some (.cloud .connected)

/-- It is being made: that began, and since then it was neither made nor given up. -/
def cloudComing (es : List SysEvent) : Bool :=
  (es.filter fun e => e ∈ [SysEvent.cloud .connecting, .cloud .connected, .cloud .disconnecting,
    .cloud .disconnected]).getLast? = some (.cloud .connecting)

/-! ## Bytes -/

/-- The change of a counter at each heartbeat at which the driver told it; `none` at the others. -/
def changes : Nat → List (Option Nat) → List (Option Nat)
  | _, [] => []
  | p, none :: ts => none :: changes p ts
  | p, some t :: ts => some (t - p) :: changes t ts

/-- Totals grow, by less than 4 GiB between two heartbeats. -/
def Growing : Nat → List (Option Nat) → Prop
  | _, [] => True
  | p, none :: ts => Growing p ts
  | p, some t :: ts => p ≤ t ∧ t - p < 2 ^ 32 ∧ Growing t ts

end Mflt.Spec.WifiMetrics
