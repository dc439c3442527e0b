import Verif.Model.Metrics
import Verif.Spec.Metrics

/-!
# Model of the collection of built-in metrics

`components/metrics/src/memfault_metrics_reliability.c`, `memfault_metrics_connectivity.c`,
`memfault_metrics_battery.c` and the collecting parts of `memfault_metrics.c`. Each function is modelled
by the metric calls it makes, with the times at which the clock is read as arguments, and by the change
of its static variables. `Op` only names calls of the metrics API here.
-/

namespace Mflt.Collect

open Spec.Metrics (Op Act)

/-- The built-in keys, heartbeat_config.def. -/
structure Keys where
  intervalMs : Nat
  unexpectedRebootCount : Nat
  connected : Nat
  expected : Nat
  hours : Nat
  crashfreeHours : Nat
  socDrop : Nat
  dischargeMs : Nat
  soc : Nat
  logDropped : Nat
  logRecorded : Nat
  uptime : Nat
  deriving Repr

/-- The built-in keys as a list. -/
def Keys.all (K : Keys) : List Nat :=
  [K.intervalMs, K.unexpectedRebootCount, K.connected, K.expected, K.hours, K.crashfreeHours, K.socDrop,
   K.dischargeMs, K.soc, K.logDropped, K.logRecorded, K.uptime]

/-- The static variables of `memfault_metrics_reliability_collect`,
memfault_metrics_reliability.c:15-17. -/
structure Reliability where
  lastHeartbeatMs : Nat
  operationalMs : Nat
  counted : Bool
  deriving Repr, DecidableEq

def Reliability.init : Reliability := ⟨0, 0, false⟩

/-- The `int32_t` with the bits of a `uint32_t`. -/
def asInt32 (v : Nat) : Int := (BitVec.ofNat 32 v).toInt

/-- `memfault_metrics_reliability_collect`, memfault_metrics_reliability.c:14-48. `unexpected` is what
`memfault_reboot_tracking_get_unexpected_reboot_occurred` leaves in the variable. -/
def Reliability.collect (K : Keys) (r : Reliability) (nowMs : Nat) (unexpected : Bool) :
    List Op × Reliability :=
  let now := nowMs % 2 ^ 32
  let interval := sub32 now r.lastHeartbeatMs
  let operational := add32 r.operationalMs interval
  let hours := operational / 1000 / 3600
  let rest := sub32 operational (hours * 3600 * 1000 % 2 ^ 32)
  let reboot := if r.counted then false else unexpected
  (if hours = 0 then [] else
    [.add K.hours (asInt32 hours), .add K.crashfreeHours (asInt32 (sub32 hours (if reboot then 1 else 0)))],
   ⟨now, rest, if hours = 0 then r.counted else true⟩)

/-- `eMemfaultMetricsConnectivityState`, connectivity.h. -/
inductive ConnState
  | stopped
  | started
  | connected
  | lost
  deriving Repr, DecidableEq

/-- `memfault_metrics_connectivity_connected_state_change`, memfault_metrics_connectivity.c:39-64. The
clock is read at `t1` for the first call and at `t2` for the second. -/
def connectivityChange (K : Keys) (t1 t2 : Nat) : ConnState → List Op
  | .stopped => [.timerStop K.connected t1, .timerStop K.expected t2]
  | .started => [.timerStart K.expected t1]
  | .connected => [.timerStart K.expected t1, .timerStart K.connected t2]
  | .lost => [.timerStart K.expected t1, .timerStop K.connected t2]

/-- `s_memfault_battery_ctx`, memfault_metrics_battery.c:19-27. -/
structure Battery where
  lastSoc : Int
  startMs : Nat
  stopped : Bool
  deriving Repr, DecidableEq

/-- What `memfault_platform_get_stateofcharge` returns. -/
structure SocReading where
  rv : Int
  soc : BitVec 32
  discharging : Bool
  deriving Repr, DecidableEq

/-- `current_stateofcharge`, memfault_metrics_battery.c:90, 123. -/
def SocReading.value (r : SocReading) : Int := if r.rv = 0 then r.soc.toInt else -1

/-- `memfault_metrics_battery_boot`, memfault_metrics_battery.c:122-130. -/
def Battery.boot (r : SocReading) (nowMs : Nat) : Battery := ⟨r.value, nowMs, !r.discharging⟩

/-- `memfault_metrics_battery_stopped_discharging`, memfault_metrics_battery.c:53-55. -/
def Battery.stoppedDischarging (b : Battery) : Battery := { b with stopped := true }

/-- `prv_accumulate_discharge_session_drop`, memfault_metrics_battery.c:29-51. The subtraction of two
valid charges does not overflow; with an invalid one the result is not used. -/
def Battery.accumulate (K : Keys) (b : Battery) (valid : Bool) (current : Int) (nowMs : Nat) :
    List Op × Battery :=
  let drop := b.lastSoc - current
  let len := (nowMs + 2 ^ 64 - b.startMs) % 2 ^ 64 % 2 ^ 32
  (if valid && decide (drop ≥ 0) then
    [.setUnsigned K.socDrop drop.toNat, .setUnsigned K.dischargeMs len] else [],
   { b with startMs := nowMs })

/-- `memfault_metrics_battery_collect_data`, memfault_metrics_battery.c:62-117. -/
def Battery.collect (K : Keys) (b : Battery) (r : SocReading) (nowMs : Nat) : List Op × Battery :=
  let stopped := b.stopped
  let b := { b with stopped := !r.discharging }
  let current := r.value
  let socValid := decide (current ≥ 0) && decide (b.lastSoc ≥ 0)
  let valid := r.discharging && !stopped && socValid
  let r := b.accumulate K valid current nowMs
  (r.1 ++ if current ≥ 0 then [.setUnsigned K.soc current.toNat] else [], { r.2 with lastSoc := current })

/-- The static variables of `prv_memfault_collect_log_metrics`, memfault_metrics.c:532-533. -/
structure LogCounts where
  dropped : Nat
  recorded : Nat
  deriving Repr, DecidableEq

/-- `prv_memfault_collect_log_metrics`, memfault_metrics.c:531-546. -/
def LogCounts.collect (K : Keys) (l : LogCounts) (dropped recorded : Nat) : List Op × LogCounts :=
  ([.add K.logDropped (asInt32 (sub32 dropped l.dropped)),
    .add K.logRecorded (asInt32 (sub32 recorded l.recorded))], ⟨dropped, recorded⟩)

/-- Which parts are compiled in. -/
structure Config where
  battery : Bool
  logs : Bool
  uptime : Bool
  deriving Repr, DecidableEq

/-- All static variables. -/
structure State where
  reliability : Reliability
  battery : Battery
  logs : LogCounts
  deriving Repr, DecidableEq

/-- What the platform and the application contribute to one heartbeat. -/
structure Beat where
  /-- The times at which the timers are updated. -/
  timers : Nat → Nat
  /-- The calls of `memfault_metrics_heartbeat_collect_sdk_data`. -/
  sdkCalls : List Op
  /-- The time read by the reliability metrics. -/
  reliabilityMs : Nat
  unexpectedReboot : Bool
  soc : SocReading
  batteryMs : Nat
  /-- The number of log lines dropped and recorded so far; the SDK's counters are 32 bits wide. -/
  logDropped : Nat
  logRecorded : Nat
  uptimeMs : Nat
  /-- The calls of `memfault_metrics_heartbeat_collect_data`. -/
  userCalls : List Op
  /-- The unix time, if known. -/
  captureTime : Option Nat

/-- The logging counters are 32 bits wide. -/
def low32 (v : Nat) : Nat := v % 2 ^ 32

/-- `prv_collect_builtin_data`, memfault_metrics.c:551-580. -/
def builtin (cfg : Config) (K : Keys) (s : State) (b : Beat) : List Op × State :=
  let r1 := s.reliability.collect K b.reliabilityMs b.unexpectedReboot
  let r2 := if cfg.battery then s.battery.collect K b.soc b.batteryMs else ([], s.battery)
  let r3 := if cfg.logs then s.logs.collect K (low32 b.logDropped) (low32 b.logRecorded) else ([], s.logs)
  let ops4 := if cfg.uptime then [Op.setUnsigned K.uptime (Metrics.uptimeSeconds b.uptimeMs)] else []
  (r1.1 ++ r2.1 ++ r3.1 ++ ops4, ⟨r1.2, r2.2, r3.2⟩)

/-- `prv_heartbeat_timer`, memfault_metrics.c:926-935. Serializing and resetting the heartbeat session
is a flush. -/
def heartbeat (cfg : Config) (K : Keys) (s : State) (b : Beat) : List Act × State :=
  (Act.call (.updateTimers b.timers) :: (b.sdkCalls.map Act.call ++ (builtin cfg K s b).1.map Act.call ++
    b.userCalls.map Act.call ++ [Act.flush b.captureTime]), (builtin cfg K s b).2)

/-- What happens in the life of a device. -/
inductive Event
  /-- A metric call of the application. -/
  | call (op : Op)
  | connectivity (c : ConnState) (t1 t2 : Nat)
  | stoppedDischarging
  | beat (b : Beat)

/-- The metric calls of one event. -/
def eventActs (cfg : Config) (K : Keys) (s : State) : Event → List Act × State
  | .call op => ([.call op], s)
  | .connectivity c t1 t2 => ((connectivityChange K t1 t2 c).map Act.call, s)
  | .stoppedDischarging => ([], { s with battery := s.battery.stoppedDischarging })
  | .beat b => heartbeat cfg K s b

/-- The metric calls of a history. -/
def acts (cfg : Config) (K : Keys) (s : State) : List Event → List Act
  | [] => []
  | e :: es => (eventActs cfg K s e).1 ++ acts cfg K (eventActs cfg K s e).2 es

/-- The state after a boot with the battery at `soc`; the metric calls of `memfault_metrics_boot`
after the reset, memfault_metrics.c:1408-1417. -/
def boot (K : Keys) (soc : SocReading) (bootMs reboots : Nat) : List Act × State :=
  ([.call (.timerStart K.intervalMs bootMs), .call (.setUnsigned K.unexpectedRebootCount reboots)],
   ⟨.init, .boot soc bootMs, ⟨0, 0⟩⟩)

/-- All metric calls from boot on. -/
def life (cfg : Config) (K : Keys) (soc : SocReading) (bootMs reboots : Nat) (evs : List Event) : List Act :=
  (boot K soc bootMs reboots).1 ++ acts cfg K (boot K soc bootMs reboots).2 evs

end Mflt.Collect
