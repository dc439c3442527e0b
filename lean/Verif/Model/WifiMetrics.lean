import Verif.Model.NetMetrics

/-!
# Model of Wi-Fi metrics of the ports

Modelled code: `ports/cypress/psoc6/memfault_platform_core.c` (Wi-Fi part),
`ports/zephyr/common/memfault_platform_metrics.c` (`prv_wifi_event_callback`),
`ports/esp_idf/memfault/common/memfault_platform_metrics.c` (`metric_event_handler`) and, for the connection to the
cloud, `ports/particle/src/memfault.cpp` (`handle_cloud_connectivity_event`). The handlers call the functions for
metrics. Simplifications: timers and counters are unbounded numbers (see C34 and C35); events come
one after the other, and not while a heartbeat is made (see C102 and C103).
-/

namespace Mflt.WifiMetrics

/-- Calls of a handler, for timers `τ` and counters `κ`. -/
inductive Cmd (τ κ : Type)
  /-- `MEMFAULT_METRIC_TIMER_START` -/
  | start (t : τ)
  /-- `MEMFAULT_METRIC_TIMER_STOP` -/
  | stop (t : τ)
  /-- `MEMFAULT_METRIC_ADD(k, 1)` -/
  | add (k : κ)
  deriving Repr, DecidableEq

/-- The metrics. -/
structure Store (τ κ : Type) where
  running : τ → Bool
  ms : τ → Nat
  count : κ → Nat

def Store.init {τ κ : Type} : Store τ κ := ⟨fun _ => false, fun _ => 0, fun _ => 0⟩

variable {τ κ ε : Type} [DecidableEq τ] [DecidableEq κ]

/-- `prv_update_timer_metric`, memfault_metrics.c:785-830, and `prv_find_key_and_add`,
memfault_metrics.c:937-980, as far as it matters here: a timer that runs is not started again. -/
def apply (s : Store τ κ) : Cmd τ κ → Store τ κ
  | .start t => { s with running := fun u => if u = t then true else s.running u }
  | .stop t => { s with running := fun u => if u = t then false else s.running u }
  | .add k => { s with count := fun l => if l = k then s.count l + 1 else s.count l }

/-- What a heartbeat says. -/
structure Report (τ κ : Type) where
  ms : τ → Nat
  count : κ → Nat

/-- What happens: an event of the Wi-Fi driver, time passes, or a heartbeat is made. -/
inductive Act (ε : Type)
  | event (e : ε)
  | wait (ms : Nat)
  | beat
  deriving Repr, DecidableEq

/-- A history, with the reports. A heartbeat clears times and counts; timers that run go on,
memfault_metrics.c:926-935 (see C36). -/
def run (handler : ε → List (Cmd τ κ)) : Store τ κ → List (Act ε) → List (Report τ κ) × Store τ κ
  | s, [] => ([], s)
  | s, .event e :: as => run handler ((handler e).foldl apply s) as
  | s, .wait ms :: as => run handler { s with ms := fun t => s.ms t + if s.running t then ms else 0 } as
  | s, .beat :: as =>
    let r := run handler { s with ms := fun _ => 0, count := fun _ => 0 } as
    (⟨s.ms, s.count⟩ :: r.1, r.2)

/-! ## PSoC 6 -/

/-- `cy_wcm_event_t`; the others are ignored. -/
inductive Wcm
  | connecting | connected | connectFailed | reconnected | disconnected | other
  deriving Repr, DecidableEq

inductive WcmTimer
  | connecting | connected
  deriving Repr, DecidableEq

inductive WcmCount
  | connect | failure | reconnect | disconnect
  deriving Repr, DecidableEq

/-- `prv_wcm_event_cb`, memfault_platform_core.c:82-125 (PSoC 6). -/
def wcmHandler : Wcm → List (Cmd WcmTimer WcmCount)
  | .connecting => [.start .connecting]
  | .connected => [.stop .connecting, .start .connected, .add .connect]
  | .connectFailed => [.add .failure, .stop .connecting, .stop .connected]
  | .reconnected => [.add .reconnect, .start .connected]
  | .disconnected => [.stop .connected, .add .disconnect]
  | .other => []

/-- The statistics of the Wi-Fi driver, `cy_wcm_wlan_statistics_t`: unsigned, 32 bits wide. -/
structure Stats where
  tx : BitVec 32
  rx : BitVec 32
  deriving Repr, DecidableEq

/-- The metrics of a heartbeat; `none`: not set. -/
structure Bytes2 where
  tx : Option (BitVec 32)
  rx : Option (BitVec 32)
  deriving Repr, DecidableEq

/-- The end of `memfault_metrics_heartbeat_collect_sdk_data`, memfault_platform_core.c:68-77 (PSoC 6). The
second call names `Wifi_TxBytes` again. `now`: what the driver says, if it does. -/
def wcmCollect (last : Stats) (now : Option Stats) : Bytes2 × Stats :=
  match now with
  | none => (⟨none, none⟩, last)
  | some cur =>
    let m : Bytes2 := ⟨none, none⟩
    let m := { m with tx := some (cur.tx - last.tx) }
    let m := { m with tx := some (cur.rx - last.rx) }
    (m, cur)

def wcmBeats : Stats → List (Option Stats) → List Bytes2
  | _, [] => []
  | last, now :: rest => (wcmCollect last now).1 :: wcmBeats (wcmCollect last now).2 rest

/-! ## Zephyr -/

/-- The events of Zephyr's Wi-Fi management with their status. The status of a disconnect is a union with the
reason for it (0 success, 1 unspecified, 2 user request, 3 access point leaving, 4 inactivity). -/
inductive Mgmt
  | connectResult (status : Int)
  | disconnectResult (status : Int)
  | other
  deriving Repr, DecidableEq

/-- `prv_wifi_event_callback`, memfault_platform_metrics.c:96-127 (Zephyr), timer and counter. -/
def mgmtHandler : Mgmt → List (Cmd Unit Unit)
  | .connectResult status => if status ≠ 0 then [] else [.start ()]
  | .disconnectResult status => if status ≠ 0 then [] else [.stop (), .add ()]
  | .other => []

/-! ## ESP-IDF -/

/-- `metric_event_handler`, memfault_platform_metrics.c:80-125 (ESP-IDF), timer and counter. -/
def espHandler : NetMetrics.Sta → List (Cmd Unit Unit)
  | .connected => [.start ()]
  | .disconnected => [.add (), .stop ()]
  | _ => []

/-! ## Particle -/

/-- The parameter of a system event `cloud_status`; `other`: a value that is none of these. -/
inductive Cloud
  | disconnected | connecting | connected | disconnecting | other
  deriving Repr, DecidableEq

/-- A system event: `cloud_status`, or another one (for which the handler only logs an error). -/
inductive SysEvent
  | cloud (status : Cloud)
  | other
  deriving Repr, DecidableEq

inductive CloudTimer
  | connecting | connected
  deriving Repr, DecidableEq

inductive CloudCount
  | connect | disconnect
  deriving Repr, DecidableEq

/-- `Memfault::handle_cloud_connectivity_event`, memfault.cpp:231-265 (Particle), timers and counters. -/
def cloudHandler : SysEvent → List (Cmd CloudTimer CloudCount)
  | .other => []
  | .cloud .disconnected => [.stop .connecting, .stop .connected, .add .disconnect]
  | .cloud .connecting => [.start .connecting]
  | .cloud .connected => [.stop .connecting, .start .connected, .add .connect]
  | .cloud .disconnecting => [.stop .connecting, .stop .connected]
  | .cloud .other => []

/-- `m_connected` after an event, `Memfault::handle_cloud_connectivity_event`, memfault.cpp:231-237. -/
def cloudConnected (was : Bool) : SysEvent → Bool
  | .other => was
  | .cloud status => decide (status = .connected)

end Mflt.WifiMetrics
