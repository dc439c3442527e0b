import Verif.Model.RebootEvent
import Verif.Model.MetricsCollect

/-!
# Model of how the ports boot the SDK, and of the count of unexpected reboots

`memfault_platform_boot` of `ports/templates/memfault_platform_port.c:148-176`,
`ports/cypress/psoc6/memfault_platform_core.c:157-182`, `ports/dialog/da145xx/memfault_platform_core.c:18-36`,
`ports/dialog/da1469x/memfault_platform_core.c:15-34` and `ports/mynewt/src/memfault_platform_port.c:103-125`;
`memfault_boot`, `ports/esp_idf/memfault/common/memfault_platform_core.c:226-269`;
`memfault_esp_port_event_collection_boot`, `ports/esp8266_sdk/memfault/memfault_platform_events.c:25-43`;
`prv_boot_memfault`, `ports/zephyr/common/memfault_platform_core.c:261-290`; `prv_metric_timer_handler`,
`ports/esp_idf/memfault/common/memfault_platform_metrics.c:70-77` and
`ports/esp8266_sdk/memfault/memfault_platform_metrics.c:48-55`.

Left out: printing, the log (its boot touches none of what follows), locks, the CLI and the network. Booting the
trace events and the metrics is modelled for a storage that passes their size check; the crashes of sessions
that `memfault_metrics_boot` reports are the subject of `Model/MetricsSession.lean`.
-/

namespace Mflt.PortBoot

open SerializerHelper (Device Drops)
open RebootTracking (Bootup Regs)

inductive Port
  | template
  | espIdf
  | esp8266
  | psoc6
  | da145xx
  | da1469x
  | mynewt
  /-- with `CONFIG_MEMFAULT_RECORD_REBOOT_ON_SYSTEM_INIT`, the default -/
  | zephyr
  deriving Repr, DecidableEq

/-- The calls into the SDK. -/
inductive Call
  /-- `memfault_reboot_reason_get` and `memfault_reboot_tracking_boot` -/
  | tracking
  /-- `memfault_events_storage_boot` -/
  | storage
  /-- `memfault_trace_event_boot` -/
  | trace
  /-- `memfault_reboot_tracking_collect_reset_info` -/
  | collect
  /-- `memfault_reboot_tracking_get_crash_count` and `memfault_metrics_boot` -/
  | metrics
  deriving Repr, DecidableEq

/-- The calls of a port in their order; the lines are above. -/
def calls : Port → List Call
  | .template => [.tracking, .storage, .trace, .collect, .metrics]
  | .espIdf => [.tracking, .storage, .trace, .collect, .metrics]
  | .esp8266 => [.tracking, .storage, .trace, .collect, .metrics]
  | .psoc6 => [.tracking, .storage, .trace, .collect, .metrics]
  | .da145xx => [.tracking, .storage, .trace, .collect, .metrics]
  | .da1469x => [.tracking, .storage, .trace, .collect, .metrics]
  | .mynewt => [.tracking, .storage, .trace, .collect, .metrics]
  | .zephyr => [.tracking, .storage, .collect, .trace, .metrics]

/-- Whether the handler of the heartbeat timer calls `memfault_reboot_tracking_reset_crash_count`,
esp_idf memfault_platform_metrics.c:71 and esp8266_sdk memfault_platform_metrics.c:49; no other port does. -/
def clears : Port → Bool
  | .espIdf => true
  | .esp8266 => true
  | _ => false

/-- The static variables that booting changes; `none` is a null pointer or not yet booted. -/
structure State where
  reboot : RebootTracking.State
  storage : Option EventStorage.State
  drops : Drops
  /-- The trace events know the storage. -/
  trace : Bool
  /-- `unexpected_reboot_count` that the metrics were booted with. -/
  count : Option Nat
  deriving Repr, DecidableEq

/-- What does not change during a boot: the device, the size of the event storage, the reset information of the
hardware and the time. -/
structure Env where
  dev : Device
  bufLen : Nat
  bootup : Bootup
  time : Option Nat

/-- One call. Collecting into a null pointer returns an error, memfault_reboot_tracking_serializer.c:70-72, as does
booting the trace events or the metrics with one, memfault_trace_event.c:55-57, memfault_metrics.c:1390-1392. -/
def call (e : Env) (s : State) : Call → Option State
  | .tracking => some { s with reboot := RebootTracking.boot s.reboot (some e.bootup) }
  | .storage => (EventStorage.boot e.bufLen).map fun q => { s with storage := some q }
  | .trace => some { s with trace := s.storage.isSome }
  | .collect =>
    match s.storage with
    | none => some s
    | some q => (RebootEvent.collect e.dev e.time ⟨s.reboot, q, s.drops⟩).map fun r =>
        { s with reboot := r.2.reboot, storage := some r.2.storage, drops := r.2.drops }
  | .metrics =>
    let r := RebootTracking.getCrashCount s.reboot
    some { s with
      reboot := if s.storage.isSome then RebootTracking.clearSessions r.2 else r.2
      count := if s.storage.isSome then some r.1 else none }

def callAll (e : Env) : State → List Call → Option State
  | s, [] => some s
  | s, c :: cs => (call e s c).bind fun s => callAll e s cs

/-- A boot after a reset: static variables are initialised, the memory of reboot tracking is kept. -/
def boot (port : Port) (e : Env) (ram : RebootTracking.Ram) : Option State :=
  callAll e ⟨⟨ram, RebootTracking.Stat.init⟩, none, ⟨0, 0⟩, false, none⟩ (calls port)

/-! ## The life of a device -/

/-- What happens between two resets. -/
inductive Ev
  /-- A metric call, a connectivity change, or a heartbeat of `memfault_metrics_heartbeat_debug_trigger`. -/
  | metrics (e : Collect.Event)
  /-- A heartbeat of the timer. -/
  | beat (b : Collect.Beat)
  | mark (reason : Nat) (regs : Option Regs)
  | coredumpSaved
  | session (active : Bool) (index : Nat)

/-- The time from one boot to the next. -/
structure Life where
  bootup : Bootup
  time : Option Nat
  soc : Collect.SocReading
  bootMs : Nat
  evs : List Ev
  /-- The reset comes after the handler of the heartbeat timer was called and before the heartbeat is stored. -/
  cut : Bool

/-- What reboot tracking has to do with an event. -/
def onReboot (port : Port) (s : RebootTracking.State) : Ev → Option RebootTracking.State
  | .metrics _ => some s
  | .beat _ => some (if clears port then RebootTracking.resetCrashCount s else s)
  | .mark reason regs => some (RebootTracking.mark s reason regs)
  | .coredumpSaved => some (RebootTracking.markCoredumpSaved s)
  | .session active index => RebootTracking.metricsSession s active index

def rebootAll (port : Port) : RebootTracking.State → List Ev → Option RebootTracking.State
  | s, [] => some s
  | s, e :: es => (onReboot port s e).bind fun s => rebootAll port s es

/-- What the metrics have to do with an event. -/
def onMetrics : Ev → List Collect.Event
  | .metrics e => [e]
  | .beat b => [.beat b]
  | _ => []

/-- The calls into the metrics. -/
def acts (cfg : Collect.Config) (K : Collect.Keys) (L : Life) (count : Nat) : List Spec.Metrics.Act :=
  Collect.life cfg K L.soc L.bootMs count (L.evs.flatMap onMetrics)

/-- A life: the state after the boot, the calls into the metrics, and the memory of reboot tracking at the
next reset. -/
def live (port : Port) (dev : Device) (bufLen : Nat) (cfg : Collect.Config) (K : Collect.Keys)
    (ram : RebootTracking.Ram) (L : Life) : Option (State × List Spec.Metrics.Act × RebootTracking.Ram) :=
  (boot port ⟨dev, bufLen, L.bootup, L.time⟩ ram).bind fun s =>
    s.count.bind fun n =>
      (rebootAll port s.reboot L.evs).map fun r =>
        (s, acts cfg K L n, (if L.cut && clears port then RebootTracking.resetCrashCount r else r).ram)

/-- One life after the other. -/
def lives (port : Port) (dev : Device) (bufLen : Nat) (cfg : Collect.Config) (K : Collect.Keys) :
    RebootTracking.Ram → List Life → Option (List (State × List Spec.Metrics.Act))
  | _, [] => some []
  | ram, L :: Ls => (live port dev bufLen cfg K ram L).bind fun r =>
      (lives port dev bufLen cfg K r.2.2 Ls).map fun q => (r.1, r.2.1) :: q

end Mflt.PortBoot
