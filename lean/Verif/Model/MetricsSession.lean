import Verif.Model.RebootTracking
import Verif.Spec.MetricsClient

/-!
# Model of the metrics sessions of `components/metrics/src/memfault_metrics.c`

A session's report is the byte string that `memfault_metrics_session_serialize` hands to the event
storage; whether it fits is the subject of `Metrics.serialize`, and a report that does not fit changes
only the return value of `memfault_metrics_session_end`. The callbacks that can be registered for the
start and the end of a session are ordinary calls after the start and before the end; during
`memfault_metrics_boot` none is registered. `memfault_metrics_boot` is modelled for a timer that can be
started and a storage of sufficient size.
-/

namespace Mflt.Session

open Spec.Metrics (Op Out)

/-- The generated tables, memfault_metrics.c:99-143, without the dummy entries, and the two built-in
keys that `memfault_metrics_boot` uses. -/
structure Cfg where
  /-- `s_memfault_metrics_session_timer_keys` -/
  timerKeys : List Nat
  /-- `s_memfault_metrics_operational_crashes_keys` -/
  crashKeys : List Nat
  intervalKey : Nat
  rebootCountKey : Nat
  deriving Repr

/-- The metrics and the region of memory that reboot tracking uses. -/
structure Sys where
  metrics : Metrics.State
  reboot : RebootTracking.State

/-- `prv_metrics_session_start`, memfault_metrics.c:1097-1121, at the time `now`. -/
def start (cfg : Cfg) (tab : Metrics.Table) (s : Sys) (session : Nat) (timer : Bool) (now : Nat) :
    Option (Int × Sys) :=
  (Metrics.resetSession tab session s.metrics).bind fun m =>
    (if timer then cfg.timerKeys[session]?.bind fun k => Metrics.timerOp tab m k .start now
     else some (0, m)).bind fun r =>
      (RebootTracking.metricsSession s.reboot true session).map fun b => (r.1, ⟨r.2, b⟩)

/-- `prv_metrics_session_end`, memfault_metrics.c:1128-1154: the return value if the storage takes the
report, and the report, if there is one. -/
def finish (cfg : Cfg) (tab : Metrics.Table) (dev : SerializerHelper.Device) (s : Sys) (session : Nat)
    (timer : Bool) (now : Nat) (time : Option Nat) : Option (Int × Option Bytes × Sys) :=
  (if timer then cfg.timerKeys[session]?.bind fun k => Metrics.timerOp tab s.metrics k .stop now
   else some (0, s.metrics)).bind fun r =>
    (if r.1 = 0 then (Metrics.reportBytes tab r.2 dev time session).map some else some none).bind fun rep =>
      (RebootTracking.metricsSession s.reboot false session).map fun b => (r.1, rep, ⟨r.2, b⟩)

/-- The body of the loop of `prv_session_check_for_unexpected_reboot` after an unexpected reboot,
memfault_metrics.c:1367-1380. -/
def crashStep (cfg : Cfg) (tab : Metrics.Table) (dev : SerializerHelper.Device) (now : Nat)
    (times : Nat → Option Nat) (s : Sys) (session : Nat) : Option (List Bytes × Sys) :=
  (RebootTracking.sessionWasActive s.reboot session).bind fun a =>
    if a.1 then
      (start cfg tab ⟨s.metrics, a.2⟩ session false now).bind fun r =>
        cfg.crashKeys[session]?.bind fun k => (Metrics.add tab r.2.metrics k 1).bind fun q =>
          (finish cfg tab dev ⟨q.2, r.2.reboot⟩ session false now (times session)).map fun p =>
            (p.2.1.toList, p.2.2)
    else some ([], ⟨s.metrics, a.2⟩)

/-- The loop, memfault_metrics.c:1345-1381. -/
def crashLoop (cfg : Cfg) (tab : Metrics.Table) (dev : SerializerHelper.Device) (now : Nat)
    (times : Nat → Option Nat) : Sys → List Nat → Option (List Bytes × Sys)
  | s, [] => some ([], s)
  | s, i :: is => (crashStep cfg tab dev now times s i).bind fun r =>
      (crashLoop cfg tab dev now times r.2 is).map fun q => (r.1 ++ q.1, q.2)

/-- `prv_session_check_for_unexpected_reboot`, memfault_metrics.c:1343-1385. The loop is left at once
if the reboot was expected or is unknown. -/
def checkReboot (cfg : Cfg) (tab : Metrics.Table) (dev : SerializerHelper.Device) (now : Nat)
    (times : Nat → Option Nat) (s : Sys) : Option (List Bytes × Sys) :=
  (if RebootTracking.getUnexpected s.reboot = some true then
    crashLoop cfg tab dev now times s (List.range cfg.crashKeys.length)
   else some ([], s)).map fun r => (r.1, ⟨r.2.metrics, RebootTracking.clearSessions r.2.reboot⟩)

/-- `memfault_metrics_boot`, memfault_metrics.c:1388-1427, after a reset: the reports of sessions. The
static variables are zero before. Not modelled: an error of one of the calls, the connectivity. -/
def boot (cfg : Cfg) (tab : Metrics.Table) (dev : SerializerHelper.Device) (b : RebootTracking.State)
    (count now : Nat) (times : Nat → Option Nat) : Option (List Bytes × Sys) :=
  (Metrics.timerOp tab (Metrics.resetAll (Metrics.State.init tab)) cfg.intervalKey .start now).bind fun r =>
    (Metrics.setValue tab r.2 .unsigned cfg.rebootCountKey (BitVec.ofNat 32 count)).bind fun q =>
      checkReboot cfg tab dev now times ⟨q.2, b⟩

end Mflt.Session
