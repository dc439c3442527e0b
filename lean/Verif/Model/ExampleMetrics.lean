import Verif.Spec.ExampleMetrics

/-!
# Model of the metrics of the FreeRTOS example

`examples/freertos/src/metrics.c` on a device with 32-bit pointers. Simplifications: a session of metrics is its start and the one
metric recorded in it (its full model is `Model/MetricsSession`); every report fits in the storage; `mallinfo` and the statistics
of the FreeRTOS heap are inputs; the time is in milliseconds since boot.
-/

namespace Mflt.ExampleMetrics

open Spec.ExampleMetrics

/-- `s_last_daily_heartbeat_interval`, metrics.c:115, and the session `daily_heartbeat`. -/
structure State where
  count : BitVec 64
  began : Option Nat
  uptime : Option Nat

/-- Before the first heartbeat. -/
def init : State := ⟨0, none, none⟩

/-- `memfault_metrics_session_end`, memfault_metrics.c:1127-1158: the timer of a session that was not started cannot be stopped. -/
def sessionEnd (s : State) (now : Nat) : State × List Report :=
  match s.began with
  | none => (s, [])
  | some b => ({ s with began := none }, [⟨b, now, s.uptime⟩])

/-- `memfault_metrics_session_start`, memfault_metrics.c:1097-1125. -/
def sessionStart (s : State) (now : Nat) : State := { s with began := some now, uptime := none }

/-- `DAILY_HEARTBEAT_INTERVAL_COUNT`, metrics.c:114. -/
def intervalCount (interval : Nat) : Nat := 24 * 60 * 60 / interval

/-- `prv_daily_heartbeat`, metrics.c:105-135. -/
def dailyHeartbeat (interval : Nat) (s : State) (now : Nat) : State × List Report :=
  let s := { s with count := s.count + 1 }
  if s.count.toNat % intervalCount interval = 0 then
    let s := { s with uptime := some (now / 1000 % 2 ^ 32) }
    let r := sessionEnd s now
    (sessionStart r.1 now, r.2)
  else (s, [])

/-- One heartbeat at each of the times: the state and the reports. -/
def heartbeats (interval : Nat) : State → List Nat → State × List Report
  | s, [] => (s, [])
  | s, t :: l =>
    let r := dailyHeartbeat interval s t
    let q := heartbeats interval r.1 l
    (q.1, r.2 ++ q.2)

/-- `heap_pct_max` of `prv_run_metrics_task`, metrics.c:68-71. -/
def heapPctMax (totalHeapSize minimumEverFree : BitVec 32) : BitVec 32 :=
  10000#32 * (totalHeapSize - minimumEverFree) / totalHeapSize

/-- The difference of two pointers to `uint32_t`. -/
def wordsBetween (top bottom : BitVec 32) : BitVec 32 := BitVec.ofInt 32 ((top - bottom).toInt / 4)

/-- `prv_collect_libc_heap_usage_metrics`, metrics.c:87-102. -/
def libcHeapPct (heapTop heapBottom uordblks : BitVec 32) : BitVec 32 :=
  10000#32 * uordblks / wordsBetween heapTop heapBottom

end Mflt.ExampleMetrics
