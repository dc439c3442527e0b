import Verif.Model.Mem

/-
Periodic uploads: `ports/esp_idf/memfault/common/memfault_platform_http_periodic_upload.c` and
`ports/zephyr/common/memfault_http_periodic_upload.c`.

Simplified: what an upload does is left out; it takes some time. Zephyr's timer and work queue are modelled
as in their documentation: a timer expires at its first delay and then every period, and a work item that is
still waiting is not queued again.
-/
namespace Mflt.PeriodicUpload

/-- The delay before the first upload in seconds, memfault_platform_http_periodic_upload.c:61-70
(Zephyr: memfault_http_periodic_upload.c:52-60). `none` is a division by 0. The sum is one of `uint32_t`. -/
def firstDelay (interval random : Nat) : Option Nat :=
  if interval = 0 then none
  else some (((if interval ≥ 60 then 60 else 5) + random % interval) % 2 ^ 32)

/-- `initial_delay_ms_ticks` and `interval_ms_ticks` of `prv_periodic_upload_task`,
memfault_platform_http_periodic_upload.c:72-73. `tickMs` is `portTICK_PERIOD_MS`, which is
`1000 / configTICK_RATE_HZ`. -/
def espDelays (interval random tickMs : Nat) : Option (Nat × Nat) :=
  match firstDelay interval random with
  | none => none
  | some first =>
    if tickMs = 0 then none
    else some ((1000 * first) % 2 ^ 32 / tickMs, (1000 * interval) % 2 ^ 32 / tickMs)

/-- `portTICK_PERIOD_MS` of FreeRTOS. -/
def tickPeriod (hz : Nat) : Nat := 1000 / hz

/-- The loop of `prv_periodic_upload_task`, memfault_platform_http_periodic_upload.c:81-103: the ticks at which
an upload starts. `busy` says how long each one takes. -/
def espLoop (period now : Nat) : List Nat → List Nat
  | [] => []
  | d :: t => now :: espLoop period (now + d + period) t

/-- The ticks at which an upload starts, for as many uploads as `busy` has entries. -/
def espTimes (interval random tickMs : Nat) (busy : List Nat) : Option (List Nat) :=
  (espDelays interval random tickMs).map fun d => espLoop d.2 d.1 busy

/-- The work item of Zephyr: idle, waiting in the queue, or running (and perhaps waiting again). -/
structure Work where
  waiting : Bool := false
  running : Bool := false
  uploads : Nat := 0
deriving Repr, DecidableEq

/-- What happens: the timer expires, the queue takes the work item when there is data or none, the handler
ends. -/
inductive Ev where
  | expire
  | start (available : Bool)
  | finish
deriving Repr, DecidableEq

/-- `prv_timer_expiry_handler`, `prv_metrics_work_handler`,
memfault_http_periodic_upload.c:30-47. -/
def step (w : Work) : Ev → Work
  | .expire => { w with waiting := true }
  | .start available =>
    if w.waiting && !w.running then
      { waiting := false, running := available, uploads := w.uploads + if available then 1 else 0 }
    else w
  | .finish => { w with running := false }

def run (w : Work) (evs : List Ev) : Work := evs.foldl step w

end Mflt.PeriodicUpload
