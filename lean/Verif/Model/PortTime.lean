/-!
# Time since boot and the heartbeat timer of the FreeRTOS and nRF5 ports, time since boot of Particle and DA145xx

`memfault_platform_get_time_since_boot_ms` of `ports/freertos/src/memfault_core_freertos.c` and of
`ports/nrf5_sdk/memfault_platform_metrics.c`, and `memfault_platform_metrics_timer_boot` of
`ports/freertos/src/memfault_metrics_freertos.c` and of the nRF5 file.

The hardware / kernel counters are functions of the true number of ticks since boot: FreeRTOS'
`xTaskGetTickCount` is that number modulo `2 ^ width` (`TickType_t` has 32 bits, or 16 with
`configUSE_16_BIT_TICKS`), and the nRF5 SDK's `app_timer_cnt_get` is that number modulo `2 ^ 24`.
-/

namespace Mflt.PortTime

/-! ## FreeRTOS -/

/-- The function's static variables: `ports/freertos/src/memfault_core_freertos.c:24-25`. -/
structure FreeRtos where
  /-- `s_elapsed_ticks`, a `uint64_t` -/
  elapsed : Nat := 0
  /-- `s_last_tick_count`, a `uint32_t` -/
  last : Nat := 0
  deriving DecidableEq, Repr

/-- The critical section: `ports/freertos/src/memfault_core_freertos.c:27-36`.  `now` is the true
number of ticks since boot and `width` the number of bits of `TickType_t`. -/
def FreeRtos.tick (width : Nat) (s : FreeRtos) (now : Nat) : FreeRtos :=
  let curr := now % 2 ^ width
  { elapsed := (s.elapsed + (curr + 2 ^ 32 - s.last) % 2 ^ 32) % 2 ^ 64, last := curr }

/-- The conversion to milliseconds, `(elapsed * ((1000ull << 16) / configTICK_RATE_HZ)) >> 16`:
`ports/freertos/src/memfault_core_freertos.c:42`. -/
def FreeRtos.toMs (hz elapsed : Nat) : Nat := elapsed * (1000 * 2 ^ 16 / hz) % 2 ^ 64 / 2 ^ 16

/-- `memfault_platform_get_time_since_boot_ms`, FreeRTOS:
`ports/freertos/src/memfault_core_freertos.c:23-43`, called when `now` ticks have elapsed. -/
def FreeRtos.get (width hz : Nat) (s : FreeRtos) (now : Nat) : Nat × FreeRtos :=
  let s := s.tick width now
  (FreeRtos.toMs hz s.elapsed, s)

/-- The results of a sequence of calls made at the given times. -/
def FreeRtos.calls (width hz : Nat) : FreeRtos → List Nat → List Nat
  | _, [] => []
  | s, now :: rest =>
    let r := s.get width hz now
    r.1 :: FreeRtos.calls width hz r.2 rest

/-- The same call with the load of `s_elapsed_ticks` after `taskEXIT_CRITICAL` made explicit
(`ports/freertos/src/memfault_core_freertos.c:36-42`): on a 32-bit target it is two loads, low word
first, and other tasks may run the whole function between them, at the times in `between`.
Simplification: only this one point of preemption. -/
def FreeRtos.getTorn (width hz : Nat) (s : FreeRtos) (now : Nat) (between : List Nat) :
    Nat × FreeRtos :=
  let s1 := s.tick width now
  let s2 := between.foldl (FreeRtos.tick width) s1
  (FreeRtos.toMs hz (s2.elapsed / 2 ^ 32 * 2 ^ 32 + s1.elapsed % 2 ^ 32), s2)

/-- The period in ticks given to the auto-reload timer, `SEC_TO_FREERTOS_TICKS`:
`ports/freertos/src/memfault_metrics_freertos.c:25-26,47-57`, with FreeRTOS'
`portTICK_PERIOD_MS = 1000 / configTICK_RATE_HZ`; the argument of `xTimerCreate` is a
`TickType_t`.  `none` is a division by zero. -/
def freertosTimerTicks (width hz periodSec : Nat) : Option Nat :=
  let periodMs := 1000 / hz
  if periodMs = 0 then none else some (periodSec * 1000 / periodMs % 2 ^ width)

/-! ## Particle and DA145xx -/

/-- `memfault_platform_get_time_since_boot_ms`, ports/particle/src/memfault.cpp:316-318, `ms` milliseconds after boot:
`millis()` has 32 bits. -/
def particleMs (ms : Nat) : Nat := ms % 2 ^ 32

/-- `memfault_platform_get_time_since_boot_ms`, ports/dialog/da145xx/memfault_platform_metrics.c:24-37, `slots` slots of
625 µs after boot, with the BLE core running or not: `lld_evt_time_get()` is the core's base time counter, which has
27 bits. -/
def da145xxMs (ble : Bool) (slots : Nat) : Nat := if ble then slots % 2 ^ 27 * 625 / 1000 else 0

/-! ## nRF5 SDK -/

/-- `s_uptime_ctx`: `ports/nrf5_sdk/memfault_platform_metrics.c:27-36`. -/
structure Nrf5 where
  /-- `last_tick_count` -/
  last : Nat := 0
  /-- `time_since_boot_ticks`, a `uint64_t` -/
  ticks : Nat := 0
  deriving DecidableEq, Repr

/-- The SDK's `app_timer_cnt_get` at `now` ticks since boot: a 24-bit counter. -/
def appTimerCnt (now : Nat) : Nat := now % 2 ^ 24

/-- The SDK's `app_timer_cnt_diff_compute(to, from)`: `(to - from) & 0xffffff`. -/
def appTimerDiff (to fr : Nat) : Nat := (to + 2 ^ 32 - fr) % 2 ^ 32 % 2 ^ 24

/-- The value returned for a counter value read earlier, with the context as it is when the
difference is computed: `ports/nrf5_sdk/memfault_platform_metrics.c:40-45`. -/
def Nrf5.value (freq : Nat) (s : Nrf5) (ticksCurrent : Nat) : Nat :=
  let curr := (s.ticks + appTimerDiff ticksCurrent s.last) % 2 ^ 64
  let ticksPerSec := 32768 / (freq + 1)
  1000 * curr % 2 ^ 64 / ticksPerSec

/-- `memfault_platform_get_time_since_boot_ms`, nRF5:
`ports/nrf5_sdk/memfault_platform_metrics.c:38-46`, not interrupted.  `freq` is
`APP_TIMER_CONFIG_RTC_FREQUENCY`. -/
def Nrf5.get (freq : Nat) (s : Nrf5) (now : Nat) : Nat := s.value freq (appTimerCnt now)

/-- `prv_update_boot_time`: `ports/nrf5_sdk/memfault_platform_metrics.c:48-55`. -/
def Nrf5.update (s : Nrf5) (now : Nat) : Nrf5 :=
  let curr := appTimerCnt now
  { last := curr, ticks := (s.ticks + appTimerDiff curr s.last) % 2 ^ 64 }

/-- What happens at a given time: the application asks for the time, or the metrics timer's
handler runs. -/
inductive Nrf5Op where
  | get (now : Nat)
  | timer (now : Nat)
  deriving DecidableEq, Repr

/-- The times returned by a history of calls and timer expirations. -/
def Nrf5.run (freq : Nat) : Nrf5 → List Nrf5Op → List Nat
  | _, [] => []
  | s, .get now :: rest => s.get freq now :: Nrf5.run freq s rest
  | s, .timer now :: rest => Nrf5.run freq (s.update now) rest

/-- A call interrupted by the timer's handler, at time `irq`, between the read of the counter at
`now` and the read of the context: `ports/nrf5_sdk/memfault_platform_metrics.c:39-40,48-55`. -/
def Nrf5.getInterrupted (freq : Nat) (s : Nrf5) (now irq : Nat) : Nat :=
  (s.update irq).value freq (appTimerCnt now)

/-- The SDK's `APP_TIMER_TICKS(ms)`, a `uint32_t`: rounded
`ms * 32768 / (1000 * (freq + 1))`. -/
def appTimerTicks (freq ms : Nat) : Nat :=
  (ms * 32768 + 1000 * (freq + 1) / 2) / (1000 * (freq + 1)) % 2 ^ 32

/-- The metrics timer: `s_minutes_elapsed`, `s_interval_minutes` and the period in ticks of the
repeated app timer. -/
structure Nrf5Timer where
  elapsed : Nat := 0
  interval : Nat
  periodTicks : Nat
  deriving DecidableEq, Repr

/-- `memfault_platform_metrics_timer_boot`, nRF5, called once:
`ports/nrf5_sdk/memfault_platform_metrics.c:92-100`. -/
def nrf5TimerBoot (freq periodSec : Nat) : Nrf5Timer :=
  let periodTicks := appTimerTicks freq (periodSec * 1000 % 2 ^ 32)
  if 0xffffff < periodTicks then
    { interval := (periodSec + 30) % 2 ^ 32 / 60, periodTicks := appTimerTicks freq (60 * 1000) }
  else { interval := 0, periodTicks := periodTicks }

/-- `prv_mflt_metric_timer`: `ports/nrf5_sdk/memfault_platform_metrics.c:61-76`; whether the
registered callback is called. -/
def Nrf5Timer.expire (t : Nrf5Timer) : Bool × Nrf5Timer :=
  if t.interval ≠ 0 then
    let e := (t.elapsed + 1) % 2 ^ 32
    (e % t.interval == 0, { t with elapsed := e })
  else (true, t)

/-- For each of `n` expirations of the app timer, whether the callback is called. -/
def Nrf5Timer.fires : Nat → Nrf5Timer → List Bool
  | 0, _ => []
  | n + 1, t => t.expire.1 :: Nrf5Timer.fires n t.expire.2

end Mflt.PortTime
