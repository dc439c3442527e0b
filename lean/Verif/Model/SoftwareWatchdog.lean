/-
The software watchdogs of the ports: a timer whose interrupt saves a coredump before the hardware
watchdog resets the chip.

Models:
  ports/include/memfault/ports/watchdog.h                      the API
  ports/nrf5_sdk/software_watchdog.c                           an RTC with a compare channel
  ports/zephyr/common/memfault_software_watchdog.c             a kernel timer
  ports/stm32cube/h7/lptim_software_watchdog.c                 an LPTIM
  ports/s32sdk/lpit_software_watchdog.c                        an LPIT channel
  ports/emlib/wdog_software_watchdog.c                         the warning interrupt of the WDOG
  ports/dialog/da1468x/wdog_software_watchdog.c                the NMI of the watchdog

Simplified: each timer is what the vendor's reference manual says of it, seen once per tick of its
own clock; requests that take some clock cycles to reach a peripheral (clearing a counter) act at
once. The interrupt handler does not return (it asserts and the device reboots), so a run ends when
the timer fires. Calls do not interrupt each other.
-/
namespace Mflt.SoftwareWatchdog

/-- The calls of `watchdog.h`. -/
inductive Op where
  | enable
  | disable
  | feed
  | update (ms : Nat)
deriving Repr, DecidableEq

/-- What happens to a watchdog: a call, or one tick of the clock of its timer. -/
inductive Ev where
  | op (o : Op)
  | tick
deriving Repr, DecidableEq

/-- What is seen of it: whether a call returned zero, and at each tick whether the timer fired. -/
inductive Obs where
  | ret (ok : Bool)
  | quiet
  | fired
deriving Repr, DecidableEq

/-- A port: what a call does and what a tick does. -/
structure Port (σ : Type) where
  op : σ → Op → Bool × σ
  tick : σ → Bool × σ

/-- A history of calls and ticks; it ends when the timer fires. -/
def run {σ : Type} (p : Port σ) (s : σ) : List Ev → List Obs
  | [] => []
  | .op o :: es => .ret (p.op s o).1 :: run p (p.op s o).2 es
  | .tick :: es => if (p.tick s).1 then [.fired] else .quiet :: run p (p.tick s).2 es

/-! ## nRF5 -/

/-- The RTC of `ports/nrf5_sdk/software_watchdog.c`: `init` is the state of the nrfx driver, the
counter has 24 bits, `cc` is the compare register when its interrupt is enabled. A tick is 125 ms
(line 134, prescaler `0xfff`). -/
structure Rtc where
  init : Bool := false
  running : Bool := false
  counter : Nat := 0
  cc : Option Nat := none
deriving Repr, DecidableEq

/-- `memfault_software_watchdog_update_timeout`, software_watchdog.c:165-176. -/
def nrf5Update (s : Rtc) (ms : Nat) : Bool × Rtc :=
  (true, { s with cc := some (ms / 125 % 2 ^ 24) })

/-- software_watchdog.c:130-176. `nrfx_rtc_init` fails for a driver that is initialised already;
`nrfx_rtc_disable` does not undo it. -/
def nrf5Op (startMs : Nat) (s : Rtc) : Op → Bool × Rtc
  | .enable =>
    if s.init then (false, s)
    else (true, (nrf5Update { s with init := true, running := true, counter := 0 } startMs).2)
  | .disable => (true, { s with running := false })
  | .feed => (true, { s with counter := 0 })
  | .update ms => nrf5Update s ms

/-- The RTC: the compare event happens when the counter becomes the compare value. -/
def nrf5Tick (s : Rtc) : Bool × Rtc :=
  if s.running then
    (s.cc == some ((s.counter + 1) % 2 ^ 24), { s with counter := (s.counter + 1) % 2 ^ 24 })
  else (false, s)

/-- The nRF5 watchdog; `startMs` is `MEMFAULT_NRF5_WATCHDOG_SW_TIMEOUT_MS`. -/
def nrf5 (startMs : Nat) : Port Rtc := ⟨nrf5Op startMs, nrf5Tick⟩

/-- How `MEMFAULT_NRF5_WATCHDOG_SW_TIMEOUT_MS` is derived at compile time,
software_watchdog.c:79-106: with the automatic configuration it is 125 ms less than the hardware
watchdog's `reload` (which must be at least 125), otherwise it is `secs` and must not be more than
`reload`. `none` is a compile-time error. -/
def nrf5StartMs (auto : Bool) (reload secs : Nat) : Option Nat :=
  if auto then (if reload < 125 then none else some (reload - 125))
  else if reload < secs * 1000 then none
  else some (secs * 1000)

/-! ## Zephyr -/

/-- The kernel timer of `ports/zephyr/common/memfault_software_watchdog.c` and its static
`s_software_watchdog_timeout_ms`. A tick is 1 ms. -/
structure KTimer where
  running : Bool := false
  period : Nat := 0
  left : Nat := 0
  timeoutMs : Nat
deriving Repr, DecidableEq

/-- `prv_start_or_reset`, memfault_software_watchdog.c:25-27: `k_timer_start` restarts a timer. -/
def zephyrStart (s : KTimer) (ms : Nat) : KTimer :=
  { s with running := true, period := ms, left := ms }

/-- memfault_software_watchdog.c:29-48. -/
def zephyrOp (s : KTimer) : Op → Bool × KTimer
  | .enable => (true, zephyrStart s s.timeoutMs)
  | .disable => (true, { s with running := false })
  | .feed => (true, zephyrStart s s.timeoutMs)
  | .update ms => (true, zephyrStart { s with timeoutMs := ms } ms)

/-- A kernel timer: it expires when nothing of its duration is left and starts over. -/
def zephyrTick (s : KTimer) : Bool × KTimer :=
  if s.running then
    if s.left ≤ 1 then (true, { s with left := s.period }) else (false, { s with left := s.left - 1 })
  else (false, s)

def zephyr : Port KTimer := ⟨zephyrOp, zephyrTick⟩

/-! ## STM32H7 -/

/-- The low power timer of `ports/stm32cube/h7/lptim_software_watchdog.c`: 16-bit counter, auto
reload register, and whether its match interrupt is enabled. A tick is 4 ms (lines 55-59: 32000 Hz
divided by 128). -/
structure Lptim where
  running : Bool := false
  irq : Bool := false
  arr : Nat := 0
  counter : Nat := 0
deriving Repr, DecidableEq

/-- `memfault_software_watchdog_update_timeout`, lptim_software_watchdog.c:275-299. `stopOk` and
`startOk` are the results of `HAL_LPTIM_Counter_Stop` and `HAL_LPTIM_Counter_Start`. -/
def h7Update (stopOk startOk : Bool) (s : Lptim) (ms : Nat) : Bool × Lptim :=
  if ms > 65536 / 250 * 1000 then (false, s)
  else if !stopOk then (false, s)
  else if !startOk then (false, { s with running := false, irq := false })
  else (true, { running := true, irq := true, counter := 0
                arr := min (ms * 250 % 2 ^ 32 / 1000) 65535 })

/-- lptim_software_watchdog.c:201-307; `startSecs` is `MEMFAULT_WATCHDOG_SW_TIMEOUT_SECS`. Left out:
the failures of setting up the clocks and of `HAL_LPTIM_Init` in `enable` (it returns the error),
and the request to clear the counter while another one is in progress. -/
def h7Op (stopOk startOk : Bool) (startSecs : Nat) (s : Lptim) : Op → Bool × Lptim
  | .enable => (true, (h7Update stopOk startOk s (startSecs * 1000)).2)
  | .disable => if stopOk then (true, { s with irq := false, running := false })
                else (false, { s with irq := false })
  | .feed => (true, { s with counter := 0 })
  | .update ms => h7Update stopOk startOk s ms

/-- The timer: a match of the auto reload register raises the interrupt and the counter starts
over. -/
def h7Tick (s : Lptim) : Bool × Lptim :=
  if s.running then
    if s.counter + 1 = s.arr then (s.irq, { s with counter := 0 })
    else (false, { s with counter := (s.counter + 1) % 2 ^ 16 })
  else (false, s)

def h7 (stopOk startOk : Bool) (startSecs : Nat) : Port Lptim :=
  ⟨h7Op stopOk startOk startSecs, h7Tick⟩

/-! ## S32 -/

/-- The clock of the LPIT: the selected source (`PCS`), the divider fields of the four sources, the
range bit of the slow oscillator, and `MEMFAULT_SOFTWARE_WATCHDOG_SOURCE_CLOCK_FREQ`. -/
structure S32Clock where
  pcs : Nat
  div : Nat
  sircHigh : Bool := true
  freq : Nat
deriving Repr, DecidableEq

/-- The clock selection of `prv_lpit_with_timeout`, lpit_software_watchdog.c:62-113: the frequency
or the error. `case 6` has no `break` and ends in the default case. The frequencies of the fast and
the slow oscillator are those of the vendor's header (48 MHz, 8 MHz). -/
def s32Freq (c : S32Clock) : Except Int Nat :=
  let src : Option Nat :=
    if c.pcs = 1 then some c.freq
    else if c.pcs = 2 then some (if c.sircHigh then 8000000 else 2000000)
    else if c.pcs = 3 then some 48000000
    else if c.pcs = 6 then none
    else none
  match src with
  | none => .error (-1)
  | some f =>
    if c.div = 0 then .error (-2)
    else if f = 0 then .error (-3)
    else .ok (f >>> (c.div - 1))

/-- An LPIT channel: enabled, start value, current value, interrupt enabled. A tick is one cycle of
the clock of the LPIT. -/
structure Lpit where
  running : Bool := false
  irq : Bool := false
  tval : Nat := 0
  current : Nat := 0
deriving Repr, DecidableEq

/-- The accepted channels at compile time, lpit_software_watchdog.c:39-41. -/
def s32SourceOk (source : Int) : Bool := !(source < 0 || source > 4)

/-- `prv_lpit_with_timeout`, lpit_software_watchdog.c:115-175, for the channel `source`: the
interrupt is enabled for channels 0 to 3 only. -/
def s32Update (source : Nat) (c : S32Clock) (s : Lpit) (ms : Nat) : Bool × Lpit :=
  match s32Freq c with
  | .error _ => (false, s)
  | .ok hz =>
    if ms * hz / 1000 > 2 ^ 32 - 1 then (false, s)
    else (true, { running := true, irq := if source < 4 then true else s.irq
                  tval := ms * hz / 1000, current := ms * hz / 1000 })

/-- lpit_software_watchdog.c:177-199. -/
def s32Op (source : Nat) (c : S32Clock) (startSecs : Nat) (s : Lpit) : Op → Bool × Lpit
  | .enable => s32Update source c s (startSecs * 1000)
  | .disable => (true, { s with running := false })
  | .feed => (true, { s with running := true, current := s.tval })
  | .update ms => s32Update source c s ms

/-- The channel: it counts down to zero, raises the interrupt and starts over. -/
def s32Tick (s : Lpit) : Bool × Lpit :=
  if s.running then
    if s.current ≤ 1 then (s.irq, { s with current := s.tval })
    else (false, { s with current := s.current - 1 })
  else (false, s)

def s32 (source : Nat) (c : S32Clock) (startSecs : Nat) : Port Lpit :=
  ⟨s32Op source c startSecs, s32Tick⟩

/-! ## emlib -/

/-- `MEMFAULT_EM_WDOG_PERSEL_TO_TIMEOUT_MS`, wdog_software_watchdog.c:54-55. -/
def emPeriodMs (persel : Nat) : Nat := 1000 * 2 ^ (3 + persel) / 1000

/-- `MEMFAULT_EM_WDOG_WARNING_TIMEOUT_MS`, wdog_software_watchdog.c:52. -/
def emWarningMs (ms : Nat) : Nat := ms / 2

/-- The search of `prv_configure_watchdog_with_timeout`, wdog_software_watchdog.c:108-116. The
selections run from `wdogPeriod_9` (0) to `wdogPeriod_256k` (15). -/
def emSearch (ms : Nat) : Nat → Nat → Option Nat
  | 0, _ => none
  | fuel + 1, persel =>
    if persel ≤ 15 then
      if emWarningMs (emPeriodMs persel) > ms then some persel
      else emSearch ms fuel (persel + 1)
    else some persel

/-- The selection, wdog_software_watchdog.c:101-119: `none` is the refusal. -/
def emSelect (ms : Nat) : Option Nat :=
  if ms > emWarningMs (emPeriodMs 15) then none
  else (emSearch ms 40 0).map fun p => if p = 0 then 0 else p - 1

/-- The watchdog: enabled, selected period, counter. A tick is 1 ms. -/
structure Wdog where
  running : Bool := false
  persel : Nat := 0
  counter : Nat := 0
deriving Repr, DecidableEq

/-- `prv_configure_watchdog_with_timeout`, wdog_software_watchdog.c:96-166. -/
def emUpdate (locked : Bool) (s : Wdog) (ms : Nat) : Bool × Wdog :=
  match emSelect ms with
  | none => (false, s)
  | some p => if locked then (false, s) else (true, { running := true, persel := p, counter := 0 })

/-- wdog_software_watchdog.c:168-194. -/
def emOp (locked : Bool) (startSecs : Nat) (s : Wdog) : Op → Bool × Wdog
  | .enable => emUpdate locked s (startSecs * 1000)
  | .disable => if locked then (false, s) else (true, { s with running := false })
  | .feed => (true, { s with counter := 0 })
  | .update ms => emUpdate locked s ms

/-- The warning interrupt comes at half of the period (`warnSel` of line 79). -/
def emTick (s : Wdog) : Bool × Wdog :=
  if s.running then
    (decide (s.counter + 1 = emWarningMs (emPeriodMs s.persel)), { s with counter := s.counter + 1 })
  else (false, s)

def emlib (locked : Bool) (startSecs : Nat) : Port Wdog := ⟨emOp locked startSecs, emTick⟩

/-! ## DA1468x -/

/-- The watchdog of the DA1468x and the static `s_watchdog`. A tick is 10.24 ms. -/
structure Da where
  frozen : Bool := true
  value : Nat
  reload : Nat
deriving Repr, DecidableEq

/-- `memfault_software_watchdog_update_timeout`, wdog_software_watchdog.c:60-77; `maxCount` is
`dg_configWDOG_RESET_VALUE`. -/
def daUpdate (maxCount : Nat) (s : Da) (ms : Nat) : Bool × Da :=
  let us := 1000 * ms % 2 ^ 32
  if us > ms then
    let ticks := us / 10240 + 1
    if ticks ≤ maxCount then (true, { s with reload := ticks % 256, value := ticks }) else (false, s)
  else (false, s)

/-- wdog_software_watchdog.c:46-77. Left out: `hw_watchdog_freeze` failing (the watchdog was locked
into generating resets); `disable` returns -1 then. -/
def daOp (maxCount : Nat) (s : Da) : Op → Bool × Da
  | .enable => (true, { s with frozen := false })
  | .disable => (true, { s with frozen := true })
  | .feed => (true, { s with value := s.reload })
  | .update ms => daUpdate maxCount s ms

/-- The watchdog counts down and raises the NMI at zero. -/
def daTick (s : Da) : Bool × Da :=
  if s.frozen then (false, s)
  else (decide (s.value ≤ 1), { s with value := s.value - 1 })

def da1468x (maxCount : Nat) : Port Da := ⟨daOp maxCount, daTick⟩

end Mflt.SoftwareWatchdog
