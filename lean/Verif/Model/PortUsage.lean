/-!
# Usage percentages collected by the ports

The CPU, stack and heap usage metrics of `ports/freertos/src/memfault_sdk_metrics_freertos.c`,
`ports/freertos/src/memfault_sdk_metrics_thread.c`,
`ports/zephyr/common/memfault_platform_metrics.c`,
`ports/zephyr/common/memfault_platform_thread_metrics.c` and
`ports/esp_idf/memfault/common/memfault_platform_metrics.c`.  `none` is undefined behaviour (a
division by zero or an out-of-range conversion from `float`).
-/

namespace Mflt.PortUsage

/-! ## FreeRTOS -/

/-- `prv_calculate_delta_runtime`: `ports/freertos/src/memfault_sdk_metrics_freertos.c:72-75`, with
`configRUN_TIME_COUNTER_TYPE` of `width` bits (32 or 64). -/
def deltaRuntime (width prev curr : Nat) : Nat := (curr + 2 ^ width - prev) % 2 ^ width

/-- `prv_calc_runtime_percent`: `ports/freertos/src/memfault_sdk_metrics_freertos.c:82-114`;
`some none` is the result `-1`. -/
def calcRuntimePercent (width prevTask currTask currTotal prevTotal : Nat) : Option (Option Nat) :=
  let delta := deltaRuntime width prevTask currTask
  let total := deltaRuntime width prevTotal currTotal
  if total = 0 then some none
  else
    let max64 := 2 ^ 64 - 1
    let big := max64 - max64 / 10000 ≤ delta
    let delta' := if big then (if max64 - 5000 < delta then max64 else delta + 5000) / 10000
      else delta
    let total' := if big then total / 10000 else total
    let delta'' := if total' < delta' then total' else delta'
    if total' = 0 then none
    else some (some (delta'' * 10000 % 2 ^ 64 / total'))

/-- The static variables `s_prev_idle_runtime` and `s_prev_total_runtime`:
`ports/freertos/src/memfault_sdk_metrics_freertos.c:170,177`. -/
structure CpuState where
  prevIdle : Nat := 0
  prevTotal : Nat := 0
  deriving DecidableEq, Repr

/-- `memfault_freertos_port_task_runtime_metrics`, the metric `cpu_usage_pct`:
`ports/freertos/src/memfault_sdk_metrics_freertos.c:168-207`, given the two counters.  The result is
the value set, if any.  (`cpu1_usage_pct` is the same computation with the other core's counter.) -/
def freertosCpu (width : Nat) (s : CpuState) (idle total : Nat) :
    Option (Option Nat) × CpuState :=
  ((calcRuntimePercent width s.prevIdle idle total s.prevTotal).map
      (fun p => p.map (fun v => (10000 - v) % 2 ^ 32)),
   { prevIdle := idle, prevTotal := total })

/-- The values set by successive heartbeats; `samples` are the true idle and total run times at
each, of which the counters hold the low `width` bits. -/
def freertosHeartbeats (width : Nat) : CpuState → List (Nat × Nat) → List (Option (Option Nat))
  | _, [] => []
  | s, (idle, total) :: rest =>
    let r := freertosCpu width s (idle % 2 ^ width) (total % 2 ^ width)
    r.1 :: freertosHeartbeats width r.2 rest

/-- `prv_get_stack_usage_pct_for_thread`:
`ports/freertos/src/memfault_sdk_metrics_thread.c:100-122`, for a task whose stack occupies the
addresses `base … last + 3` (`StackType_t` has 4 bytes), where `last` is `pxEndOfStack`;
`freeWords` is `usStackHighWaterMark`, which FreeRTOS defines as the smallest amount of free stack
there has been, in words, and `scale` is `MEMFAULT_METRICS_THREADS_MEMORY_SCALE_FACTOR`. -/
def freertosStackPct (scale base last freeWords : Nat) : Option Nat :=
  let size := (last + 2 ^ 32 - base + 4) % 2 ^ 32
  if size = 0 then none else some (100 * scale * freeWords % 2 ^ 32 / size)

/-! ## Zephyr -/

/-- The static variables of `memfault_metrics_heartbeat_collect_sdk_data`:
`ports/zephyr/common/memfault_platform_metrics.c:211-213`. -/
structure ZephyrState where
  task : Nat := 0
  all : Nat := 0
  nonIdle : Nat := 0
  deriving DecidableEq, Repr

/-- `prv_cycle_delta_update`, the delta: `ports/zephyr/common/memfault_platform_metrics.c:48-53`. -/
def cycleDelta (curr prev : Nat) : Nat := (curr + 2 ^ 64 - prev) % 2 ^ 64

/-- The metrics `TimerTaskCpuUsage`, `AllTasksCpuUsage` and `cpu_usage_pct`. -/
structure ZephyrCpu where
  task : Nat
  all : Nat
  pct : Nat
  deriving DecidableEq, Repr

/-- The CPU metrics of `memfault_metrics_heartbeat_collect_sdk_data`:
`ports/zephyr/common/memfault_platform_metrics.c:215-243`, Zephyr 3.0 or later. -/
def zephyrCpu (s : ZephyrState) (task all nonIdle : Nat) : Option ZephyrCpu × ZephyrState :=
  let dTask := cycleDelta task s.task
  let dAll := cycleDelta all s.all
  let dNon := cycleDelta nonIdle s.nonIdle
  (if dAll = 0 then none
   else some { task := dTask % 2 ^ 32, all := dAll % 2 ^ 32,
               pct := dNon * 10000 % 2 ^ 64 / dAll % 2 ^ 32 },
   { task := task, all := all, nonIdle := nonIdle })

/-- The values set by successive heartbeats, with the true cycle counts at each. -/
def zephyrHeartbeats : ZephyrState → List (Nat × Nat × Nat) → List (Option ZephyrCpu)
  | _, [] => []
  | s, (task, all, nonIdle) :: rest =>
    let r := zephyrCpu s (task % 2 ^ 64) (all % 2 ^ 64) (nonIdle % 2 ^ 64)
    r.1 :: zephyrHeartbeats r.2 rest

/-- The metric `FileSystem_BytesFree`: `ports/zephyr/common/memfault_platform_metrics.c:246-254`;
`unsigned long` has 32 bits. -/
def zephyrFsFree (frsize bfree : Nat) : Nat := frsize * bfree % 2 ^ 32

/-- `prv_get_stack_usage_pct`:
`ports/zephyr/common/memfault_platform_thread_metrics.c:32-41`, with a 32-bit `size_t`. -/
def zephyrStackPct (scale size free : Nat) : Option Nat :=
  let usage := (size + 2 ^ 32 - free) % 2 ^ 32
  if size = 0 then none else some (usage * 100 * scale % 2 ^ 32 / size)

/-! ## Heap usage, through `float` -/

/-- Rounding of an integer to the nearest `float` (24 significant bits), ties to even. -/
def roundFloat (n : Nat) : Nat :=
  let e := n.log2 - 23
  let q := n / 2 ^ e
  let r := n % 2 ^ e
  (if 2 ^ e < 2 * r ∨ (2 * r = 2 ^ e ∧ q % 2 = 1) then q + 1 else q) * 2 ^ e

/-- `(uint32_t)(used * 10000.f) / total`: the conversion of `used` to `float`, the rounded product,
and the conversion to `uint32_t`, undefined when out of range. -/
def floatPct (used total : Nat) : Option Nat :=
  let p := roundFloat (roundFloat used * 10000)
  if 2 ^ 32 ≤ p then none
  else if total = 0 then none
  else some (p / total)

/-- The metric `memory_pct_max`, Zephyr:
`ports/zephyr/common/memfault_platform_metrics.c:194-195`. -/
def zephyrHeapPct (maxAllocated free allocated : Nat) : Option Nat :=
  floatPct maxAllocated ((free + allocated) % 2 ^ 32)

/-- The metric `memory_pct_max`, ESP-IDF:
`ports/esp_idf/memfault/common/memfault_platform_metrics.c:247-254`. -/
def espHeapPct (minFree free allocated : Nat) : Option Nat :=
  let total := (free + allocated) % 2 ^ 32
  floatPct ((total + 2 ^ 32 - minFree) % 2 ^ 32) total

end Mflt.PortUsage
