/-!
# Model of the thread metrics of FreeRTOS and Zephyr

Modelled code: `ports/freertos/src/memfault_sdk_metrics_thread.c` and
`ports/zephyr/common/memfault_platform_thread_metrics.c`: which thread's stack usage goes to which metric. What the
usage is in percent is modelled in `Verif.Model.PortUsage` (C78); here it is a number of the thread.
Simplification: names are strings of any type, and `strcmp` is equality.
-/

namespace Mflt.ThreadMetrics

/-- The values of the metrics of this heartbeat; `none`: not set. -/
abbrev Values (κ : Type) := κ → Option Nat

/-- `memfault_metrics_heartbeat_set_unsigned`. -/
def setUnsigned {κ : Type} [DecidableEq κ] (m : Values κ) (k : κ) (v : Nat) : Values κ :=
  fun l => if l = k then some v else m l

/-! ## Zephyr -/

/-- A thread of Zephyr, with its name and the usage of its stack. -/
structure Thread (ν : Type) where
  name : ν
  usage : Nat
  deriving Repr, DecidableEq

/-- An entry of `g_memfault_thread_metrics_index` on Zephyr. The end of the list is the entry without a name. -/
structure Entry (ν κ : Type) where
  name : ν
  key : κ
  deriving Repr, DecidableEq

variable {ν κ : Type} [DecidableEq ν] [DecidableEq κ]

/-- The loop of `prv_record_thread_metrics`, memfault_platform_thread_metrics.c:51-62. -/
def recordLoop (m : Values κ) (t : Thread ν) : List (Entry ν κ) → Values κ
  | [] => m
  | e :: es => if e.name = t.name then setUnsigned m e.key t.usage else recordLoop m t es

/-- `memfault_zephyr_thread_metrics_record`, memfault_platform_thread_metrics.c:65-67: for each thread, in the order
of the kernel. -/
def zephyrRecord (index : List (Entry ν κ)) (threads : List (Thread ν)) (m : Values κ) : Values κ :=
  threads.foldl (fun m t => recordLoop m t index) m

/-! ## FreeRTOS -/

/-- An entry of `g_memfault_thread_metrics_index` on FreeRTOS. `handle`: none if the entry has no function for the
handle, else what the function returns (`some none`: NULL). Handles are numbers. -/
structure TaskEntry (ν κ : Type) where
  name : ν
  handle : Option (Option Nat)
  key : κ
  deriving Repr, DecidableEq

/-- The kernel: the tasks by their handles with their names and stack usages. -/
structure FTask (ν : Type) where
  handle : Nat
  name : ν
  usage : Nat
  deriving Repr, DecidableEq

/-- `xTaskGetHandle`: the first task with this name. -/
def taskGetHandle (tasks : List (FTask ν)) (n : ν) : Option Nat :=
  (tasks.find? fun t => t.name = n).map FTask.handle

/-- `prv_get_stack_usage_pct_for_thread`, memfault_sdk_metrics_thread.c:100-122. A handle of no task is undefined
behaviour (`none`). -/
def usageOf (tasks : List (FTask ν)) (h : Nat) : Option Nat :=
  (tasks.find? fun t => t.handle = h).map FTask.usage

/-- `memfault_freertos_port_thread_metrics`, memfault_sdk_metrics_thread.c:124-143. -/
def freertosRecord (tasks : List (FTask ν)) : List (TaskEntry ν κ) → Values κ → Option (Values κ)
  | [], m => some m
  | e :: es, m =>
    let handle : Option Nat := none
    let handle := match e.handle with
      | some h => h
      | none => handle
    let handle := match handle with
      | none => taskGetHandle tasks e.name
      | some h => some h
    match handle with
    | none => freertosRecord tasks es m
    | some h =>
      match usageOf tasks h with
      | none => none
      | some u => freertosRecord tasks es (setUnsigned m e.key u)

end Mflt.ThreadMetrics
