import Verif.Model.HeapStats
import Verif.Spec.HeapStats

/-!
# Model of the functions that put the heap statistics between the application and the allocator

`ports/esp_idf/memfault/common/memfault_platform_core.c:282-350` (`__wrap_malloc`, `__wrap_calloc`, `__wrap_free` and
the hooks of the heap), `ports/zephyr/common/memfault_platform_core.c:292-315` (`__wrap_k_malloc`, `__wrap_k_free`)
and `ports/include/memfault/ports/freertos_trace.h:41-58` (`traceMALLOC`, `traceFREE`), with any number of tasks
that are preempted at any point.

The allocator is part of the environment: `live` are its blocks, and a schedule says which address it returns.
What an allocator or a correct program cannot do is skipped: returning a block that is in use, sizes of 2 GB and
more, freeing what one does not own. A function of heap_stats.c reads its state when it begins, and it writes its
result when it ends (`snapshot`): only the lock keeps two of them apart.

Assumptions about code outside of the SDK: FreeRTOS calls `traceMALLOC` and `traceFREE` with the scheduler suspended;
ESP-IDF calls the hook of an allocation after the block is taken, and the one of `free` after the block is
free, and neither for a null pointer.
-/

namespace Mflt.HeapWrap

open Spec.HeapStats (Alloc)

inductive Port
  | freertos
  | zephyr
  | espIdf
  deriving Repr, DecidableEq

/-- How far a task has got in a call. -/
inductive Job
  | idle
  /-- ESP-IDF: in `__real_malloc`, before `esp_heap_trace_alloc_hook` takes the lock -/
  | taken (a : Alloc)
  /-- ESP-IDF: in `memfault_heap_stats_increment_in_use_block_count` -/
  | counting (a : Alloc) (snapshot : HeapStats.State)
  /-- `__real_malloc` has returned -/
  | allocated (a : Alloc)
  /-- in `memfault_heap_stats_malloc` -/
  | recording (a : Alloc) (snapshot : HeapStats.State)
  /-- at the beginning of the wrapper of `free` -/
  | freeing (ptr : Nat)
  /-- in `memfault_heap_stats_free` -/
  | unrecording (ptr : Nat) (snapshot : HeapStats.State)
  /-- before `__real_free` -/
  | unrecorded (ptr : Nat)
  /-- ESP-IDF: in `__real_free`, before `esp_heap_trace_free_hook` takes the lock -/
  | released
  /-- ESP-IDF: in `memfault_heap_stats_decrement_in_use_block_count` -/
  | uncounting (snapshot : HeapStats.State)
  deriving Repr, DecidableEq

/-- The address a call is about. -/
def Job.ptr : Job → Nat
  | .idle => 0
  | .taken a => a.ptr
  | .counting a _ => a.ptr
  | .allocated a => a.ptr
  | .recording a _ => a.ptr
  | .freeing p => p
  | .unrecording p _ => p
  | .unrecorded p => p
  | .released => 0
  | .uncounting _ => 0

/-- The blocks of the allocator, newest first; where each task is; the lock (`memfault_lock` of Zephyr,
`s_memfault_heap_stats_locked` of ESP-IDF); the statistics. -/
structure World where
  live : List Alloc
  tasks : List Job
  locked : Bool
  stats : HeapStats.State
  deriving Repr, DecidableEq

inductive Op
  /-- Task `t` allocates; the allocator returns `ptr`, 0 if it has no memory. -/
  | malloc (t lr ptr size : Nat)
  | free (t ptr : Nat)
  /-- Task `t` runs to the next point. -/
  | step (t : Nat)
  | isrMalloc (lr ptr size : Nat)
  | isrFree (ptr : Nat)
  /-- `realloc`, which is not wrapped, moves a block. -/
  | realloc (ptr ptr' size : Nat)
  deriving Repr, DecidableEq

def setJob (w : World) (t : Nat) (j : Job) : World := { w with tasks := w.tasks.set t j }

/-- What an allocator can return; there is no room for 2^32 blocks. -/
def canReturn (w : World) (ptr size : Nat) : Bool :=
  (ptr == 0 || w.live.all fun a => a.ptr != ptr) && decide (size < 2 ^ 31) && decide (w.live.length + 1 < 2 ^ 32)

/-- What a correct program can free: null, or a block that no other call is about. -/
def mayFree (w : World) (ptr : Nat) : Bool :=
  ptr == 0 || (w.live.any (fun a => a.ptr == ptr) && w.tasks.all fun j => j.ptr != ptr)

def add (live : List Alloc) (a : Alloc) : List Alloc := if a.ptr = 0 then live else a :: live

def drop (live : List Alloc) (ptr : Nat) : List Alloc := live.filter fun a => a.ptr ≠ ptr

/-- `MEMFAULT_IN_USE_BLOCK_COUNT_AUTOMATIC`, 0 only for ESP-IDF, memfault_esp_idf_port_config.h:68,
memfault_heap_stats.c:32-34. -/
def automatic : Port → Bool
  | .espIdf => false
  | _ => true

/-- `memfault_heap_stats_malloc`, memfault_heap_stats.c:130-169, also with the count switched off. -/
def statsMalloc (auto : Bool) (s : HeapStats.State) (a : Alloc) : Option HeapStats.State :=
  if a.ptr ≠ 0 then HeapStats.insert (if auto then HeapStats.increment s else s) a.lr a.ptr a.size else some s

/-- `memfault_heap_stats_free`, memfault_heap_stats.c:171-204, also with the count switched off. -/
def statsFree (auto : Bool) (s : HeapStats.State) (ptr : Nat) : Option HeapStats.State :=
  if ptr ≠ 0 then
    let s := if auto then HeapStats.decrement s else s
    match s.pool.findIdx? fun e => e.ptr == ptr && e.inUse with
    | some i => s.pool[i]?.bind fun e => HeapStats.remove s i e
    | none => some s
  else some s

/-- The next part of a call. Zephyr waits for the lock, `memfault_lock`; ESP-IDF goes on without it,
`prv_heap_lock_acquire`, esp_idf memfault_platform_core.c:289-296. -/
def advance (port : Port) (w : World) (t : Nat) : Job → Option World
  | .idle => some w
  | .taken a =>
    if w.locked then some (setJob w t (.allocated a))
    else some (setJob { w with locked := true } t (.counting a w.stats))
  | .counting a s => some (setJob { w with stats := HeapStats.increment s, locked := false } t (.allocated a))
  | .allocated a =>
    if w.locked then some (if port = .zephyr then w else setJob w t .idle)
    else some (setJob { w with locked := true } t (.recording a w.stats))
  | .recording a s =>
    (statsMalloc (automatic port) s a).map fun s => setJob { w with stats := s, locked := false } t .idle
  | .freeing p =>
    if w.locked then some (if port = .zephyr then w else setJob w t (.unrecorded p))
    else some (setJob { w with locked := true } t (.unrecording p w.stats))
  | .unrecording p s =>
    (statsFree (automatic port) s p).map fun s => setJob { w with stats := s, locked := false } t (.unrecorded p)
  | .unrecorded p =>
    some (setJob { w with live := drop w.live p } t (if port = .espIdf ∧ p ≠ 0 then .released else .idle))
  | .released =>
    if w.locked then some (setJob w t .idle)
    else some (setJob { w with locked := true } t (.uncounting w.stats))
  | .uncounting s => some (setJob { w with stats := HeapStats.decrement s, locked := false } t .idle)

/-- One step of a schedule. Interrupts use the allocator without telling the statistics, esp_idf
memfault_platform_core.c:291-293 and zephyr memfault_platform_core.c:299-303, 308-312; with FreeRTOS they cannot. -/
def step (port : Port) (w : World) : Op → Option World
  | .malloc t lr ptr size =>
    if w.tasks[t]? = some .idle ∧ canReturn w ptr size then
      let w' := { w with live := add w.live ⟨lr, ptr, size⟩ }
      match port with
      | .freertos => (statsMalloc true w.stats ⟨lr, ptr, size⟩).map fun s => { w' with stats := s }
      | .zephyr => some (setJob w' t (.allocated ⟨lr, ptr, size⟩))
      | .espIdf => some (setJob w' t (if ptr = 0 then .allocated ⟨lr, ptr, size⟩ else .taken ⟨lr, ptr, size⟩))
    else some w
  | .free t ptr =>
    if w.tasks[t]? = some .idle ∧ mayFree w ptr then
      match port with
      | .freertos => (statsFree true w.stats ptr).map fun s => { w with live := drop w.live ptr, stats := s }
      | _ => some (setJob w t (.freeing ptr))
    else some w
  | .step t => ((w.tasks[t]?).map (advance port w t)).getD (some w)
  | .isrMalloc lr ptr size =>
    some (if port ≠ .freertos ∧ canReturn w ptr size then { w with live := add w.live ⟨lr, ptr, size⟩ } else w)
  | .isrFree ptr => some (if port ≠ .freertos ∧ mayFree w ptr then { w with live := drop w.live ptr } else w)
  | .realloc ptr ptr' size =>
    some (if port ≠ .freertos ∧ ptr ≠ 0 ∧ ptr' ≠ 0 ∧ mayFree w ptr ∧ canReturn w ptr' size then
      { w with live := ⟨0, ptr', size⟩ :: drop w.live ptr } else w)

def run (port : Port) (w : World) : List Op → Option World
  | [] => some w
  | op :: ops => (step port w op).bind fun w => run port w ops

/-- `tasks` tasks, an empty heap, and statistics with room for `n` allocations. -/
def start (tasks n : Nat) : World := ⟨[], List.replicate tasks .idle, false, HeapStats.reset n⟩

end Mflt.HeapWrap
