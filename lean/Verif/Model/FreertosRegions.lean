import Verif.Model.Mem

/-!
# Model of `ports/freertos/src/memfault_freertos_ram_regions.c`

Addresses are numbers, `NULL` is 0. `memfault_platform_sanitize_address_range` is any function. The
value of `uxTaskGetStackHighWaterMark` is not modelled; with
`MEMFAULT_COREDUMP_COMPUTE_THREAD_STACK_USAGE` its array is one of the regions. The calls are
serialised by the kernel (memfault_freertos_ram_regions.c:189-193). A `NULL` array is not modelled.
-/

namespace Mflt.FreertosRegions

/-- `MEMFAULT_PLATFORM_MAX_TRACKED_TASKS`, `MEMFAULT_FREERTOS_TCB_SIZE`,
`MEMFAULT_PLATFORM_TASK_STACK_SIZE_TO_COLLECT`, `MEMFAULT_COREDUMP_COMPUTE_THREAD_STACK_USAGE`, and the
addresses of the two static arrays. A pointer has 4 bytes. -/
structure Config where
  maxTasks : Nat
  tcbSize : Nat
  stackSize : Nat
  stackUsage : Bool
  tcbsAddr : Nat
  marksAddr : Nat

/-- `memfault_platform_sanitize_address_range` and the pointers in memory; reading a pointer at an
address where it is not possible is `none`. -/
structure Platform where
  sanitize : Nat → Nat → Nat
  pointer : Nat → Option Nat

/-- `sMfltCoredumpRegion` as made by `MEMFAULT_COREDUMP_MEMORY_REGION_INIT`. -/
structure Region where
  start : Nat
  size : Nat
  deriving Repr, DecidableEq

/-- `prv_find_slot`, memfault_freertos_ram_regions.c:178-187. -/
def findSlot : List Nat → Nat → Option Nat
  | [], _ => none
  | t :: ts, x => if t = x then some 0 else (findSlot ts x).map (· + 1)

/-- `memfault_freertos_trace_task_create`, memfault_freertos_ram_regions.c:194-206. -/
def create (slots : List Nat) (tcb : Nat) : List Nat :=
  match findSlot slots 0 with
  | some i => slots.set i tcb
  | none => slots

/-- `memfault_freertos_trace_task_delete`, memfault_freertos_ram_regions.c:208-216. -/
def delete (slots : List Nat) (tcb : Nat) : List Nat :=
  match findSlot slots tcb with
  | some i => slots.set i 0
  | none => slots

/-- `regions[region_idx] = ...; region_idx++`: the caller's array has `n` entries, an access behind it
is undefined. -/
def put (n : Nat) (out : List Region) (r : Region) : Option (List Region) :=
  if out.length < n then some (out ++ [r]) else none

/-- The first loop of `memfault_freertos_get_task_regions`, memfault_freertos_ram_regions.c:248-267,
over the slots that are left; it returns them as they are then. -/
def tcbLoop (c : Config) (p : Platform) (n : Nat) :
    List Nat → List Region → Option (List Nat × List Region)
  | [], out => some ([], out)
  | t :: ts, out =>
    if out.length < n then
      if t = 0 then (tcbLoop c p n ts out).map fun r => (t :: r.1, r.2)
      else if p.sanitize t c.tcbSize = 0 then (tcbLoop c p n ts out).map fun r => (0 :: r.1, r.2)
      else
        (put n out ⟨t, p.sanitize t c.tcbSize⟩).bind fun out =>
          (tcbLoop c p n ts out).map fun r => (t :: r.1, r.2)
    else some (t :: ts, out)

/-- The second loop, memfault_freertos_ram_regions.c:269-294. The flag tells whether the function
returned from inside of it. -/
def stackLoop (c : Config) (p : Platform) (n : Nat) :
    List Nat → List Region → Option (Bool × List Region)
  | [], out => some (false, out)
  | t :: ts, out =>
    if out.length < n then
      if t = 0 then stackLoop c p n ts out
      else
        (p.pointer t).bind fun top =>
          if p.sanitize top c.stackSize = 0 then stackLoop c p n ts out
          else
            (put n out ⟨top, p.sanitize top c.stackSize⟩).bind fun out =>
              if out.length = n then some (true, out) else stackLoop c p n ts out
    else some (false, out)

/-- `memfault_freertos_get_task_regions`, memfault_freertos_ram_regions.c:241-310, for an array of `n`
entries: the entries written and the slots. -/
def getRegions (c : Config) (p : Platform) (slots : List Nat) (n : Nat) :
    Option (List Region × List Nat) :=
  if n = 0 then some ([], slots)
  else
    (tcbLoop c p n slots []).bind fun r =>
      (stackLoop c p n r.1 r.2).bind fun q =>
        if q.1 = true then some (q.2, r.1)
        else if c.stackUsage = true ∧ q.2.length < n then
          (put n q.2 ⟨c.tcbsAddr, 4 * c.maxTasks⟩).bind fun out =>
            (put n out ⟨c.marksAddr, 4 * c.maxTasks⟩).map fun out => (out, r.1)
        else some (q.2, r.1)

/-- What the kernel reports, and the collection of regions into an array of `n` entries. -/
inductive Op
  | create (tcb : Nat)
  | delete (tcb : Nat)
  | regions (n : Nat)
  deriving Repr, DecidableEq

/-- One operation on the slots. -/
def taskStep (c : Config) (p : Platform) (slots : List Nat) : Op → Option (List Nat)
  | .create t => some (create slots t)
  | .delete t => some (delete slots t)
  | .regions n => (getRegions c p slots n).map (·.2)

/-- Operations one after the other. -/
def taskRun (c : Config) (p : Platform) : List Nat → List Op → Option (List Nat)
  | slots, [] => some slots
  | slots, op :: ops => (taskStep c p slots op).bind fun s => taskRun c p s ops

end Mflt.FreertosRegions
