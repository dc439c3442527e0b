import Verif.Model.Mem

/-!
# Model of `components/core/src/memfault_task_watchdog.c`

Times are `memfault_platform_get_time_since_boot_ms()`, 64 bits wide. A channel id outside of the
table is undefined behaviour. The state `Expired` is never used.
-/

namespace Mflt.TaskWatchdog

/-- `struct MemfaultTaskWatchdogChannel`, task_watchdog_impl.h:29-34. -/
structure Channel where
  fedTime : Nat
  started : Bool
  deriving Repr, DecidableEq

/-- `memfault_task_watchdog_init` on `n` channels, memfault_task_watchdog.c:30-32. -/
def init (n : Nat) : List Channel := List.replicate n ⟨0, false⟩

/-- `prv_memfault_task_watchdog_expired`, memfault_task_watchdog.c:34-41: the subtraction is 64 bits
wide and unsigned. -/
def expired (timeout : Nat) (ch : Channel) (now : Nat) : Bool :=
  ch.started && decide ((now + 2 ^ 64 - ch.fedTime) % 2 ^ 64 > timeout)

/-- `prv_memfault_task_watchdog_do_check`, memfault_task_watchdog.c:43-55. -/
def doCheck (timeout : Nat) (chs : List Channel) (now : Nat) : Nat :=
  let timeSinceBoot := now % 2 ^ 32
  chs.foldl (fun n ch => if expired timeout ch timeSinceBoot then n + 1 else n) 0

/-- What `memfault_task_watchdog_check_all` does. -/
inductive Verdict
  | panic
  | refresh
  deriving Repr, DecidableEq

/-- `memfault_task_watchdog_check_all`, memfault_task_watchdog.c:57-66. -/
def checkAll (timeout : Nat) (chs : List Channel) (now : Nat) : Verdict :=
  if doCheck timeout chs now > 0 then .panic else .refresh

/-- An access to a channel. -/
def update (chs : List Channel) (id : Nat) (f : Channel → Channel) : Option (List Channel) :=
  chs[id]?.map fun ch => chs.set id (f ch)

/-- `memfault_task_watchdog_start`, memfault_task_watchdog.c:73-78. -/
def start (chs : List Channel) (id now : Nat) : Option (List Channel) :=
  (update chs id fun ch => { ch with fedTime := now % 2 ^ 32 }).bind fun chs =>
    update chs id fun ch => { ch with started := true }

/-- `memfault_task_watchdog_feed`, memfault_task_watchdog.c:80-83. -/
def feed (chs : List Channel) (id now : Nat) : Option (List Channel) :=
  update chs id fun ch => { ch with fedTime := now % 2 ^ 32 }

/-- `memfault_task_watchdog_stop`, memfault_task_watchdog.c:85-88. -/
def stop (chs : List Channel) (id : Nat) : Option (List Channel) :=
  update chs id fun ch => { ch with started := false }

end Mflt.TaskWatchdog
