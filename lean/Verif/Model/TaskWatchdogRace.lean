import Verif.Model.Mem

/-!
# Model of task watchdog channels that are used while they are checked: `components/core/src/memfault_task_watchdog.c`

Nothing in the file takes a lock. Here every access to a channel, and every reading of the clock, is a
step of its own, and a schedule says which context makes the next step. The two members of a channel are
copied in whichever order the schedule says, since the compiler decides. Simplifications: one context
makes the checks; there is at most one call per channel at a time, as each channel belongs to a task;
the accesses of a task are made in the order of the source.
-/

namespace Mflt.TaskWatchdogRace

/-- The calls for a channel, memfault_task_watchdog.c:73-88. -/
inductive Op
  | start
  | feed
  | stop
  deriving Repr, DecidableEq

/-- `struct MemfaultTaskWatchdogChannel`, task_watchdog_impl.h:29-34. -/
structure Chan where
  fed : Nat
  started : Bool
  deriving Repr, DecidableEq

/-- The next access of a call. -/
inductive Pc
  /-- Reading the clock, lines 75 and 82. -/
  | time (op : Op)
  /-- Writing `fed_time_ms`, lines 74 and 81. -/
  | fed (op : Op) (t : Nat)
  /-- Writing `state`, lines 76-77 and 86-87. -/
  | state (op : Op)
  deriving Repr, DecidableEq

def Pc.op : Pc → Op
  | .time op => op
  | .fed op _ => op
  | .state op => op

/-- The first access of `memfault_task_watchdog_start`, memfault_task_watchdog.c:73-78,
`memfault_task_watchdog_feed`, memfault_task_watchdog.c:80-83, and `memfault_task_watchdog_stop`,
memfault_task_watchdog.c:85-88. -/
def entry : Op → Pc
  | .start => .time .start
  | .feed => .time .feed
  | .stop => .state .stop

/-- One access at the time `now`; `none` as the next access: the function returns. Lines 73-88. -/
def access (c : Chan) (now : Nat) : Pc → Option Pc × Chan
  | .time op => (some (.fed op (now % 2 ^ 32)), c)
  | .fed op t => (if op = .start then some (.state op) else none, { c with fed := t })
  | .state op => (none, { c with started := decide (op = .start) })

/-- Where a check is. -/
inductive Check
  /-- Reading the clock, memfault_task_watchdog.c:44. -/
  | time
  /-- Copying the channel `i`, line 48, after `count` of those before it were found expired at `now`. -/
  | copy (i count now : Nat) (fed : Option Nat) (started : Option Bool)
  deriving Repr, DecidableEq

/-- `prv_memfault_task_watchdog_expired`, memfault_task_watchdog.c:34-41: the subtraction is 64 bits wide
and unsigned. -/
def expired (timeout fed : Nat) (started : Bool) (now : Nat) : Bool :=
  started && decide ((now + 2 ^ 64 - fed) % 2 ^ 64 > timeout)

/-- The channels, the clock in milliseconds, the calls in progress, the check in progress, and whether
the watchdog has reset the device. -/
structure Sys where
  chan : Nat → Chan
  now : Nat
  call : Nat → Option Pc
  check : Option Check
  dead : Bool

/-- `memfault_task_watchdog_init`, memfault_task_watchdog.c:30-32. -/
def Sys.init (now : Nat) : Sys := ⟨fun _ => ⟨0, false⟩, now, fun _ => none, none, false⟩

/-- What can happen next. -/
inductive Act
  /-- Time passes. -/
  | tick (ms : Nat)
  /-- The task of channel `i` calls a function. -/
  | call (i : Nat) (op : Op)
  /-- The task of channel `i` makes the next access of its call. -/
  | callStep (i : Nat)
  /-- A check begins. -/
  | check
  /-- The check makes its next access; `fedFirst` says which of two it is. -/
  | checkStep (fedFirst : Bool)
  deriving Repr, DecidableEq

/-- What can be observed, with the time. -/
inductive Ev
  | begun (i : Nat) (op : Op) (t : Nat)
  | ended (i : Nat) (op : Op) (t : Nat)
  | checkBegun (t : Nat)
  /-- The task watchdog asserts. -/
  | panic (t : Nat)
  /-- The callback for "no expired tasks". -/
  | refresh (t : Nat)
  deriving Repr, DecidableEq

/-- Updates a table. -/
def put {α : Type} (f : Nat → α) (i : Nat) (x : α) : Nat → α := fun j => if j = i then x else f j

/-- The next access of `prv_memfault_task_watchdog_do_check`, memfault_task_watchdog.c:43-55, and at its
end the verdict of `memfault_task_watchdog_check_all`, memfault_task_watchdog.c:57-66, with `n` channels. -/
def checkStep (n timeout : Nat) (s : Sys) (fedFirst : Bool) : Check → Sys × List Ev
  | .time => ({ s with check := some (.copy 0 0 (s.now % 2 ^ 32) none none) }, [])
  | .copy i count now fed started =>
    if i < n then
      match fed, started with
      | some f, some st =>
        let count' := if expired timeout f st now then count + 1 else count
        ({ s with check := some (.copy (i + 1) count' now none none) }, [])
      | none, some st => ({ s with check := some (.copy i count now (some (s.chan i).fed) (some st)) }, [])
      | some f, none => ({ s with check := some (.copy i count now (some f) (some (s.chan i).started)) }, [])
      | none, none =>
        if fedFirst then
          ({ s with check := some (.copy i count now (some (s.chan i).fed) none) }, [])
        else
          ({ s with check := some (.copy i count now none (some (s.chan i).started)) }, [])
    else if count > 0 then ({ s with check := none, dead := true }, [.panic s.now])
    else ({ s with check := none }, [.refresh s.now])

/-- One step. A step that is not possible changes nothing, and nothing happens after an assert. Ids
outside of the enumeration of the `n` channels are not used. -/
def step (n timeout : Nat) (s : Sys) (a : Act) : Sys × List Ev :=
  if s.dead then (s, []) else
  match a with
  | .tick ms => ({ s with now := s.now + ms }, [])
  | .call i op =>
    if i < n ∧ s.call i = none then
      ({ s with call := put s.call i (some (entry op)) }, [.begun i op s.now])
    else (s, [])
  | .callStep i =>
    match s.call i with
    | none => (s, [])
    | some pc =>
      let r := access (s.chan i) s.now pc
      ({ s with chan := put s.chan i r.2, call := put s.call i r.1 },
        if r.1 = none then [.ended i pc.op s.now] else [])
  | .check =>
    match s.check with
    | none => ({ s with check := some .time }, [.checkBegun s.now])
    | some _ => (s, [])
  | .checkStep fedFirst =>
    match s.check with
    | none => (s, [])
    | some c => checkStep n timeout s fedFirst c

/-- A schedule. -/
def run (n timeout : Nat) (s : Sys) : List Act → Sys × List Ev
  | [] => (s, [])
  | a :: as =>
    let r := step n timeout s a
    let q := run n timeout r.1 as
    (q.1, r.2 ++ q.2)

end Mflt.TaskWatchdogRace
