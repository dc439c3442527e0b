import Verif.Model.Mem

/-!
# Model of a timer that is used while a heartbeat is made: `components/metrics/src/memfault_metrics.c`

Calls that start, stop or read a timer hold the lock (lines 846-860, 1050-1066), but the update of all
timers at the beginning of a heartbeat does not (lines 920-927). Here every access to the metadata and
to the value of one timer, and every reading of the clock, is a step of its own, and a schedule says
which context makes the next step. Simplifications: one timer; one context that makes heartbeats; the
lock excludes; the two bit fields of the metadata are written independently of each other; the values
are not cleared after a heartbeat.
-/

namespace Mflt.TimerRace

/-- `eMemfaultTimerOp`, memfault_metrics.c:779-783. A task uses `force` to read the timer. -/
inductive Op
  | start
  | stop
  | force
  deriving Repr, DecidableEq

/-- `sMemfaultMetricValueMetadata`, memfault_metrics.c:330-336, and the value. -/
structure Mem where
  running : Bool
  start : Nat
  value : Nat
  deriving Repr, DecidableEq

/-- The next access of `prv_update_timer_metric`, memfault_metrics.c:785-830. -/
inductive Pc
  /-- Reading `is_running`, line 795. -/
  | running (op : Op)
  /-- Reading the clock, line 799. -/
  | startTime
  /-- Writing `start_time_ms`, line 799. -/
  | setStart (t : Nat)
  /-- Writing `is_running`, line 800. -/
  | setRunning
  /-- Reading the clock, line 807. -/
  | stopTime (op : Op)
  /-- Reading `start_time_ms`, line 808. -/
  | startOf (op : Op) (stop : Nat)
  /-- Reading the value, line 816. -/
  | load (op : Op) (stop delta : Nat)
  /-- Writing the value, line 816. -/
  | store (op : Op) (stop v : Nat)
  /-- Writing `start_time_ms`, line 819. -/
  | clearStart
  /-- Writing `is_running`, line 820. -/
  | clearRunning
  /-- Writing `start_time_ms`, line 822. -/
  | setLap (stop : Nat)
  deriving Repr, DecidableEq

/-- One access at the time `now`; `none` as the next access: the function returns. -/
def access (m : Mem) (now : Nat) : Pc → Option Pc × Mem
  | .running op =>
    if !m.running && op == .start then (some .startTime, m)
    else if m.running && op != .start then (some (.stopTime op), m)
    else (none, m)
  | .startTime => (some (.setStart (now % 2 ^ 31)), m)
  | .setStart t => (some .setRunning, { m with start := t })
  | .setRunning => (none, { m with running := true })
  | .stopTime op => (some (.startOf op (now % 2 ^ 31)), m)
  | .startOf op stop =>
    (some (.load op stop (if stop ≥ m.start then stop - m.start else 0x80000000 - m.start + stop)), m)
  | .load op stop delta => (some (.store op stop ((m.value + delta) % 2 ^ 32)), m)
  | .store op stop v => (some (if op = .stop then .clearStart else .setLap stop), { m with value := v })
  | .clearStart => (some .clearRunning, { m with start := 0 })
  | .clearRunning => (none, { m with running := false })
  | .setLap stop => (none, { m with start := stop })

/-- The timer, the clock in milliseconds, the call that holds the lock (and since when) and the update of
a heartbeat. -/
structure Sys where
  mem : Mem
  now : Nat
  call : Option (Op × Nat × Pc)
  lap : Option Pc
  deriving Repr, DecidableEq

def Sys.init (now : Nat) : Sys := ⟨⟨false, 0, 0⟩, now, none, none⟩

/-- What can happen next. -/
inductive Act
  /-- Time passes. -/
  | tick (ms : Nat)
  /-- A task calls a function. It waits if the lock is taken. -/
  | call (op : Op)
  /-- The call that holds the lock makes its next access. -/
  | callStep
  /-- The heartbeat begins to update the timer. -/
  | lap
  /-- The heartbeat makes its next access. -/
  | lapStep
  deriving Repr, DecidableEq

/-- What can be observed, with the time. -/
inductive Ev
  | begun (op : Op) (t : Nat)
  | ended (op : Op) (t : Nat)
  /-- A task has read the timer, with a call from `t0` to `t`. -/
  | value (v t0 t : Nat)
  | lapBegun
  | lapEnded
  deriving Repr, DecidableEq

/-- One step. A step that is not possible changes nothing. `prv_find_timer_metric_and_update`,
memfault_metrics.c:832-844, under the lock, and `prv_heartbeat_timer_update`, memfault_metrics.c:920-923,
without it; `memfault_metrics_heartbeat_timer_read`, memfault_metrics.c:1050-1066, reads the value at its
end, still under the lock. -/
def step (s : Sys) : Act → Sys × List Ev
  | .tick ms => ({ s with now := s.now + ms }, [])
  | .call op =>
    match s.call with
    | some _ => (s, [])
    | none => ({ s with call := some (op, s.now, .running op) }, [.begun op s.now])
  | .callStep =>
    match s.call with
    | none => (s, [])
    | some (op, t0, pc) =>
      match access s.mem s.now pc with
      | (some pc, m) => ({ s with mem := m, call := some (op, t0, pc) }, [])
      | (none, m) =>
        ({ s with mem := m, call := none },
          if op = .force then [.value m.value t0 s.now, .ended op s.now] else [.ended op s.now])
  | .lap =>
    match s.lap with
    | some _ => (s, [])
    | none => ({ s with lap := some (.running .force) }, [.lapBegun])
  | .lapStep =>
    match s.lap with
    | none => (s, [])
    | some pc =>
      match access s.mem s.now pc with
      | (some pc, m) => ({ s with mem := m, lap := some pc }, [])
      | (none, m) => ({ s with mem := m, lap := none }, [.lapEnded])

/-- A schedule: the end and everything that is observed. -/
def run : Sys → List Act → Sys × List Ev
  | s, [] => (s, [])
  | s, a :: as => ((run (step s a).1 as).1, (step s a).2 ++ (run (step s a).1 as).2)

end Mflt.TimerRace
