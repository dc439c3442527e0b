import Verif.Model.LogDataSource
import Verif.Spec.LogClient

/-!
# Model of log uploads under preemption: `components/core/src/memfault_log_data_source.c`

Tasks save and read logs, tasks trigger collections, and one task uploads. Calls that hold the lock for
all of their work are one step. `memfault_log_trigger_collection` counts the logs with the lock held,
releases it, takes it again and writes its context; the uploader reads this context without the lock. Here
each of these is a step, and a schedule says who makes the next one. Simplifications: the two
reads of the context by an uploader after it saw `triggered` are one step; marking the logs as sent and
clearing the context, which take the lock one after the other, are one step.
-/

namespace Mflt.LogRace

open Mflt.Log (Config Trigger hasLogs logsRead countUnsent markSent)
open Spec.Log (Op Out)
open SerializerHelper (Device)

/-- Where a call to `memfault_log_trigger_collection` is, memfault_log_data_source.c:50-75. -/
inductive TrigPc
  | idle
  /-- Counting the logs that are not sent, lines 55-60. -/
  | count
  /-- Taking the lock, checking again and writing `triggered`, lines 62-69. -/
  | set (n : Nat)
  /-- Writing `trigger_time`, lines 70-72; holds the lock. -/
  | time (n : Nat)
  /-- Writing `num_logs` and releasing the lock, lines 73-75. -/
  | num (n : Nat)
  deriving Repr, DecidableEq

/-- Where a call of the uploader is. -/
inductive UpPc
  | idle
  /-- `prv_has_logs`, memfault_log_data_source.c:198-210, has seen `triggered`. -/
  | has
  /-- It has copied the context. -/
  | size (t : Trigger)
  /-- `prv_logs_read`, memfault_log_data_source.c:242-261. -/
  | readCtx (off : Nat) (buf : Bytes)
  | read (t : Trigger) (off : Nat) (buf : Bytes)
  /-- `prv_logs_mark_sent`, memfault_log_data_source.c:275-286. -/
  | markCtx
  | mark (t : Trigger)
  deriving Repr, DecidableEq

/-- The log, the calls in progress, and whether a call to trigger a collection holds the lock. -/
structure Sys where
  log : Log.State
  trig : Nat → TrigPc
  lock : Bool
  up : UpPc

def Sys.init (s : Log.State) : Sys := ⟨s, fun _ => .idle, false, .idle⟩

/-- What can happen next. -/
inductive Act
  /-- A task makes a call that holds the lock for all of its work. -/
  | op (o : Op)
  /-- Task `i` calls `memfault_log_trigger_collection`. -/
  | trigger (i : Nat)
  | trigStep (i : Nat) (now : Option Nat)
  | has
  | read (off : Nat) (buf : Bytes)
  | mark
  | upStep
  deriving Repr, DecidableEq

/-- What happened. A result `none`: undefined behaviour. -/
inductive Ev
  | op (o : Op) (r : Option Out)
  | counted (i : Nat) (r : Option Nat)
  /-- The context is complete. -/
  | triggered (i n : Nat) (now : Option Nat)
  /-- The announced size, if there is something to upload. -/
  | size (r : Option (Option Nat))
  | data (off : Nat) (buf : Bytes) (r : Option (Bool × Bytes))
  | marked (ok : Bool)
  /-- Not an effect of the code, but a mark for the reader: the uploader has looked at the context
  while it was being written, or reads or marks an upload without there being one. -/
  | peek
  deriving Repr, DecidableEq

/-- Updates a table. -/
def put {α : Type} (f : Nat → α) (i : Nat) (x : α) : Nat → α := fun j => if j = i then x else f j

/-- The next step of a call to `memfault_log_trigger_collection`, memfault_log_data_source.c:50-75. Steps
that need the lock wait for it. -/
def trigStep (s : Sys) (i : Nat) (now : Option Nat) : TrigPc → Sys × List Ev
  | .idle => (s, [])
  | .count =>
    if s.lock then (s, [])
    else match countUnsent s.log with
      | none => ({ s with trig := put s.trig i .idle }, [.counted i none])
      | some n =>
        ({ s with trig := put s.trig i (if n = 0 then .idle else .set n) }, [.counted i (some n)])
  | .set n =>
    if s.lock then (s, [])
    else if s.log.trigger.triggered then ({ s with trig := put s.trig i .idle }, [])
    else
      ({ s with
          log := { s.log with trigger := { s.log.trigger with triggered := true } }
          lock := true
          trig := put s.trig i (.time n) }, [])
  | .time n =>
    ({ s with
        log := { s.log with trigger := { s.log.trigger with time := now } }
        trig := put s.trig i (.num n) }, [])
  | .num n =>
    ({ s with
        log := { s.log with trigger := { s.log.trigger with numLogs := n } }
        lock := false
        trig := put s.trig i .idle }, [.triggered i n s.log.trigger.time])

/-- Whether there is a complete context. -/
def complete (s : Sys) : Bool := s.log.trigger.triggered && !s.lock

/-- `prv_init_encoding_ctx`, memfault_log_data_source.c:191-196, without the lock. -/
def copyCtx (s : Sys) (k : Trigger → UpPc) : Sys × List Ev :=
  ({ s with up := k s.log.trigger }, if complete s then [] else [.peek])

/-- The next step of the uploader, memfault_log_data_source.c:198-286. -/
def upStep (cfg : Config) (dev : Device) (s : Sys) : Sys × List Ev :=
  match s.up with
  | .idle => (s, [])
  | .has => copyCtx s .size
  | .size t =>
    if s.lock then (s, [])
    else ({ s with up := .idle }, [.size (hasLogs cfg dev { s.log with trigger := t })])
  | .readCtx off buf => copyCtx s (fun t => .read t off buf)
  | .read t off buf =>
    if s.lock then (s, [])
    else ({ s with up := .idle }, [.data off buf (logsRead cfg dev { s.log with trigger := t } off buf)])
  | .markCtx => copyCtx s .mark
  | .mark t =>
    if s.lock then (s, [])
    else match markSent { s.log with trigger := t } with
      | none => ({ s with up := .idle }, [.marked false])
      | some log => ({ s with up := .idle, log := log }, [.marked true])

/-- One step. A step that is not possible changes nothing. -/
def step (cfg : Config) (dev : Device) (s : Sys) : Act → Sys × List Ev
  | .op o =>
    if s.lock then (s, [])
    else match Log.step cfg s.log o with
      | none => (s, [.op o none])
      | some (out, log) => ({ s with log := log }, [.op o (some out)])
  | .trigger i =>
    if s.trig i = .idle ∧ s.log.trigger.triggered = false then ({ s with trig := put s.trig i .count }, [])
    else (s, [])
  | .trigStep i now => trigStep s i now (s.trig i)
  | .has =>
    if s.up = .idle then
      if s.log.trigger.triggered then ({ s with up := .has }, if s.lock then [.peek] else [])
      else (s, [.size (some none)])
    else (s, [])
  | .read off buf => if s.up = .idle then ({ s with up := .readCtx off buf }, []) else (s, [])
  | .mark => if s.up = .idle then ({ s with up := .markCtx }, []) else (s, [])
  | .upStep => upStep cfg dev s

/-- A schedule. -/
def run (cfg : Config) (dev : Device) (s : Sys) : List Act → Sys × List Ev
  | [] => (s, [])
  | a :: as =>
    let r := step cfg dev s a
    let q := run cfg dev r.1 as
    (q.1, r.2 ++ q.2)

end Mflt.LogRace
