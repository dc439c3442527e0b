import Verif.Model.Metrics

/-!
# Model of a heartbeat that other tasks interrupt: `components/metrics/src/memfault_metrics.c`

The calls that set or add to a metric hold the lock, and the values of a heartbeat are read under the
lock, but `prv_heartbeat_timer` clears them afterwards without the lock (lines 926-935). Here every
access to a value or to a byte of flags is a step of its own, and a schedule says which context makes
the next step. Simplifications: there is one context that makes heartbeats; the lock excludes; timers
are not started or stopped and texts are not set; the event goes to a storage that has room; the read
of a value or of the flags that does not influence the outcome is left out.
-/

namespace Mflt.MetricsRace

open Metrics

/-- A call of the application. -/
inductive Change
  | setUnsigned (v : BitVec 32)
  | setSigned (v : BitVec 32)
  | add (amount : BitVec 32)
  deriving Repr, DecidableEq

/-- The next access of the call that holds the lock, for a key. -/
inductive Pc
  /-- Reading the value, memfault_metrics.c:948, 960. -/
  | load (amount : BitVec 32)
  /-- Writing it, memfault_metrics.c:717, 950-954, 967. -/
  | store (v : BitVec 32)
  /-- Reading the byte of flags for `|=`, memfault_metrics.c:612. -/
  | loadFlag
  /-- Writing it, memfault_metrics.c:612. -/
  | storeFlag (b : BitVec 8)
  deriving Repr, DecidableEq

/-- The next access of the context that makes heartbeats. -/
inductive Hb
  /-- No heartbeat, or before its values are read. -/
  | idle
  /-- The body of the loop of `prv_reset_metrics` for a key, memfault_metrics.c:891-896. -/
  | key (k : Nat)
  /-- Reading the byte of flags for `&=`, memfault_metrics.c:625. -/
  | loadFlag (k : Nat)
  /-- Writing it, memfault_metrics.c:625. -/
  | storeFlag (k : Nat) (b : BitVec 8)
  deriving Repr, DecidableEq

/-- The metrics and where the contexts are. `call` is the call that holds the lock. -/
structure Sys where
  mem : State
  call : Option (Nat × Pc)
  hb : Hb
  deriving Repr, DecidableEq

def Sys.init (tab : Table) : Sys := ⟨State.init tab, none, .idle⟩

/-- What can happen next. -/
inductive Op
  /-- A task calls a function. It waits if the lock is taken. -/
  | call (k : Nat) (c : Change)
  /-- The call that holds the lock makes its next access. -/
  | callStep
  /-- A task reads an unsigned metric. It waits if the lock is taken. -/
  | read (k : Nat)
  /-- The heartbeat reads all values. It waits if the lock is taken. -/
  | report
  /-- The heartbeat makes its next access. -/
  | hbStep
  deriving Repr, DecidableEq

/-- What can be observed. -/
inductive Ev
  /-- A call was made (the lock was taken). -/
  | begun (k : Nat) (c : Change)
  /-- It ended, with its result. -/
  | ended (rv : Int)
  /-- A metric was read: an error or the value. -/
  | read (k : Nat) (r : Int ⊕ BitVec 32)
  /-- A heartbeat with the data of its keys. -/
  | reported (ds : List Datum)
  /-- An access of the heartbeat that clears metrics. -/
  | clearing
  /-- The last access of a heartbeat. -/
  | cleared
  deriving Repr, DecidableEq

/-- The start of a call, memfault_metrics.c:734-754, 937-944, 982-986: the lock is taken and the key
looked up. Either the call ends or its first access is next. -/
def enter (tab : Table) (st : State) (k : Nat) (c : Change) : Option (Int ⊕ Pc) :=
  (findValue tab st k).map fun o =>
    match o with
    | none => .inl (-1)
    | some info =>
      match c with
      | .setUnsigned v => if info.type ≠ .unsigned then .inl (-2) else .inr (.store v)
      | .setSigned v => if info.type ≠ .signed then .inl (-2) else .inr (.store v)
      | .add a => if info.type = .signed ∨ info.type = .unsigned then .inr (.load a) else .inl (-2)

/-- The new value of `prv_find_key_and_add`, memfault_metrics.c:946-969. -/
def added (type : MType) (v amount : BitVec 32) : BitVec 32 :=
  if type = .signed then addSigned v amount else addUnsigned v amount

/-- An access of `prv_find_key_and_add`, memfault_metrics.c:937-980, `prv_set_value_for_key`,
memfault_metrics.c:715-719, and `prv_read_write_is_value_set`, memfault_metrics.c:604-616. `none` as
the next access: the call ended and released the lock. -/
def callAccess (tab : Table) (st : State) (k : Nat) (pc : Pc) : Option (Option Pc × State) :=
  (valueIndex tab k).bind fun i =>
    match pc with
    | .load a => tab[k]?.bind fun kv => st.values[i]?.map fun v => (some (.store (added kv.type v a)), st)
    | .store v => (writeLoc st (.value i) v).map fun st => (some .loadFlag, st)
    | .loadFlag => st.flags[i >>> 3]?.map fun b => (some (.storeFlag b), st)
    | .storeFlag b =>
      if i >>> 3 < st.flags.length then
        some (none, { st with flags := st.flags.set (i >>> 3) (b ||| (1#8 <<< (i % 8))) })
      else none

/-- The next access of the loop of `prv_reset_metrics`, memfault_metrics.c:889-918, for the session
`session`. A key of another session is a step without an access. -/
def hbAccess (tab : Table) (session : Nat) (st : State) (hb : Hb) : Option (Hb × State) :=
  match hb with
  | .idle => some (.idle, st)
  | .key k =>
    match tab[k]? with
    | none => some (.idle, st)
    | some kv =>
      if kv.session ≠ session then some (.key (k + 1), st)
      else if kv.type = .string then
        (stringIndex tab k).bind fun i => st.strings[i]?.bind fun buf =>
          if buf.length = 0 then none
          else some (.key (k + 1), { st with strings := st.strings.set i (emptyString buf) })
      else
        (valueIndex tab k).bind fun i => (writeLoc st (.value i) 0).map fun st => (.loadFlag k, st)
  | .loadFlag k =>
    (valueIndex tab k).bind fun i => st.flags[i >>> 3]?.map fun b => (.storeFlag k b, st)
  | .storeFlag k b =>
    (valueIndex tab k).bind fun i =>
      if i >>> 3 < st.flags.length then
        some (.key (k + 1), { st with flags := st.flags.set (i >>> 3) (b &&& ~~~(1#8 <<< (i % 8))) })
      else none

/-- One step of a schedule and what is observed. A step that is not possible changes nothing.
`prv_heartbeat_timer`, memfault_metrics.c:926-935, is `report` and then the steps of the loop;
`memfault_metrics_heartbeat_iterate`, memfault_metrics.c:1197-1207, takes the lock for `report`. -/
def step (tab : Table) (session : Nat) (s : Sys) : Op → Option (Sys × List Ev)
  | .call k c =>
    match s.call with
    | some _ => some (s, [])
    | none => (enter tab s.mem k c).map fun r =>
      match r with
      | .inl rv => (s, [.begun k c, .ended rv])
      | .inr pc => ({ s with call := some (k, pc) }, [.begun k c])
  | .callStep =>
    match s.call with
    | none => some (s, [])
    | some (k, pc) => (callAccess tab s.mem k pc).map fun r =>
      match r.1 with
      | none => ({ s with mem := r.2, call := none }, [.ended 0])
      | some pc => ({ s with mem := r.2, call := some (k, pc) }, [])
  | .read k =>
    match s.call with
    | some _ => some (s, [])
    | none => (readValue tab s.mem k .unsigned).map fun r => (s, [.read k r])
  | .report =>
    match s.call, s.hb with
    | none, .idle =>
      (dataOf tab s.mem (sessionKeys tab session)).map fun ds => ({ s with hb := .key 0 }, [.reported ds])
    | _, _ => some (s, [])
  | .hbStep =>
    match s.hb with
    | .idle => some (s, [])
    | hb => (hbAccess tab session s.mem hb).map fun r =>
      ({ s with mem := r.2, hb := r.1 }, .clearing :: if r.1 = .idle then [.cleared] else [])

/-- A schedule: the end and everything that is observed. -/
def run (tab : Table) (session : Nat) : Sys → List Op → Option (Sys × List Ev)
  | s, [] => some (s, [])
  | s, op :: ops => (step tab session s op).bind fun r =>
    (run tab session r.1 ops).map fun q => (q.1, r.2 ++ q.2)

end Mflt.MetricsRace
