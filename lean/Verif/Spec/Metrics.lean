import Verif.Spec.Event

/-!
# Specification of the metrics (C34, C35, C36)

Each metric is a variable of its own. Histories in which a timer runs for 2^31 ms (24.8 days) without
being read or reported, the clock goes backwards or a timer reaches 2^32 ms are outside of the
specification. `updateTimers`, `report` and `clear` are the parts of a heartbeat.
-/

namespace Mflt.Spec.Metrics

open Cbor (Item)

inductive Ty
  | unsigned
  | signed
  | timer
  | text
  deriving Repr, DecidableEq

structure Key where
  ty : Ty
  maxLen : Nat
  session : Nat
  deriving Repr, DecidableEq

/-- An integer (none: not set), a timer (accumulated milliseconds and, if it is running, since when
time is not yet accumulated) or a text. -/
inductive Val
  | int (v : Option Int)
  | timer (total : Nat) (since : Option Nat)
  | text (s : Bytes)
  deriving Repr, DecidableEq

abbrev State := Nat → Val

def upd (s : State) (k : Nat) (v : Val) : State := fun i => if i = k then v else s i

/-- A metric without a value. A timer that runs keeps running. -/
def cleared : Val → Val
  | .int _ => .int none
  | .timer _ since => .timer 0 since
  | .text _ => .text []

def fresh : Ty → Val
  | .unsigned => .int none
  | .signed => .int none
  | .timer => .timer 0 none
  | .text => .text []

def init (keys : List Key) : State := fun k => ((keys[k]?).map fun key => fresh key.ty).getD (.text [])

/-- The accumulated time of a timer that runs, at time `now`. -/
def tick (total since now : Nat) : Option Nat :=
  if since ≤ now ∧ now - since < 2147483648 ∧ total + (now - since) < 4294967296 then
    some (total + (now - since))
  else none

/-- A metric after the update of all running timers. -/
def ticked (v : Val) (now : Nat) : Option Val :=
  match v with
  | .timer total (some since) => (tick total since now).map fun t => .timer t (some now)
  | v => some v

def clamp (lo hi v : Int) : Int := if v < lo then lo else if hi < v then hi else v

inductive Op
  | setSigned (k : Nat) (v : Int)
  | setUnsigned (k v : Nat)
  | setText (k : Nat) (s : Bytes)
  | add (k : Nat) (amount : Int)
  | timerStart (k now : Nat)
  | timerStop (k now : Nat)
  | timerRead (k now : Nat)
  | readSigned (k : Nat)
  | readUnsigned (k : Nat)
  | readText (k bufLen : Nat)
  | updateTimers (times : Nat → Nat)
  | report (session : Nat) (time : Option Nat)
  | clear (session : Nat)
  | clearAll

/-- The calls that ask for the value or the state of metric `k`. -/
def Op.asks (k : Nat) : Op → Prop
  | .readSigned k' => k' = k
  | .readUnsigned k' => k' = k
  | .readText k' _ => k' = k
  | .timerStart k' _ => k' = k
  | .timerStop k' _ => k' = k
  | .timerRead k' _ => k' = k
  | _ => False

inductive Out
  | code (rv : Int)
  | num (v : Int)
  | text (s : Bytes)
  | event (e : Option Item)
  | done
  deriving Repr

/-- The event of a report. -/
def Out.event? : Out → Option Item
  | .event e => e
  | _ => none

/-- What is reported for a metric. -/
def Val.item : Val → Item
  | .int none => .null
  | .int (some v) => .int v
  | .timer total _ => .uint total
  | .text s => .text s

/-- The reported values of a session's metrics, in the order of the keys. -/
def reported (keys : List Key) (s : State) (session : Nat) : List Item :=
  ((List.range keys.length).filter fun k => (keys[k]?.map Key.session) == some session).map
    fun k => (s k).item

/-- The event that reports a session. -/
def sessionEvent (dev : SerializerHelper.Device) (time : Option Nat) (keys : List Key) (s : State)
    (session : Nat) : Item :=
  Event.event dev 1 time (.map [.uint 2, .uint session, .uint 1, .array (reported keys s session)])

def isInt32 (v : Int) : Prop := -2147483648 ≤ v ∧ v ≤ 2147483647

instance (v : Int) : Decidable (isInt32 v) := by unfold isInt32; infer_instance

/-- One call: its result and the new state. -/
def step (dev : SerializerHelper.Device) (keys : List Key) (s : State) : Op → Option (Out × State)
  | .setSigned k v =>
    if ¬ isInt32 v then none
    else match keys[k]?.map Key.ty with
      | none => some (.code (-1), s)
      | some .signed => some (.code 0, upd s k (.int (some v)))
      | some _ => some (.code (-2), s)
  | .setUnsigned k v =>
    if 4294967296 ≤ v then none
    else match keys[k]?.map Key.ty with
      | none => some (.code (-1), s)
      | some .unsigned => some (.code 0, upd s k (.int (some v)))
      | some _ => some (.code (-2), s)
  | .setText k t =>
    if 0 ∈ t then none
    else match keys[k]? with
      | some ⟨.text, maxLen, _⟩ => some (.code 0, upd s k (.text (t.take maxLen)))
      | _ => some (.code (-1), s)
  | .add k amount =>
    if ¬ isInt32 amount then none
    else match keys[k]?.map Key.ty, s k with
      | none, _ => some (.code (-1), s)
      | some .signed, .int v =>
        some (.code 0, upd s k (.int (some (clamp (-2147483648) 2147483647 (v.getD 0 + amount)))))
      | some .unsigned, .int v =>
        some (.code 0, upd s k (.int (some (clamp 0 4294967295 (v.getD 0 + amount)))))
      | some _, _ => some (.code (-2), s)
  | .timerStart k now =>
    match keys[k]?.map Key.ty, s k with
    | none, _ => some (.code (-1), s)
    | some .timer, .timer total none => some (.code 0, upd s k (.timer total (some now)))
    | some .timer, _ => some (.code (-4), s)
    | some _, _ => some (.code (-2), s)
  | .timerStop k now =>
    match keys[k]?.map Key.ty, s k with
    | none, _ => some (.code (-1), s)
    | some .timer, .timer total (some since) =>
      (tick total since now).map fun t => (.code 0, upd s k (.timer t none))
    | some .timer, _ => some (.code (-4), s)
    | some _, _ => some (.code (-2), s)
  | .timerRead k now =>
    match keys[k]?.map Key.ty, s k with
    | none, _ => some (.code (-1), s)
    | some .timer, .timer total (some since) =>
      (tick total since now).map fun (t : Nat) => (.num t, upd s k (.timer t (some now)))
    | some .timer, .timer total none => some (.num total, s)
    | some _, _ => some (.code (-2), s)
  | .readSigned k =>
    match keys[k]?.map Key.ty, s k with
    | none, _ => some (.code (-1), s)
    | some .signed, .int none => some (.code (-7), s)
    | some .signed, .int (some v) => some (.num v, s)
    | some _, _ => some (.code (-2), s)
  | .readUnsigned k =>
    match keys[k]?.map Key.ty, s k with
    | none, _ => some (.code (-1), s)
    | some .unsigned, .int none => some (.code (-7), s)
    | some .unsigned, .int (some v) => some (.num v, s)
    | some _, _ => some (.code (-2), s)
  | .readText k bufLen =>
    if bufLen = 0 then some (.code (-3), s)
    else match keys[k]?.map Key.ty, s k with
      | some .text, .text t => some (.text (t.take (bufLen - 1)), s)
      | _, _ => some (.code (-1), s)
  | .updateTimers times =>
    if ∀ k, k < keys.length → (ticked (s k) (times k)).isSome then
      some (.done, fun k => if k < keys.length then (ticked (s k) (times k)).getD (s k) else s k)
    else none
  | .report session time =>
    if 4294967296 ≤ session then none
    else some (.event (some (sessionEvent dev time keys s session)), s)
  | .clear session =>
    some (.done, fun k => if (keys[k]?.map Key.session) = some session then cleared (s k) else s k)
  | .clearAll => some (.done, fun k => if k < keys.length then cleared (s k) else s k)

/-- A history: the results of the calls and the final state. -/
def run (dev : SerializerHelper.Device) (keys : List Key) (s : State) : List Op → Option (List Out × State)
  | [] => some ([], s)
  | op :: ops => (step dev keys s op).bind fun r => (run dev keys r.2 ops).map fun q => (r.1 :: q.1, q.2)

/-! ## Reports over time -/

/-- What happens over time: a call, or the report of the session followed by its clearing. -/
inductive Act
  | call (op : Op)
  | flush (time : Option Nat)

/-- The calls that are not part of a flush do not clear the session's metrics. -/
def Act.ok (session : Nat) : Act → Prop
  | .call (.clear s) => s ≠ session
  | .call .clearAll => False
  | _ => True

/-- A history with flushes; the results are the reported events. -/
def runActs (dev : SerializerHelper.Device) (keys : List Key) (session : Nat) (s : State) :
    List Act → Option (List (Option Item) × State)
  | [] => some ([], s)
  | .call op :: as => (step dev keys s op).bind fun r => runActs dev keys session r.2 as
  | .flush time :: as =>
    (step dev keys s (.report session time)).bind fun r => (step dev keys r.2 (.clear session)).bind fun q =>
      (runActs dev keys session q.2 as).map fun p =>
        (r.1.event? :: p.1, p.2)

/-- The value of a key in a CBOR map. -/
def lookup (key : Nat) : List Item → Option Item
  | .uint k :: v :: rest => if k = key then some v else lookup key rest
  | _ :: _ :: rest => lookup key rest
  | _ => none

/-- The `j`-th metric of an event. -/
def eventMetric (e : Item) (j : Nat) : Option Item :=
  match e with
  | .map kvs =>
    match lookup 4 kvs with
    | some (.map info) =>
      match lookup 1 info with
      | some (.array l) => l[j]?
      | _ => none
    | _ => none
  | _ => none

/-- The position of key `k` among the metrics of its session. -/
def position (keys : List Key) (session k : Nat) : Nat :=
  ((List.range k).filter fun i => (keys[i]?.map Key.session) == some session).length

/-- A stop watch: since when it runs, and the length of its completed runs. -/
structure Watch where
  since : Option Nat
  ran : Nat

/-- Only start and stop of the timer itself matter. -/
def Watch.act (k : Nat) (w : Watch) : Act → Watch
  | .call (.timerStart k' t) => if k' = k ∧ w.since = none then ⟨some t, w.ran⟩ else w
  | .call (.timerStop k' t) =>
    match w.since with
    | some s => if k' = k then ⟨none, w.ran + (t - s)⟩ else w
    | none => w
  | _ => w

/-- The time for which timer `k` has been running, up to `now`. -/
def runningTime (k : Nat) (acts : List Act) (now : Nat) : Nat :=
  let w := acts.foldl (Watch.act k) ⟨none, 0⟩
  w.ran + match w.since with | some s => now - s | none => 0

/-- The amounts added to counter `k`. -/
def added (k : Nat) : List Act → Int
  | [] => 0
  | .call (.add k' a) :: as => (if k' = k then a else 0) + added k as
  | _ :: as => added k as

/-- The amounts added since the last flush never leave the range of the counter, and the counter is
not set otherwise. `sum` was added so far. -/
def countable (k : Nat) (lo hi : Int) (sum : Int) : List Act → Prop
  | [] => True
  | .call (.add k' a) :: as =>
    if k' = k then lo ≤ sum + a ∧ sum + a ≤ hi ∧ countable k lo hi (sum + a) as
    else countable k lo hi sum as
  | .call (.setSigned k' _) :: as => k' ≠ k ∧ countable k lo hi sum as
  | .call (.setUnsigned k' _) :: as => k' ≠ k ∧ countable k lo hi sum as
  | .flush _ :: as => countable k lo hi 0 as
  | _ :: as => countable k lo hi sum as

end Mflt.Spec.Metrics
