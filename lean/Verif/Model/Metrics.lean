import Verif.Model.SerializerEvents

/-!
# Model of `components/metrics/src/memfault_metrics.c` and `memfault_metrics_serializer.c`

The tables that the x-macros generate are computed from the list of keys. Simplifications: `min` and
`scale_value` of a key are never read and left out; the result codes are the numbers of lines 44-50;
functions that hold the lock are one step; logging is left out. Accesses outside of a table are
undefined behaviour, `none`.
-/

namespace Mflt.Metrics

/-- `eMemfaultMetricType`, metrics.h. -/
inductive MType
  | unsigned
  | signed
  | timer
  | string
  deriving Repr, DecidableEq

/-- `sMemfaultMetricKVPair`, memfault_metrics.c:152-164. -/
structure KV where
  type : MType
  range : Nat
  session : Nat
  deriving Repr, DecidableEq

/-- `s_memfault_heartbeat_keys`, memfault_metrics.c:224-237. -/
abbrev Table := List KV

def KV.isScalar (kv : KV) : Bool := kv.type != .string
def KV.isString (kv : KV) : Bool := kv.type == .string
def KV.isTimer (kv : KV) : Bool := kv.type == .timer

/-- The value of the enumerator of key `k` in an enumeration of the keys that satisfy `p`. -/
def rank (p : KV → Bool) (tab : Table) (k : Nat) : Nat := (tab.take k).countP p

/-- `s_memfault_heartbeat_key_to_valueindex`, memfault_metrics.c:358-384: 0 for strings. -/
def valueIndex (tab : Table) (k : Nat) : Option Nat :=
  tab[k]?.map fun kv => if kv.isScalar then rank KV.isScalar tab k else 0

/-- `s_memfault_heartbeat_string_key_to_index`, memfault_metrics.c:390-415: 0 for others. -/
def stringIndex (tab : Table) (k : Nat) : Option Nat :=
  tab[k]?.map fun kv => if kv.isString then rank KV.isString tab k else 0

/-- `sMemfaultMetricValueMetadata`, memfault_metrics.c:330-336. -/
structure Meta where
  running : Bool
  start : Nat
  deriving Repr, DecidableEq

/-- `s_memfault_heartbeat_values`, `s_memfault_heatbeat_value_is_set_flags`, the string buffers and
`s_memfault_heartbeat_timer_values_metadata`, memfault_metrics.c:344-354, 421-473. -/
structure State where
  values : List (BitVec 32)
  flags : List (BitVec 8)
  strings : List Bytes
  timers : List Meta
  deriving Repr, DecidableEq

/-- The tables as they are when the program starts. -/
def State.init (tab : Table) : State :=
  { values := List.replicate (tab.countP KV.isScalar) 0
    flags := List.replicate ((tab.countP KV.isScalar + 7) / 8) 0
    strings := (tab.filter KV.isString).map fun kv => List.replicate (kv.range + 1) 0
    timers := List.replicate (tab.countP KV.isTimer + 1) ⟨false, 0⟩ }

/-- `prv_read_write_is_value_set` with `write` false, memfault_metrics.c:604-616, on a value index. -/
def readFlag (st : State) (i : Nat) : Option Bool :=
  st.flags[i >>> 3]?.map fun (b : BitVec 8) => ((b >>> (i % 8)) &&& 1#8) == 1#8

/-- `prv_read_write_is_value_set` with `write` true, memfault_metrics.c:604-616, on a value index. -/
def setFlag (st : State) (i : Nat) : Option State :=
  st.flags[i >>> 3]?.map fun b => { st with flags := st.flags.set (i >>> 3) (b ||| (1#8 <<< (i % 8))) }

/-- `prv_clear_is_value_set`, memfault_metrics.c:618-626. -/
def clearFlag (st : State) (i : Nat) : Option State :=
  st.flags[i >>> 3]?.map fun b => { st with flags := st.flags.set (i >>> 3) (b &&& ~~~(1#8 <<< (i % 8))) }

/-- Where `valuep` points to: a value, or the pointer to a string buffer. -/
inductive Loc
  | value (i : Nat)
  | string (i : Nat)
  deriving Repr, DecidableEq

/-- `sMemfaultMetricValueInfo` and the type, memfault_metrics.c:338-342. -/
structure Info where
  type : MType
  loc : Loc
  timer : Option Nat
  isSet : Bool
  deriving Repr, DecidableEq

/-- `prv_find_timer_metadatap`, memfault_metrics.c:583-596, for a key of the table. -/
def findTimer (tab : Table) (k : Nat) : Option Nat :=
  tab[k]?.bind fun kv => if kv.isTimer then some (rank KV.isTimer tab k) else none

/-- `prv_find_value_for_key`, memfault_metrics.c:628-673. `some none`: there is no such key. -/
def findValue (tab : Table) (st : State) (k : Nat) : Option (Option Info) :=
  match tab[k]? with
  | none => some none
  | some kv => do
    let vi ← valueIndex tab k
    let si ← stringIndex tab k
    let loc := if kv.type = .string then Loc.string si else Loc.value vi
    let set ← if kv.type = .unsigned ∨ kv.type = .signed then readFlag st vi else some false
    return some ⟨kv.type, loc, findTimer tab k, set⟩

/-- Reading `valuep->u32`. -/
def readLoc (st : State) : Loc → Option (BitVec 32)
  | .value i => st.values[i]?
  | .string _ => none

/-- Writing `*valuep`. -/
def writeLoc (st : State) (loc : Loc) (v : BitVec 32) : Option State :=
  match loc with
  | .value i => if i < st.values.length then some { st with values := st.values.set i v } else none
  | .string _ => none

/-- `memfault_metrics_heartbeat_set_signed` and `_set_unsigned`, memfault_metrics.c:701-754, for the
expected type. -/
def setValue (tab : Table) (st : State) (expected : MType) (k : Nat) (v : BitVec 32) :
    Option (Int × State) :=
  (findValue tab st k).bind fun o =>
    match o with
    | none => some (-1, st)
    | some info =>
      if info.type ≠ expected then some (-2, st)
      else (writeLoc st info.loc v).bind fun st =>
        (valueIndex tab k).bind fun i => (setFlag st i).map fun st => (0, st)

/-- `memfault_metrics_heartbeat_set_string`, memfault_metrics.c:756-777. `value` is the string without
its terminator. -/
def setString (tab : Table) (st : State) (k : Nat) (value : Bytes) : Option (Int × State) :=
  (findValue tab st k).bind fun o =>
    match o, tab[k]? with
    | some ⟨.string, .string i, _, _⟩, some kv =>
      let len := min value.length kv.range
      st.strings[i]?.bind fun buf =>
        if len < buf.length then
          some (0, { st with strings := st.strings.set i (value.take len ++ 0 :: buf.drop (len + 1)) })
        else none
    | _, _ => some (-1, st)

/-- `eMemfaultTimerOp`, memfault_metrics.c:779-783. -/
inductive TimerOp
  | start
  | stop
  | force
  deriving Repr, DecidableEq

/-- `prv_update_timer_metric`, memfault_metrics.c:785-830, at the time `now`. -/
def updateTimer (st : State) (info : Info) (op : TimerOp) (now : Nat) : Option (Bool × State) :=
  info.timer.bind fun ti => st.timers[ti]?.bind fun m =>
    if !m.running && op == .start then
      some (true, { st with timers := st.timers.set ti ⟨true, now % 2 ^ 31⟩ })
    else if m.running && op != .start then
      let stopTime := now % 2 ^ 31
      let delta := if stopTime ≥ m.start then stopTime - m.start else 0x80000000 - m.start + stopTime
      (readLoc st info.loc).bind fun v =>
        (writeLoc st info.loc (v + BitVec.ofNat 32 delta)).map fun st =>
          (true, { st with timers := st.timers.set ti (if op = .stop then ⟨false, 0⟩ else ⟨true, stopTime⟩) })
    else some (false, st)

/-- `prv_find_timer_metric_and_update`, memfault_metrics.c:832-844; with the operation this is
`memfault_metrics_heartbeat_timer_start` and `_stop`, memfault_metrics.c:846-860. -/
def timerOp (tab : Table) (st : State) (k : Nat) (op : TimerOp) (now : Nat) : Option (Int × State) :=
  (findValue tab st k).bind fun o =>
    match o with
    | none => some (-1, st)
    | some info =>
      if info.type ≠ .timer then some (-2, st)
      else (updateTimer st info op now).map fun r => (if r.1 then 0 else -4, r.2)

/-- One step of the loop of `prv_metric_iterator` with `prv_tally_and_update_timer_cb`,
memfault_metrics.c:677-690, 862-871, at the time `now`. -/
def tallyStep (tab : Table) (st : State) (k now : Nat) : Option State :=
  (findValue tab st k).bind fun o =>
    match o with
    | none => some st
    | some info =>
      if info.type ≠ .timer then some st else (updateTimer st info .force now).map fun r => r.2

/-- A loop over the keys. -/
def forKeys (f : State → Nat → Option State) : State → List Nat → Option State
  | st, [] => some st
  | st, k :: ks => (f st k).bind fun st => forKeys f st ks

/-- `prv_heartbeat_timer_update`, memfault_metrics.c:920-923. The clock is read for each timer;
`times k` is the time at which this is done for key `k`. -/
def timersUpdate (tab : Table) (st : State) (times : Nat → Nat) : Option State :=
  forKeys (fun st k => tallyStep tab st k (times k)) st (List.range tab.length)

/-- Ending a string buffer at its first byte. -/
def emptyString (buf : Bytes) : Bytes := buf.set 0 0

/-- `prv_reset_metrics` with `full_reset`, memfault_metrics.c:873-888. -/
def resetAll (st : State) : State :=
  { st with
    values := st.values.map fun _ => 0
    flags := st.flags.map fun _ => 0
    strings := st.strings.map emptyString }

/-- The body of the loop of `prv_reset_metrics` without `full_reset`, memfault_metrics.c:890-916. -/
def resetStep (tab : Table) (session : Nat) (st : State) (k : Nat) : Option State :=
  match tab[k]? with
  | none => none
  | some kv =>
    if kv.session ≠ session then some st
    else if kv.type = .string then
      (stringIndex tab k).bind fun i => st.strings[i]?.bind fun buf =>
        if buf.length = 0 then none
        else some { st with strings := st.strings.set i (emptyString buf) }
    else
      (valueIndex tab k).bind fun i => (writeLoc st (.value i) 0).bind fun st => clearFlag st i

/-- `prv_reset_metrics` without `full_reset`, memfault_metrics.c:889-918. -/
def resetSession (tab : Table) (session : Nat) (st : State) : Option State :=
  forKeys (resetStep tab session) st (List.range tab.length)

/-- The addition for a signed metric, memfault_metrics.c:946-957. -/
def addSigned (v amount : BitVec 32) : BitVec 32 :=
  let new : Int := v.toInt + amount.toInt
  if new > 2147483647 then 0x7fffffff#32
  else if new < -2147483648 then 0x80000000#32
  else BitVec.ofInt 32 new

/-- The addition for an unsigned metric, memfault_metrics.c:959-969. -/
def addUnsigned (v amount : BitVec 32) : BitVec 32 :=
  let new := v + amount
  let positive := decide (amount.toInt > 0)
  let increased := decide (new.toNat > v.toNat)
  if positive ^^ increased then (if positive then 0xffffffff#32 else 0#32) else new

/-- `memfault_metrics_heartbeat_add`, memfault_metrics.c:937-993. -/
def add (tab : Table) (st : State) (k : Nat) (amount : BitVec 32) : Option (Int × State) :=
  (findValue tab st k).bind fun o =>
    match o with
    | none => some (-1, st)
    | some info =>
      let write (f : BitVec 32 → BitVec 32 → BitVec 32) : Option (Int × State) :=
        (readLoc st info.loc).bind fun v => (writeLoc st info.loc (f v amount)).bind fun st =>
          (valueIndex tab k).bind fun i => (setFlag st i).map fun st => (0, st)
      match info.type with
      | .signed => write addSigned
      | .unsigned => write addUnsigned
      | _ => some (-2, st)

/-- `prv_find_key_of_type`, memfault_metrics.c:995-1012. -/
def findKeyOfType (tab : Table) (st : State) (k : Nat) (expected : MType) : Option (Int ⊕ Loc) :=
  (findValue tab st k).map fun o =>
    match o with
    | none => .inl (-1)
    | some info =>
      if info.type ≠ expected then .inl (-2)
      else if (info.type = .signed ∨ info.type = .unsigned) ∧ info.isSet = false then .inl (-7)
      else .inr info.loc

/-- `memfault_metrics_heartbeat_read_unsigned`, `_read_signed` and the end of `_timer_read`,
memfault_metrics.c:1014-1066: result code and bits. -/
def readValue (tab : Table) (st : State) (k : Nat) (expected : MType) : Option (Int ⊕ BitVec 32) :=
  (findKeyOfType tab st k expected).bind fun r =>
    match r with
    | .inl rv => some (.inl rv)
    | .inr loc => (readLoc st loc).map .inr

/-- `memfault_metrics_heartbeat_timer_read`, memfault_metrics.c:1050-1066. -/
def timerRead (tab : Table) (st : State) (k now : Nat) : Option ((Int ⊕ BitVec 32) × State) :=
  (timerOp tab st k .force now).bind fun r => (readValue tab r.2 k .timer).map fun x => (x, r.2)

/-- The C string in a buffer; `none` if it is not terminated. -/
def cstring (buf : Bytes) : Option Bytes :=
  if 0 ∈ buf then some (buf.takeWhile fun b => b ≠ 0) else none

/-- `memfault_metrics_heartbeat_read_string`, memfault_metrics.c:1068-1095, into the buffer `out`
(not empty). -/
def readString (tab : Table) (st : State) (k : Nat) (out : Bytes) : Option (Int × Bytes) :=
  if out.length = 0 then some (-3, out)
  else (findKeyOfType tab st k .string).bind fun r =>
    match r, tab[k]? with
    | .inr (.string i), some _ =>
      st.strings[i]?.bind fun buf => (cstring buf).map fun s =>
        let n := min (s.length + 1) out.length
        (0, ((buf.take n) ++ out.drop n).set (out.length - 1) 0)
    | _, _ => some (-1, out)

/-! ## Serialization -/

/-- `sMemfaultMetricInfo`, utils.h: type, value and whether it is set. -/
inductive Datum
  | num (type : MType) (v : BitVec 32) (isSet : Bool)
  | str (s : Bytes)
  deriving Repr, DecidableEq

/-- `prv_metrics_heartbeat_iterate_cb`, memfault_metrics.c:1179-1195, for key `k`. -/
def datum (tab : Table) (st : State) (k : Nat) : Option Datum :=
  (findValue tab st k).bind fun o => o.bind fun info =>
    match info.loc with
    | .string i => st.strings[i]?.bind fun buf => (cstring buf).map .str
    | .value i => st.values[i]?.map fun v => .num info.type v info.isSet

/-- `prv_metric_heartbeat_writer` and `prv_metric_heartbeat_write_integer`,
memfault_metrics_serializer.c:36-91, for a metric of the session. -/
def datumCall (worst : Bool) : Datum → Cbor.Call
  | .str s => .string s
  | .num .timer v _ => .unsigned (if worst then 0xffffffff#32 else v)
  | .num .signed v isSet =>
    if !isSet && !worst then .null else .signed (if worst then 0x80000000#32 else v)
  | .num _ v isSet =>
    if !isSet && !worst then .null else .unsigned (if worst then 0xffffffff#32 else v)

/-- The keys of a session, memfault_metrics_serializer.c:61-65. -/
def sessionKeys (tab : Table) (session : Nat) : List Nat :=
  (List.range tab.length).filter fun k => (tab[k]?.map KV.session) == some session

/-- The data of several keys. -/
def dataOf (tab : Table) (st : State) : List Nat → Option (List Datum)
  | [] => some []
  | k :: ks => (datum tab st k).bind fun d => (dataOf tab st ks).map fun ds => d :: ds

/-- The calls of `prv_serialize_latest_heartbeat_and_deinit` after the metadata,
memfault_metrics_serializer.c:101-114. The table is not empty, so `encode_success` is assigned. -/
def heartbeatCalls (session : Nat) (worst : Bool) (ds : List Datum) : List Cbor.Call :=
  [SerializerHelper.u32 4, .dictionaryBegin 2, SerializerHelper.u32 2, SerializerHelper.u32 session,
   SerializerHelper.u32 1, .arrayBegin ds.length] ++ ds.map (datumCall worst)

/-- `prv_serialize_latest_heartbeat_and_deinit`, memfault_metrics_serializer.c:93-117, as an encoder
callback, on the data of the session. -/
def encodeHeartbeat {σ : Type} (dev : SerializerHelper.Device) (time : Option Nat) (session : Nat)
    (worst : Bool) (ds : List Datum) (e : Cbor.Encoder σ) : Bool × Cbor.Encoder σ :=
  SerializerHelper.andThen (SerializerHelper.encodeMetadata dev 1 time)
    (fun e => Cbor.callAll e (heartbeatCalls session worst ds)) e

/-- `memfault_metrics_session_serialize`, memfault_metrics_serializer.c:142-167. -/
def serialize (tab : Table) (st : State) (dev : SerializerHelper.Device) (time : Option Nat)
    (session : Nat) (storage : EventStorage.State) (d : SerializerHelper.Drops) :
    Option (Bool × EventStorage.State × SerializerHelper.Drops) :=
  (dataOf tab st (sessionKeys tab session)).bind fun ds =>
    SerializerHelper.encodeToStorage (encodeHeartbeat dev time session false ds) storage d

/-- `prv_compute_worst_case_size`, memfault_metrics_serializer.c:124-136. -/
def worstCaseSize (tab : Table) (st : State) (dev : SerializerHelper.Device) (time : Option Nat)
    (session : Nat) : Option Nat :=
  (dataOf tab st (sessionKeys tab session)).map fun ds =>
    SerializerHelper.computeSize (encodeHeartbeat dev time session true ds)

/-- `uptime_seconds`, memfault_metrics.c:575-577: the product is 64 bits wide. -/
def uptimeSeconds (ms : Nat) : Nat := ((ms * 0x418937 % 2 ^ 64) >>> 32) % 2 ^ 32

end Mflt.Metrics
