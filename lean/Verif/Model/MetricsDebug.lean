import Verif.Model.HttpRequest
import Verif.Model.Metrics

/-!
# Model of the definition of metrics and of their debug output, `components/metrics/src/memfault_metrics.c`

The x-macros are modelled as functions of the list of definitions. Simplifications: `min` and
`scale_value` are left out of the table; a logged line is its formatted text (how a port shows it is
in `PortLog`); the lock is not modelled, so a print is one step.
-/

namespace Mflt.MetricsDebug

open Metrics (MType KV Table State Datum)
open HttpRequest (ascii digitsLoop)

/-- A line of `heartbeat_config.def` or of the user's file: the macros of metrics.h:40-130. -/
inductive Decl
  | key (name : Bytes) (type : MType)
  | keyRange (name : Bytes) (type : MType) (lo hi : Int)
  | keyScale (name : Bytes) (type : MType) (scale : Nat)
  | string (name : Bytes) (maxLen : Nat)
  | session (name : Bytes)
  | keyIn (name : Bytes) (type : MType) (session : Bytes)
  | keyRangeIn (name : Bytes) (type : MType) (lo hi : Int) (session : Bytes)
  | keyScaleIn (name : Bytes) (type : MType) (session : Bytes) (scale : Nat)
  | stringIn (name : Bytes) (maxLen : Nat) (session : Bytes)
  deriving Repr, DecidableEq

/-- `eMfltMetricsSessionIndex`, ids_impl.h:97-124. -/
def sessionNames (ds : List Decl) : List Bytes :=
  (ds.filterMap fun | .session n => some n | _ => none) ++ [ascii "heartbeat"]

/-- `MEMFAULT_METRICS_SESSION_KEY`, ids_impl.h:140. -/
def sessionKey (ds : List Decl) (name : Bytes) : Nat := (sessionNames ds).idxOf name

/-- `.range`, a `uint32_t`, memfault_metrics.c:172. -/
def range (lo hi : Int) : Nat := ((hi - lo) % 2 ^ 32).toNat

/-- `MEMFAULT_KV_PAIR_ENTRY` with a range, memfault_metrics.c:166-186. -/
def kvRangeIn (ds : List Decl) (type : MType) (lo hi : Int) (session : Bytes) : KV :=
  ⟨type, range lo hi, sessionKey ds session⟩

/-- The entries of `s_memfault_heartbeat_keys`, memfault_metrics.c:181-224. -/
def entries (ds : List Decl) : Decl → List KV
  | .key _ t => [kvRangeIn ds t 0 0 (ascii "heartbeat")]
  | .keyRange _ t lo hi => [kvRangeIn ds t lo hi (ascii "heartbeat")]
  | .keyScale _ t _ => [kvRangeIn ds t 0 0 (ascii "heartbeat")]
  | .string _ n => [kvRangeIn ds .string 0 n (ascii "heartbeat")]
  | .session s => [kvRangeIn ds .timer 0 0 s, kvRangeIn ds .unsigned 0 0 s]
  | .keyIn _ t s => [kvRangeIn ds t 0 0 s]
  | .keyRangeIn _ t lo hi s => [kvRangeIn ds t lo hi s]
  | .keyScaleIn _ t s _ => [kvRangeIn ds t 0 0 s]
  | .stringIn _ n s => [kvRangeIn ds .string 0 n s]

/-- `s_memfault_heartbeat_keys`, memfault_metrics.c:224-237. -/
def table (ds : List Decl) : Table := ds.flatMap (entries ds)

/-- `session##__##key`. -/
def join (session name : Bytes) : Bytes := session ++ ascii "__" ++ name

/-- The enumerator (behind `kMfltMetricsIndex_`) that `_MEMFAULT_METRICS_ID_CREATE` names in an entry
of `s_memfault_heartbeat_keys`, memfault_metrics.c:181-222 and ids_impl.h:142. -/
def keyEnums : Decl → List Bytes
  | .key n _ | .keyRange n _ _ _ | .keyScale n _ _ | .string n _ => [join (ascii "heartbeat") n]
  | .session s => [join s (ascii "MemfaultSdkMetric_IntervalMs"), join s (ascii "operational_crashes")]
  | .keyIn n _ s | .keyRangeIn n _ _ _ s | .keyScaleIn n _ s _ | .stringIn n _ s => [join s n]

/-- The enumerators of `eMfltMetricsIndexV2`, ids_impl.h:45-94. -/
def idEnums : Decl → List Bytes
  | .key n _ => [join (ascii "heartbeat") n]
  | .keyRange n _ _ _ => [join (ascii "heartbeat") n]
  | .keyScale n _ _ => [join (ascii "heartbeat") n]
  | .string n _ => [join (ascii "heartbeat") n]
  | .session s => [join s (ascii "MemfaultSdkMetric_IntervalMs"), join s (ascii "operational_crashes")]
  | .keyIn n _ s => [join s n]
  | .keyRangeIn n _ _ _ s => [join s n]
  | .keyScaleIn n _ s _ => [join s n]
  | .stringIn n _ s => [join s n]

/-- `eMfltMetricsIndexV2`, ids_impl.h:83-94. -/
def ids (ds : List Decl) : List Bytes := ds.flatMap idEnums

/-- `_MEMFAULT_METRICS_ID`, ids_impl.h:144-145: `none` if there is no such enumerator, which does not
compile. -/
def metricId (ds : List Decl) (session name : Bytes) : Option Nat :=
  if join session name ∈ ids ds then some ((ids ds).idxOf (join session name)) else none

/-- The entries of `s_idx_to_metric_name`, memfault_metrics.c:290-319, 1240-1248. -/
def nameEntries : Decl → List Bytes
  | .key n _ => [n]
  | .keyRange n _ _ _ => [n]
  | .keyScale n _ _ => [n]
  | .string n _ => [n]
  | .session s => [join s (ascii "MemfaultSdkMetric_IntervalMs"), join s (ascii "operational_crashes")]
  | .keyIn n _ s => [join s n]
  | .keyRangeIn n _ _ _ s => [join s n]
  | .keyScaleIn n _ s _ => [join s n]
  | .stringIn n _ s => [join s n]

/-- `s_idx_to_metric_name`, memfault_metrics.c:1243-1248. -/
def nameTable (ds : List Decl) : List Bytes := ds.flatMap nameEntries

/-- `metric_info->key._impl` of entry `k`. -/
def impl (ds : List Decl) (k : Nat) : Option Nat :=
  (ds.flatMap keyEnums)[k]?.map fun e => (ids ds).idxOf e

/-- `%u`. -/
def formatNat (n : Nat) : Bytes := digitsLoop (n + 1) n []

/-- `%d`. -/
def formatInt (i : Int) : Bytes := if i < 0 then 45 :: formatNat i.natAbs else formatNat i.natAbs

/-- The value in the `switch` of `prv_metrics_debug_print`, memfault_metrics.c:1269-1295. -/
def render : Datum → Bytes
  | .num .timer v _ => formatNat v.toNat
  | .num .unsigned v isSet => if isSet then formatNat v.toNat else ascii "null"
  | .num .signed v isSet => if isSet then formatInt v.toInt else ascii "null"
  | .num .string _ _ => ascii "<unknown type>"
  | .str s => ascii "\"" ++ s ++ ascii "\""

/-- What is printed: `prv_session_debug_print_filter` with a session, or
`prv_all_sessions_debug_print_filter`. -/
inductive Request
  | session (key : Nat)
  | allSessions
  deriving Repr, DecidableEq

/-- `prv_session_debug_print_filter` and `prv_all_sessions_debug_print_filter`,
memfault_metrics.c:1300-1310. -/
def filter (ds : List Decl) : Request → Nat → Bool
  | .session key, current => current == key
  | .allSessions, current => current != sessionKey ds (ascii "heartbeat")

/-- `prv_metrics_debug_print`, memfault_metrics.c:1258-1298, in the loop of `prv_metric_iterator` with
`prv_metrics_heartbeat_iterate_cb` for entry `k`. -/
def printOne (ds : List Decl) (st : State) (req : Request) (k : Nat) : Option (List Bytes) :=
  (Metrics.datum (table ds) st k).bind fun d => (table ds)[k]?.bind fun kv =>
    if !filter ds req kv.session then some []
    else (impl ds k).bind fun i => (nameTable ds)[i]?.map fun name =>
      [ascii "  " ++ name ++ ascii ": " ++ render d]

/-- `memfault_metrics_heartbeat_iterate`, memfault_metrics.c:1197-1207, with a callback that goes on. -/
def iterate {α : Type} (f : Nat → Option (List α)) : List Nat → Option (List α)
  | [] => some []
  | k :: ks => (f k).bind fun l => (iterate f ks).map fun ls => l ++ ls

/-- `memfault_metrics_session_debug_print` and `memfault_metrics_all_sessions_debug_print`,
memfault_metrics.c:1312-1329: the lines that are logged and the new state. -/
def debugPrint (ds : List Decl) (st : State) (times : Nat → Nat) (req : Request) :
    Option (List Bytes × State) :=
  (Metrics.timersUpdate (table ds) st times).bind fun st =>
    (iterate (printOne ds st req) (List.range (table ds).length)).map fun ls =>
      (ascii "Metrics keys/values:" :: ls, st)

/-- `memfault_metrics_heartbeat_debug_print`, memfault_metrics.c:1331-1333. -/
def heartbeatDebugPrint (ds : List Decl) (st : State) (times : Nat → Nat) : Option (List Bytes × State) :=
  debugPrint ds st times (.session (sessionKey ds (ascii "heartbeat")))

/-- `prv_get_num_metrics` with its callback, memfault_metrics.c:1214-1230. -/
def numMetrics (ds : List Decl) (st : State) (session : Nat) : Option Nat :=
  (iterate (fun k => (Metrics.datum (table ds) st k).bind fun _ => (table ds)[k]?.map fun kv =>
    if kv.session = session then [()] else []) (List.range (table ds).length)).map List.length

/-- `memfault_metrics_heartbeat_get_num_metrics`, memfault_metrics.c:1232-1234. -/
def heartbeatNumMetrics (ds : List Decl) (st : State) : Option Nat :=
  numMetrics ds st (sessionKey ds (ascii "heartbeat"))

end Mflt.MetricsDebug
