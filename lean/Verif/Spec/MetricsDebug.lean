import Verif.Model.MetricsDebug
import Verif.Spec.Http
import Verif.Spec.MetricsClient

/-!
# Specification: defined metrics and their debug output

From the model only the list of definitions and the request are used.
-/

namespace Mflt.Spec.MetricsDebug

open Mflt.MetricsDebug (Decl Request)
open Mflt.Spec.Http (IsDigit decimal)
open Mflt.Spec.Cbor (Item)
open Mflt.Spec.Metrics (Op Out)

def text (s : String) : Bytes := s.toList.map fun c => UInt8.ofNat c.toNat

/-- A metric that is defined. -/
structure Metric where
  session : Bytes
  name : Bytes
  /-- How it is shown. -/
  label : Bytes
  type : Mflt.Metrics.MType
  /-- Of a text. -/
  maxLen : Nat

/-- A metric of the heartbeat. -/
def plain (name : Bytes) (type : Mflt.Metrics.MType) (maxLen : Nat) : Metric :=
  ⟨text "heartbeat", name, name, type, maxLen⟩

/-- A metric of a session. -/
def within (session name : Bytes) (type : Mflt.Metrics.MType) (maxLen : Nat) : Metric :=
  ⟨session, name, session ++ text "__" ++ name, type, maxLen⟩

/-- The metrics that one definition gives. A session has a duration and a count of crashes. -/
def metricsOf : Decl → List Metric
  | .key n t => [plain n t 0]
  | .keyRange n t _ _ => [plain n t 0]
  | .keyScale n t _ => [plain n t 0]
  | .string n len => [plain n .string len]
  | .session s => [within s (text "MemfaultSdkMetric_IntervalMs") .timer 0,
      within s (text "operational_crashes") .unsigned 0]
  | .keyIn n t s => [within s n t 0]
  | .keyRangeIn n t _ _ s => [within s n t 0]
  | .keyScaleIn n t s _ => [within s n t 0]
  | .stringIn n len s => [within s n .string len]

/-- All metrics, in the order of their definitions. -/
def metrics (ds : List Decl) : List Metric := ds.flatMap metricsOf

/-- The sessions, in the order of their definitions; the heartbeat comes last. -/
def sessions : List Decl → List Bytes
  | [] => [text "heartbeat"]
  | .session s :: ds => s :: sessions ds
  | _ :: ds => sessions ds

/-- The definitions compile: no two sessions and no two metrics have the same name, every metric is
in a session that is defined, texts are defined with a length that fits. -/
structure Valid (ds : List Decl) : Prop where
  sessionsDiffer : (sessions ds).Nodup
  metricsDiffer : ((metrics ds).map fun m => m.session ++ text "__" ++ m.name).Nodup
  declared : ∀ m ∈ metrics ds, m.session ∈ sessions ds
  short : ∀ m ∈ metrics ds, m.maxLen < 2 ^ 31
  scalar : ∀ d ∈ ds, ∀ n t lo hi s k, d = .key n t ∨ d = .keyRange n t lo hi ∨ d = .keyScale n t k ∨
    d = .keyIn n t s ∨ d = .keyRangeIn n t lo hi s ∨ d = .keyScaleIn n t s k → t ≠ .string
  many : (metrics ds).length < 2 ^ 32

/-- The metrics that a request prints, as positions in `metrics`. -/
def printed (ds : List Decl) (req : Request) : List Nat :=
  (List.range (metrics ds).length).filter fun k =>
    match (metrics ds)[k]? with
    | none => false
    | some m =>
      match req with
      | .session i => (sessions ds)[i]? == some m.session
      | .allSessions => m.session != text "heartbeat"

/-- A number in digits, without superfluous zeros. -/
def Number (n : Nat) (t : Bytes) : Prop :=
  t ≠ [] ∧ (∀ c ∈ t, IsDigit c) ∧ decimal t = n ∧ (t.head? = some 48 → t = [48])

/-- How a reported value is shown. -/
def Shows : Item → Bytes → Prop
  | .simple 22, t => t = text "null"
  | .uint n, t => Number n t
  | .negint n, t => ∃ d, t = 45 :: d ∧ Number (n + 1) d
  | .text s, t => t = 34 :: s ++ [34]
  | _, _ => False

/-! ## Histories with prints -/

/-- What happens over time. A heartbeat updates all running timers, reports and clears the session. -/
inductive Ev
  | print (times : Nat → Nat) (req : Request)
  | call (op : Op)
  | heartbeat (times : Nat → Nat) (session : Nat) (time : Option Nat)

/-- Calls that do not report or clear. -/
def Ev.ok : Ev → Prop
  | .call (.report ..) => False
  | .call (.clear ..) => False
  | .call .clearAll => False
  | _ => True

def Ev.isPrint : Ev → Bool
  | .print .. => true
  | _ => false

/-- The results of a history; a print has none. -/
def run (dev : SerializerHelper.Device) (keys : List Metrics.Key) (s : Metrics.State) :
    List Ev → Option (List Out × Metrics.State)
  | [] => some ([], s)
  | .print times _ :: es => (Metrics.step dev keys s (.updateTimers times)).bind fun r => run dev keys r.2 es
  | .call op :: es =>
    (Metrics.step dev keys s op).bind fun r => (run dev keys r.2 es).map fun q => (r.1 :: q.1, q.2)
  | .heartbeat times session time :: es =>
    (Metrics.step dev keys s (.updateTimers times)).bind fun a =>
      (Metrics.step dev keys a.2 (.report session time)).bind fun b =>
        (Metrics.step dev keys b.2 (.clear session)).bind fun c =>
          (run dev keys c.2 es).map fun q => (b.1 :: q.1, q.2)

/-- The same calls of the code. -/
def history (dev : SerializerHelper.Device) (ds : List Decl) (st : Mflt.Metrics.State) :
    List Ev → Option (List Out × Mflt.Metrics.State)
  | [] => some ([], st)
  | .print times req :: es => (Mflt.MetricsDebug.debugPrint ds st times req).bind fun r => history dev ds r.2 es
  | .call op :: es =>
    (Mflt.Metrics.exec dev (Mflt.MetricsDebug.table ds) st op).bind fun r =>
      (history dev ds r.2 es).map fun q => (r.1 :: q.1, q.2)
  | .heartbeat times session time :: es =>
    (Mflt.Metrics.exec dev (Mflt.MetricsDebug.table ds) st (.updateTimers times)).bind fun a =>
      (Mflt.Metrics.exec dev (Mflt.MetricsDebug.table ds) a.2 (.report session time)).bind fun b =>
        (Mflt.Metrics.exec dev (Mflt.MetricsDebug.table ds) b.2 (.clear session)).bind fun c =>
          (history dev ds c.2 es).map fun q => (b.1 :: q.1, q.2)

end Mflt.Spec.MetricsDebug
