import Verif.Model.CompactLog
import Verif.Model.DataExport
import Verif.Model.TraceEvent

/-!
# Exported logs, and trace events with a compact log

`memfault_log_export_logs` of `components/core/src/memfault_log.c` and
`memfault_trace_event_with_compact_log_capture` of `components/core/src/memfault_trace_event.c`.
-/

namespace Mflt.LogExport

open Log (Config State Record ReadOut)

/-- A call of `memfault_log_export_msg`: level and message; `notice n` is the line
"... n messages dropped ..." of memfault_log.c:256-262. -/
inductive Printed
  | msg (level : Nat) (text : Bytes)
  | notice (n : Nat)
  deriving Repr, DecidableEq

/-- One round of the loop of `memfault_log_export_log`, memfault_log.c:302-319: the string in `base64`, whose previous
contents are `line`. `none` is an access outside of it. -/
def exportPiece (line piece : Bytes) : Option Bytes :=
  match memcpyIn line 0 [77, 76, 58] with
  | none => none
  | some line =>
    match Base64.encode piece (line.drop 3) with
    | none => none
    | some rest =>
      match memcpyIn (line.take 3 ++ rest) (3 + Base64.encodeLen piece.length) [58] with
      | none => none
      | some line =>
        match memcpyIn line (3 + Base64.encodeLen piece.length + 1) [0] with
        | none => none
        | some line => DataExport.stringOf line

/-- The loop of `memfault_log_export_log`, memfault_log.c:301-320, with what is left of the message; `none` also if it
takes more than the given number of rounds. `max` is `MEMFAULT_LOG_EXPORT_CHUNK_MAX_LEN`. -/
def exportPieces (max : Nat) (line : Bytes) (level : Nat) : Nat → Bytes → Option (List Printed)
  | 0, _ => none
  | fuel + 1, left =>
    if left.length = 0 then some []
    else
      (exportPiece line (left.take (min left.length max))).bind fun text =>
        (exportPieces max line level fuel (left.drop (min left.length max))).map fun rest => .msg level text :: rest

/-- `memfault_log_export_log`, memfault_log.c:293-329. -/
def exportLog (max : Nat) (line : Bytes) (fuel : Nat) (r : Record) : Option (List Printed) :=
  if r.type = 1 then exportPieces max line r.level fuel r.msg
  else if r.type = 0 then some [.msg r.level r.msg]
  else some []

/-- `memfault_log_export_logs`, memfault_log.c:331-364; `none` also if it takes more than the given number of rounds. -/
def exportLogs (cfg : Config) (max : Nat) (line : Bytes) : Nat → State → Option (List Printed × State)
  | 0, _ => none
  | fuel + 1, s =>
    (Log.read cfg s).bind fun r =>
      match r.1 with
      | .nothing => some ([], r.2)
      | .droppedLine n => (exportLogs cfg max line fuel r.2).map fun q => (.notice n :: q.1, q.2)
      | .log rec =>
        (exportLog max line fuel rec).bind fun out =>
          (exportLogs cfg max line fuel r.2).map fun q => (out ++ q.1, q.2)

/-! ## Trace events -/

open Cbor (Encoder Call callAll)
open SerializerHelper
open TraceEvent (Info extraPairs)

/-- The optional pairs with MEMFAULT_COMPACT_LOG_ENABLE, memfault_trace_event.c:89-105. -/
def optionalCalls (info : Info) : List Call :=
  (match info.status with | some v => [u32 7, .signed v] | none => []) ++
  (match info.log with | some l => [u32 9, .join l] | none => [])

/-- `prv_encode_cb`, memfault_trace_event.c:68-108, with MEMFAULT_COMPACT_LOG_ENABLE. -/
def encode {σ : Type} (dev : Device) (time : Option Nat) (info : Info) (e : Encoder σ) : Bool × Encoder σ :=
  andThen (encodeTraceEvent dev time ⟨6, info.reason, info.pc, info.lr, extraPairs info⟩)
    (fun e => callAll e (optionalCalls info)) e

/-- What `memfault_trace_event_with_compact_log_capture`, memfault_trace_event.c:247-278, captures:
MEMFAULT_TRACE_EVENT_MAX_LOG_LEN = 80 bytes of zeros are written to; the result of the serializer is not looked at.
In an interrupt, without MEMFAULT_TRACE_EVENT_WITH_LOG_FROM_ISR_ENABLED, an event without a log. -/
def withCompactLog (sectionStart : BitVec 32) (isrWithoutLog : Bool) (reason lr : Nat) (logId : BitVec 32) (fmt : Nat)
    (args : List CompactLog.Arg) : Option Info :=
  if isrWithoutLog then some ⟨reason, 0, lr, none, none⟩
  else
    (CompactLog.serialize sectionStart (Encoder.init Cbor.memcpyWrite (some (List.replicate 80 0)) 80) logId fmt args).bind
      fun r => r.2.ctx.map fun log => ⟨reason, 0, lr, none, some (log.take r.2.encodedSize)⟩

end Mflt.LogExport
