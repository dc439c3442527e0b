import Verif.Model.Packetizer
import Verif.Model.EventStorage
import Verif.Model.LogDataSource
import Verif.Model.Cdr
import Verif.Model.Coredump
import Verif.Model.CoredumpStorage

/-!
# Model of the packetizer on top of the sources of the SDK

`Model/Packetizer.lean` takes a data source to be a queue of messages. Here the packetizer of
`components/core/src/memfault_data_packetizer.c` calls the sources themselves: the coredump storage in RAM, the event
storage, the log buffer and the custom data recordings, each of them as it is modelled in its own file.

The functions of a source are those of its `sMemfaultDataSourceImpl`. A read that fails leaves the buffer as it was
(what a failing read really leaves there is only overwritten in part, see C21).
-/

namespace Mflt.Sys

open Packetizer (Src Active Status NextOut BeginOut)

/-- The compile-time configuration of all parts and the device information. -/
structure Config where
  pk : Packetizer.Config
  ev : EventStorage.Config
  log : Log.Config
  dev : SerializerHelper.Device
  cdr : Cdr.Config

/-- The state of the sources: the contents of the coredump storage and the state of the modules. -/
structure World where
  core : Bytes
  ev : EventStorage.State
  log : Log.State
  cdr : Cdr.State

/-- The sources, and the state of the packetizer and of the RLE wrapper, memfault_data_packetizer.c:123-132, 169, 171
and memfault_data_source_rle.c:46, 75. -/
structure State where
  w : World
  rleActive : Option Src
  rle : DataSourceRle.State
  mask : Nat
  msg : Option Active
  ctx : Chunk.Ctx

/-- `has_more_msgs_cb` of a source: `memfault_coredump_has_valid_coredump` (memfault_coredump.c:563-578),
`prv_has_event`, `prv_has_logs`, `prv_has_cdr`. -/
def has (cfg : Config) (src : Src) (w : World) : Option (Option Nat × World) :=
  match src with
  | .coredump => some (Coredump.hasValid true w.core, w)
  | .event => (EventStorage.hasData cfg.ev w.ev).map fun r =>
      (if r.1 then some r.2.1 else none, { w with ev := r.2.2 })
  | .log => (Log.hasLogs cfg.log cfg.dev w.log).map fun r => (r, w)
  | .cdr => (Cdr.has cfg.cdr w.cdr).map fun r => (r.1, { w with cdr := r.2 })

/-- `read_msg_cb` of a source into a buffer with previous contents `buf`: `memfault_coredump_read`
(memfault_coredump.c:580-582), `prv_event_storage_read`, `prv_logs_read`, `prv_cdr_read`. -/
def read (cfg : Config) (src : Src) (w : World) (offset : Nat) (buf : Bytes) : Option (Bool × Bytes) :=
  match src with
  | .coredump => (CoredumpStorage.ramRead w.core offset buf.length).map fun r => (r.1.isSome, r.1.getD buf)
  | .event => (EventStorage.read w.ev offset buf.length).map fun r => (r.isSome, r.getD buf)
  | .log => Log.logsRead cfg.log cfg.dev w.log offset buf
  | .cdr => (Cdr.read w.cdr offset buf.length).map fun r => (r.isSome, r.getD buf)

/-- `mark_msg_read_cb` of a source: `memfault_platform_coredump_storage_clear`,
`prv_event_storage_mark_event_read`, `prv_logs_mark_sent`, `prv_cdr_mark_sent`. -/
def mark (cfg : Config) (src : Src) (w : World) : Option World :=
  match src with
  | .coredump => (CoredumpStorage.ramClear w.core).map fun m => { w with core := m }
  | .event => (EventStorage.markRead w.ev).map fun e => { w with ev := e }
  | .log => (Log.markSent w.log).map fun l => { w with log := l }
  | .cdr => some { w with cdr := Cdr.mark cfg.cdr w.cdr }

/-- What the RLE wrapper has behind it: the stored coredump (`none` inside: there is none). Only the coredump is
wrapped. The wrapper reads inside of the announced size only (C22); there the storage holds these bytes. -/
def backing (w : World) : Src → Option (Option Bytes)
  | .coredump => some ((Coredump.hasValid true w.core).map fun n => w.core.take n)
  | _ => none

/-- `memfault_data_source_rle_encoder_set_active`, memfault_data_source_rle.c:77-85; the weak definition of
memfault_data_packetizer.c:67-70 when it is not built in. -/
def setRleActive (cfg : Config) (s : State) (src : Option Src) : Bool × State :=
  if !cfg.pk.rleEnabled then (false, s)
  else if src = s.rleActive then (true, s)
  else (true, { s with rle := DataSourceRle.State.zero, rleActive := src })

/-- `prv_reset_packetizer_state`, memfault_data_packetizer.c:178-184. -/
def reset (cfg : Config) (s : State) : State :=
  (setRleActive cfg { s with msg := none, ctx := Chunk.Ctx.start 0 false } none).2

/-- `read_msg_cb` of the selected source: the RLE wrapper or the source itself. -/
def sourceRead (cfg : Config) (w : World) (rleActive : Option Src) (a : Active) (st : DataSourceRle.State)
    (offset : Nat) (buf : Bytes) : Option (Bool × Bytes × DataSourceRle.State) :=
  if a.rle then
    rleActive.bind fun src => (backing w src).bind fun b => b.bind fun msg =>
      (DataSourceRle.readMsg msg st offset buf.length).map fun r => (r.1, r.2.1 ++ buf.drop r.2.1.length, r.2.2)
  else (read cfg a.src w offset buf).map fun r => (r.1, r.2, st)

/-- The reader handed to the chunk transport, memfault_data_packetizer.c:186-232. -/
def reader (cfg : Config) (w : World) (rleActive : Option Src) (a : Active) : Chunk.Reader DataSourceRle.State :=
  fun st offset n =>
    Packetizer.msgReader (Packetizer.header cfg.pk a) (sourceRead cfg w rleActive a) st offset (List.replicate n 0)

/-- `has_more_msgs_cb` of a selected source. -/
def hasMore (cfg : Config) (s : State) (a : Active) : Option (Option Nat × State) :=
  if a.rle then
    s.rleActive.bind fun src => (backing s.w src).bind fun b =>
      (DataSourceRle.hasMoreMsgs b s.rle).map fun r => (r.1, { s with rle := r.2 })
  else (has cfg a.src s.w).map fun r => (r.1, { s with w := r.2 })

/-- `prv_get_source_with_data`, memfault_data_packetizer.c:234-258: the rows still to be looked at. -/
def getSourceWithData (cfg : Config) : List Src → State → Option (Option (Active × Nat) × State)
  | [], s => some (none, s)
  | src :: rest, s =>
    if (1 <<< src.type) &&& s.mask = 0 then getSourceWithData cfg rest s
    else
      let r := if src.useRle then setRleActive cfg s (some src) else (false, s)
      (hasMore cfg r.2 ⟨src, r.1⟩).bind fun q =>
        match q.1 with
        | some size => some (some (⟨src, r.1⟩, size), q.2)
        | none => getSourceWithData cfg rest q.2

/-- `prv_load_next_message_to_send`, memfault_data_packetizer.c:277-298. -/
def loadNext (cfg : Config) (multi : Bool) (s : State) : Option (Bool × State) :=
  (getSourceWithData cfg Packetizer.sources s).map fun r =>
    match r.1 with
    | none => (false, r.2)
    | some (a, size) =>
      (true, { r.2 with
        msg := some a
        ctx := Chunk.getChunkInfo (Chunk.Ctx.start (size + (Packetizer.header cfg.pk a).length) multi) })

/-- `mark_msg_read_cb` of the selected source. -/
def markRead (cfg : Config) (s : State) (a : Active) : Option State :=
  if a.rle then s.rleActive.bind fun src => (mark cfg src s.w).map fun w =>
    { s with rle := DataSourceRle.State.zero, w := w }
  else (mark cfg a.src s.w).map fun w => { s with w := w }

/-- The end of `memfault_packetizer_get_next`, memfault_data_packetizer.c:327-343. -/
def finishNext (cfg : Config) (s : State) (a : Active) (r : Chunk.Result DataSourceRle.State) :
    Option (NextOut × State) :=
  let s := { s with ctx := r.ctx, rle := r.reader }
  if r.outBufLen = 0 then some (⟨.noMoreData, r.buf, 0⟩, s)
  else if !r.moreData then
    (markRead cfg s a).map fun s => (⟨.endOfChunk, r.buf, r.outBufLen⟩, reset cfg s)
  else
    some (⟨if r.ctx.enableMultiCallChunk then .moreDataForChunk else .endOfChunk, r.buf, r.outBufLen⟩, s)

/-- `memfault_packetizer_get_next` (non-null arguments), memfault_data_packetizer.c:311-344. -/
def getNext (cfg : Config) (s : State) (buf : Bytes) : Option (NextOut × State) :=
  match s.msg with
  | none => some (⟨.noMoreData, buf, buf.length⟩, s)
  | some a => (Chunk.getNextChunk (reader cfg s.w s.rleActive a) s.ctx s.rle buf).bind fun r => finishNext cfg s a r

/-- `memfault_packetizer_set_active_sources`, memfault_data_packetizer.c:173-176. -/
def setActiveSources (cfg : Config) (s : State) (mask : Nat) : State := { reset cfg s with mask := mask }

/-- `memfault_packetizer_begin` (non-null arguments), memfault_data_packetizer.c:346-366. -/
def begin' (cfg : Config) (multi : Bool) (s : State) : Option (BeginOut × State) :=
  (if s.msg.isNone then loadNext cfg multi s else some (true, s)).map fun r =>
    if r.1 then (⟨true, r.2.ctx.singleChunkMessageLength, decide (r.2.ctx.readOffset ≠ 0)⟩, r.2)
    else (⟨false, 0, false⟩, r.2)

/-- `memfault_packetizer_data_available`, memfault_data_packetizer.c:368-374. -/
def dataAvailable (cfg : Config) (s : State) : Option (Bool × State) :=
  if s.msg.isSome then some (true, s)
  else (getSourceWithData cfg Packetizer.sources s).map fun r => (r.1.isSome, r.2)

/-- `memfault_packetizer_get_chunk`, memfault_data_packetizer.c:376-400: the result, buffer and length. -/
def getChunk (cfg : Config) (s : State) (buf : Bytes) : Option (Bool × Bytes × Nat × State) :=
  (begin' cfg false s).bind fun b =>
    if !b.1.ok then some (false, buf, buf.length, b.2)
    else (getNext cfg b.2 buf).map fun n => (decide (n.1.status = .endOfChunk), n.1.buf, n.1.len, n.2)

/-- A boot of the modules with storages of `evSize` and `logSize` bytes, and the contents of the coredump storage. -/
def boot (cfg : Config) (core : Bytes) (evSize minLevel logSize : Nat) : Option State :=
  (EventStorage.boot evSize).bind fun ev => (Log.boot minLevel logSize).map fun log =>
    ⟨⟨core, ev, log, Cdr.State.init cfg.cdr⟩, none, DataSourceRle.State.zero, 0x1E, none, Chunk.Ctx.start 0 false⟩

end Mflt.Sys
