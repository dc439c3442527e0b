import Verif.Model.ChunkTransport
import Verif.Model.DataSourceRle

/-!
# Model of `components/core/src/memfault_data_packetizer.c`

A data source (`sMemfaultDataSourceImpl`) is the queue of messages it holds: `has_more_msgs_cb`
announces the first one, `read_msg_cb` copies bytes of it (reads outside of it are `none`,
undefined behaviour) and `mark_msg_read_cb` removes it. Messages can be added at the back at any
time. Only one source uses run-length encoding; its wrapper is `DataSourceRle`.

The chunk transport hands its reader a piece of the caller's buffer. `msgReader` models the reader
with the previous contents of that piece; inside the transport the previous contents are taken to
be zeros, which `C21_message_bytes` shows not to matter for a source whose reads succeed.
-/

namespace Mflt.Packetizer

/-- The data sources, `s_memfault_data_source`, memfault_data_packetizer.c:97-121. -/
inductive Src
  | coredump
  | event
  | log
  | cdr
  deriving Repr, DecidableEq

/-- `eMfltMessageType`, memfault_data_packetizer.c:73-80. -/
def Src.type : Src → Nat
  | .coredump => 1
  | .event => 2
  | .log => 3
  | .cdr => 4

/-- The `use_rle` column, memfault_data_packetizer.c:97-121. -/
def Src.useRle : Src → Bool
  | .coredump => true
  | _ => false

/-- The rows of `s_memfault_data_source` in order, memfault_data_packetizer.c:97-121. -/
def sources : List Src := [.coredump, .event, .log, .cdr]

/-- Compile-time configuration: whether the RLE wrapper is built in
(MEMFAULT_DATA_SOURCE_RLE_ENABLED) and the project key with its terminator
(MEMFAULT_MESSAGE_HEADER_CONTAINS_PROJECT_KEY). -/
structure Config where
  rleEnabled : Bool
  key : Option Bytes
  deriving Repr, DecidableEq

/-- `sMemfaultDataSource` of the message being sent, memfault_data_packetizer.c:91-95. -/
structure Active where
  src : Src
  rle : Bool
  deriving Repr, DecidableEq

/-- The packetizer's and the RLE wrapper's global state, memfault_data_packetizer.c:123-132, 169,
171 and memfault_data_source_rle.c:46, 75, with the contents of the sources. -/
structure State where
  queue : Src → List Bytes
  rleActive : Option Src
  rle : DataSourceRle.State
  mask : Nat
  msg : Option Active
  ctx : Chunk.Ctx

/-- The state at boot: all sources enabled and empty. -/
def boot : State := ⟨fun _ => [], none, DataSourceRle.State.zero, 0x1E, none, Chunk.Ctx.start 0 false⟩

/-- `memfault_data_source_rle_encoder_set_active`, memfault_data_source_rle.c:77-85; the weak
definition of memfault_data_packetizer.c:67-70 when it is not built in. -/
def setRleActive (cfg : Config) (s : State) (src : Option Src) : Bool × State :=
  if !cfg.rleEnabled then (false, s)
  else if src = s.rleActive then (true, s)
  else (true, { s with rle := DataSourceRle.State.zero, rleActive := src })

/-- `prv_reset_packetizer_state`, memfault_data_packetizer.c:178-184. -/
def reset (cfg : Config) (s : State) : State :=
  (setRleActive cfg { s with msg := none, ctx := Chunk.Ctx.start 0 false } none).2

/-- The message header, `sMfltPacketizerHdr`, memfault_data_packetizer.c:141-167, 193-206. -/
def header (cfg : Config) (a : Active) : Bytes :=
  let t := a.src.type
  let t := if a.rle then t ||| 0x80 else t
  match cfg.key with
  | none => [UInt8.ofNat t]
  | some key => UInt8.ofNat (t ||| 0x40) :: key

/-- What happens to the part of the buffer after the header: read it from the source and scrub its
beginning when that fails, memfault_data_packetizer.c:215-229. -/
def readBody {σ : Type} (src : σ → Nat → Bytes → Option (Bool × Bytes × σ)) (st : σ)
    (readOffset : Nat) (pre buf : Bytes) : Option (Bytes × σ) :=
  if buf.length = 0 then some (pre, st)
  else (src st readOffset buf).map fun r =>
    (pre ++ (if r.1 then r.2.1
      else List.replicate (min 16 r.2.1.length) 0xEF ++ r.2.1.drop (min 16 r.2.1.length)), r.2.2)

/-- `prv_data_source_chunk_transport_msg_reader`, memfault_data_packetizer.c:186-232. `buf` is the
buffer's previous contents; a source turns it into (success, new contents, new state). -/
def msgReader {σ : Type} (hdr : Bytes) (src : σ → Nat → Bytes → Option (Bool × Bytes × σ)) (st : σ)
    (offset : Nat) (buf : Bytes) : Option (Bytes × σ) :=
  if offset < hdr.length then
    let n := min (hdr.length - offset) buf.length
    readBody src st 0 ((hdr.drop offset).take n) (buf.drop n)
  else readBody src st (offset - hdr.length) [] buf

/-- `read_msg_cb` of the selected source: the RLE wrapper or the source itself. -/
def sourceRead (queue : Src → List Bytes) (rleActive : Option Src) (a : Active)
    (st : DataSourceRle.State) (offset : Nat) (buf : Bytes) :
    Option (Bool × Bytes × DataSourceRle.State) :=
  if a.rle then
    rleActive.bind fun src => (queue src).head?.bind fun msg =>
      (DataSourceRle.readMsg msg st offset buf.length).map fun r =>
        (r.1, r.2.1 ++ buf.drop r.2.1.length, r.2.2)
  else (queue a.src).head?.bind fun msg =>
    (memcpyOut msg offset buf.length).map fun d => (true, d, st)

/-- The reader handed to the chunk transport. -/
def reader (cfg : Config) (queue : Src → List Bytes) (rleActive : Option Src) (a : Active) :
    Chunk.Reader DataSourceRle.State := fun st offset n =>
  msgReader (header cfg a) (sourceRead queue rleActive a) st offset (List.replicate n 0)

/-- `has_more_msgs_cb` of a selected source. -/
def hasMore (s : State) (a : Active) : Option (Option Nat × State) :=
  if a.rle then
    s.rleActive.bind fun src =>
      (DataSourceRle.hasMoreMsgs (s.queue src).head? s.rle).map fun r => (r.1, { s with rle := r.2 })
  else some ((s.queue a.src).head?.map List.length, s)

/-- `prv_get_source_with_data`, memfault_data_packetizer.c:234-258: the rows still to be looked at. -/
def getSourceWithData (cfg : Config) : List Src → State → Option (Option (Active × Nat) × State)
  | [], s => some (none, s)
  | src :: rest, s =>
    if (1 <<< src.type) &&& s.mask = 0 then getSourceWithData cfg rest s
    else
      let r := if src.useRle then setRleActive cfg s (some src) else (false, s)
      (hasMore r.2 ⟨src, r.1⟩).bind fun q =>
        match q.1 with
        | some size => some (some (⟨src, r.1⟩, size), q.2)
        | none => getSourceWithData cfg rest q.2

/-- `prv_load_next_message_to_send`, memfault_data_packetizer.c:277-298 (with
`prv_more_messages_to_send`, 259-275). -/
def loadNext (cfg : Config) (multi : Bool) (s : State) : Option (Bool × State) :=
  (getSourceWithData cfg sources s).map fun r =>
    match r.1 with
    | none => (false, r.2)
    | some (a, size) =>
      (true, { r.2 with msg := some a
                        ctx := Chunk.getChunkInfo (Chunk.Ctx.start (size + (header cfg a).length) multi) })

/-- `mark_msg_read_cb` of the selected source. -/
def markRead (s : State) (a : Active) : Option State :=
  let pop (src : Src) : Src → List Bytes :=
    fun x => if x = src then (s.queue x).tail else s.queue x
  if a.rle then s.rleActive.map fun src =>
    { s with rle := DataSourceRle.State.zero, queue := pop src }
  else some { s with queue := pop a.src }

/-- `eMemfaultPacketizerStatus`, data_packetizer.h. -/
inductive Status
  | noMoreData
  | endOfChunk
  | moreDataForChunk
  deriving Repr, DecidableEq

/-- What `memfault_packetizer_get_next` leaves behind: its status, the caller's buffer and length. -/
structure NextOut where
  status : Status
  buf : Bytes
  len : Nat
  deriving Repr, DecidableEq

/-- The end of `memfault_packetizer_get_next`, memfault_data_packetizer.c:327-343. -/
def finishNext (cfg : Config) (s : State) (a : Active) (r : Chunk.Result DataSourceRle.State) :
    Option (NextOut × State) :=
  let s := { s with ctx := r.ctx, rle := r.reader }
  if r.outBufLen = 0 then some (⟨.noMoreData, r.buf, 0⟩, s)
  else if !r.moreData then
    (markRead s a).map fun s => (⟨.endOfChunk, r.buf, r.outBufLen⟩, reset cfg s)
  else
    some (⟨if r.ctx.enableMultiCallChunk then .moreDataForChunk else .endOfChunk, r.buf, r.outBufLen⟩, s)

/-- `memfault_packetizer_get_next` (non-null arguments), memfault_data_packetizer.c:311-344. -/
def getNext (cfg : Config) (s : State) (buf : Bytes) : Option (NextOut × State) :=
  match s.msg with
  | none => some (⟨.noMoreData, buf, buf.length⟩, s)
  | some a =>
    (Chunk.getNextChunk (reader cfg s.queue s.rleActive a) s.ctx s.rle buf).bind
      fun r => finishNext cfg s a r

/-- `memfault_packetizer_abort`, memfault_data_packetizer.c:307-309. -/
def abort (cfg : Config) (s : State) : State := reset cfg s

/-- `memfault_packetizer_set_active_sources`, memfault_data_packetizer.c:173-176. -/
def setActiveSources (cfg : Config) (s : State) (mask : Nat) : State :=
  { abort cfg s with mask := mask }

/-- What `memfault_packetizer_begin` reports: success and the metadata. -/
structure BeginOut where
  ok : Bool
  singleChunkMessageLength : Nat
  sendInProgress : Bool
  deriving Repr, DecidableEq

/-- `memfault_packetizer_begin` (non-null arguments), memfault_data_packetizer.c:346-366. -/
def begin' (cfg : Config) (multi : Bool) (s : State) : Option (BeginOut × State) :=
  (if s.msg.isNone then loadNext cfg multi s else some (true, s)).map fun r =>
    if r.1 then (⟨true, r.2.ctx.singleChunkMessageLength, decide (r.2.ctx.readOffset ≠ 0)⟩, r.2)
    else (⟨false, 0, false⟩, r.2)

/-- `memfault_packetizer_data_available`, memfault_data_packetizer.c:368-374. -/
def dataAvailable (cfg : Config) (s : State) : Option (Bool × State) :=
  if s.msg.isSome then some (true, s)
  else (getSourceWithData cfg sources s).map fun r => (r.1.isSome, r.2)

/-- `memfault_packetizer_get_chunk`, memfault_data_packetizer.c:376-400: the result, buffer and length. -/
def getChunk (cfg : Config) (s : State) (buf : Bytes) : Option (Bool × Bytes × Nat × State) :=
  (begin' cfg false s).bind fun b =>
    if !b.1.ok then some (false, buf, buf.length, b.2)
    else (getNext cfg b.2 buf).map fun n =>
      (decide (n.1.status = .endOfChunk), n.1.buf, n.1.len, n.2)

end Mflt.Packetizer
