import Verif.Model.CircBuf
import Verif.Model.Cbor
import Verif.Model.U32

/-!
# Model of `components/core/src/memfault_event_storage.c` (RAM storage) and
`components/core/src/memfault_batched_events.c`

The storage is the model of the circular buffer. `size_t` values are natural numbers; the
subtraction that can underflow is taken modulo 2^32. Non-volatile event storage
(`MEMFAULT_EVENT_STORAGE_NV_SUPPORT_ENABLED`) is not part of this file.
-/

namespace Mflt.EventStorage

/-- Compile-time configuration: `none` when `MEMFAULT_EVENT_STORAGE_READ_BATCHING_ENABLED` is 0,
otherwise `MEMFAULT_EVENT_STORAGE_READ_BATCHING_MAX_BYTES`. -/
structure Config where
  batchMax : Option Nat
  deriving Repr, DecidableEq

/-- `sMemfaultEventStorageWriteState`, memfault_event_storage.c:59-62. -/
structure WriteState where
  writeInProgress : Bool
  bytesWritten : Nat
  deriving Repr, DecidableEq

/-- `sMemfaultEventStorageReadState`, memfault_event_storage.c:64-68. `header` holds the
`event_header.length` valid bytes. -/
structure ReadState where
  activeEventReadSize : Nat
  numEvents : Nat
  header : Bytes
  deriving Repr, DecidableEq

/-- The three static variables, memfault_event_storage.c:77-79. -/
structure State where
  cb : CircBuf
  ws : WriteState
  rs : ReadState
  deriving Repr, DecidableEq

/-- `MEMFAULT_EVENT_STORAGE_WRITE_IN_PROGRESS`, memfault_event_storage.c:70. -/
def writeInProgressMark : Nat := 0xffff

/-- `memfault_events_storage_boot`, memfault_event_storage.c:317-330. -/
def boot (bufLen : Nat) : Option State :=
  (CircBuf.init bufLen).map fun cb => ⟨cb, ⟨false, 0⟩, ⟨0, 0, []⟩⟩

/-- `memfault_batched_events_build_header`, memfault_batched_events.c:13-28: the header bytes. The
encoder writes into the 5-byte `data` array; `none` is a write outside of it. -/
def buildHeader (numEvents : Nat) : Option Bytes :=
  if numEvents ≤ 1 then some []
  else
    let e := Cbor.Encoder.init Cbor.memcpyWrite (some (List.replicate 5 0)) 5
    let (_, e) := Cbor.encodeArrayBegin e numEvents
    e.ctx.map fun data => data.take e.encodedSize

/-- `prv_get_total_event_size`, memfault_event_storage.c:99-106. -/
def totalEventSize (rs : ReadState) : Nat :=
  if rs.numEvents = 0 then 0
  else sub32 (rs.activeEventReadSize + rs.header.length) (rs.numEvents * 2)

/-- The loop of `prv_compute_read_state`, memfault_event_storage.c:112-136. `fuel` bounds the
iterations; `none` is a loop that has not ended. -/
def computeLoop (cfg : Config) (cb : CircBuf) : Nat → ReadState → Option ReadState
  | 0, _ => none
  | fuel + 1, rs =>
    match cb.read rs.activeEventReadSize 2 with
    | none => none
    | some none => some rs
    | some (some hdr) =>
      let totalSize := ofLe16 hdr
      if totalSize = writeInProgressMark then some rs
      else
        let rs' := { rs with numEvents := rs.numEvents + 1,
                             activeEventReadSize := rs.activeEventReadSize + totalSize }
        match cfg.batchMax with
        | none => some rs'
        | some batchMax =>
          if rs'.numEvents > 1 ∧ totalEventSize rs' > batchMax then
            some { rs' with numEvents := rs'.numEvents - 1,
                            activeEventReadSize := rs'.activeEventReadSize - totalSize }
          else computeLoop cfg cb fuel rs'

/-- `prv_compute_read_state`, memfault_event_storage.c:111-141. -/
def computeReadState (cfg : Config) (cb : CircBuf) : Option ReadState := do
  let rs ← computeLoop cfg cb (cb.readSize + 1) ⟨0, 0, []⟩
  match cfg.batchMax with
  | none => return rs
  | some _ =>
    let h ← buildHeader rs.numEvents
    return { rs with header := h }

/-- `prv_has_data_ram`, memfault_event_storage.c:143-166: `(return value, *total_size, state)`. -/
def hasData (cfg : Config) (s : State) : Option (Bool × Nat × State) :=
  let curr := totalEventSize s.rs
  if curr ≠ 0 then some (true, curr, s)
  else do
    let rs ← computeReadState cfg s.cb
    let total := totalEventSize rs
    return (decide (total ≠ 0), total, { s with rs := rs })

/-- The locals of the copy loop of `prv_event_storage_read_ram`: `curr_offset`, `read_offset`,
`offset`, `buf_len` and the bytes copied so far. -/
structure Cursor where
  currOffset : Nat
  readOffset : Nat
  offset : Nat
  bufLen : Nat
  out : Bytes
  deriving Repr, DecidableEq

/-- One iteration of that loop, memfault_event_storage.c:193-225. Outer `none` is undefined
behaviour, inner `none` is `return false`. -/
def readStep (cb : CircBuf) (c : Cursor) : Option (Option Cursor) :=
  match cb.read c.readOffset 2 with
  | none => none
  | some none => some none
  | some (some hdr) =>
    let readOffset := c.readOffset + 2
    let eventSize := sub32 (ofLe16 hdr) 2
    if c.currOffset + eventSize < c.offset then
      some (some { c with currOffset := c.currOffset + eventSize,
                          readOffset := readOffset + eventSize })
    else
      let start := sub32 c.offset c.currOffset
      let n := min (sub32 eventSize start) c.bufLen
      match cb.read (readOffset + start) n with
      | none => none
      | some none => some none
      | some (some d) => some (some ⟨c.currOffset + eventSize, readOffset + eventSize,
          c.offset + n, c.bufLen - n, c.out ++ d⟩)

/-- The loop, memfault_event_storage.c:192-226. Outer `none` is undefined behaviour or a loop that
has not ended, inner `none` is `return false`. -/
def readLoop (cb : CircBuf) : Nat → Cursor → Option (Option Bytes)
  | 0, _ => none
  | fuel + 1, c =>
    if c.bufLen = 0 then some (some c.out)
    else match readStep cb c with
      | none => none
      | some none => some none
      | some (some c) => readLoop cb fuel c

/-- `prv_event_storage_read_ram`, memfault_event_storage.c:168-229: the bytes copied to the buffer,
or `none` for `return false`. Simplification: `offset + buf_len` does not wrap. -/
def read (s : State) (offset bufLen : Nat) : Option (Option Bytes) :=
  if offset + bufLen > totalEventSize s.rs then some none
  else
    let hlen := s.rs.header.length
    if offset < hlen then
      let n := min bufLen (hlen - offset)
      match memcpyOut s.rs.header offset n with
      | none => none
      | some d => readLoop s.cb (s.cb.readSize + 1) ⟨0, 0, 0, bufLen - n, d⟩
    else readLoop s.cb (s.cb.readSize + 1) ⟨0, 0, offset - hlen, bufLen, []⟩

/-- `prv_event_storage_mark_event_read_ram`, memfault_event_storage.c:231-244. -/
def markRead (s : State) : Option State :=
  if s.rs.activeEventReadSize = 0 then some s
  else do
    let (_, cb) ← s.cb.consume s.rs.activeEventReadSize
    return { s with cb := cb, rs := ⟨0, 0, []⟩ }

/-- `prv_event_storage_storage_begin_write`, memfault_event_storage.c:247-269. -/
def beginWrite (s : State) : Option (Nat × State) :=
  if s.ws.writeInProgress then some (0, s)
  else do
    let (ok, cb) ← s.cb.write (le16 writeInProgressMark)
    if !ok then return (0, { s with cb := cb })
    else return (cb.getWriteSize, { s with cb := cb, ws := ⟨true, 2⟩ })

/-- `prv_event_storage_storage_append_data`, memfault_event_storage.c:271-281. -/
def appendData (s : State) (bytes : Bytes) : Option (Bool × State) := do
  let (ok, cb) ← s.cb.write bytes
  return (ok, { s with cb := cb, ws := if ok then
    { s.ws with bytesWritten := s.ws.bytesWritten + bytes.length } else s.ws })

/-- `prv_event_storage_storage_finish_write`, memfault_event_storage.c:283-310. -/
def finishWrite (s : State) (rollback : Bool) : Option State :=
  if !s.ws.writeInProgress then some s
  else if rollback then
    some { s with cb := (s.cb.consumeFromEnd s.ws.bytesWritten).2, ws := ⟨false, 0⟩ }
  else do
    let (_, cb) ← s.cb.writeAtOffset s.ws.bytesWritten (le16 (s.ws.bytesWritten % 65536))
    return { s with cb := cb, ws := ⟨false, 0⟩ }

/-- `prv_get_size_cb`, memfault_event_storage.c:312-315. -/
def getSize (s : State) : Nat := s.cb.getReadSize + s.cb.getWriteSize

/-- `memfault_event_storage_bytes_used` / `_free`, memfault_event_storage.c:443-461. -/
def bytesUsed (s : State) : Nat := s.cb.getReadSize
@[inherit_doc bytesUsed] def bytesFree (s : State) : Nat := s.cb.getWriteSize

end Mflt.EventStorage
