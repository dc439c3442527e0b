import Verif.Model.Mem
import Verif.Model.Rle

/-!
# Model of `components/core/src/memfault_data_source_rle.c`

The backing data source is the message it currently holds (`none`: it has none). Its reads are
assumed to succeed inside the message; a read outside the message is `none` (undefined behaviour).
The 128-byte `temp_buf` is not stored in the state because it is always written before it is read.
`uint32_t` counters are natural numbers (messages are far below 2^32 bytes).
-/

namespace Mflt.DataSourceRle

/-- `eMemfaultDataSourceRleState`, memfault_data_source_rle.c:47-54. -/
inductive Phase
  | inactive
  | findingSeqLength
  | writingSequence
  deriving Repr, DecidableEq

/-- `sMemfaultDataSourceRleState` with its `encode_ctx`, memfault_data_source_rle.c:56-73. -/
structure State where
  originalSize : Nat
  totalRleSize : Nat
  rle : Rle.Ctx
  phase : Phase
  writeOffset : Nat
  bytesProcessed : Nat
  currEncodedLen : Nat
  deriving Repr, DecidableEq

/-- The all-zero state. -/
def State.zero : State := ⟨0, 0, Rle.Ctx.zero, .inactive, 0, 0, 0⟩

/-- `sizeof(temp_buf)`, memfault_data_source_rle.c:58. -/
def tempBufSize : Nat := 128

/-- The `while` of `prv_data_source_rle_has_more_msgs_prepare`, memfault_data_source_rle.c:91-94. -/
def prepareLoop : Nat → Rle.Ctx → Bytes → Option Rle.Ctx
  | 0, ctx, buf => if buf.length = 0 then some ctx else none
  | fuel + 1, ctx, buf =>
    if buf.length = 0 then some ctx
    else (Rle.encode ctx buf).bind fun r => prepareLoop fuel r.2 (buf.drop r.1)

/-- `prv_data_source_rle_has_more_msgs_prepare`, memfault_data_source_rle.c:87-106. -/
def hasMoreMsgsPrepare (s : State) (data : Bytes) : Option State :=
  (prepareLoop data.length s.rle data).bind fun rle =>
    if rle.currOffset = s.originalSize then
      (Rle.finalize rle).map fun rle => { s with rle := rle, phase := .findingSeqLength }
    else some { s with rle := rle }

/-- The `while` of `prv_compute_rle_size`, memfault_data_source_rle.c:231-240. -/
def computeLoop (msg : Bytes) : Nat → State → (bytesProcessed : Nat) → Option State
  | 0, s, done => if done = s.originalSize then some s else none
  | fuel + 1, s, done =>
    if done = s.originalSize then some s
    else
      (memcpyOut msg done (min (s.originalSize - done) tempBufSize)).bind fun buf =>
      (hasMoreMsgsPrepare s buf).bind fun s' => computeLoop msg fuel s' (done + buf.length)

/-- `prv_compute_rle_size`, memfault_data_source_rle.c:226-246. -/
def computeRleSize (msg : Bytes) (s : State) : Option State :=
  (computeLoop msg s.originalSize s 0).map fun s =>
    { s with totalRleSize := s.rle.totalRleSize, rle := Rle.Ctx.zero }

/-- `memfault_data_source_rle_has_more_msgs`, memfault_data_source_rle.c:252-268: the announced size
if the backing source has a message. -/
def hasMoreMsgs (backing : Option Bytes) (s : State) : Option (Option Nat × State) :=
  match backing with
  | none => some (none, { s with originalSize := 0 })
  | some msg =>
    let s := { s with originalSize := msg.length }
    if s.totalRleSize ≠ 0 then some (some s.totalRleSize, s)
    else (computeRleSize msg s).map fun s => (some s.totalRleSize, s)

/-- `prv_data_source_rle_get_backing_read_offset`, memfault_data_source_rle.c:108-124. -/
def backingReadOffset (s : State) : Nat :=
  if s.phase = .findingSeqLength then s.bytesProcessed
  else if s.writeOffset < s.rle.writeInfo.header.length then s.rle.writeInfo.writeStartOffset
  else s.rle.writeInfo.writeStartOffset + (s.writeOffset - s.rle.writeInfo.header.length)

/-- `prv_data_source_rle_read_msg_prepare`, memfault_data_source_rle.c:126-140. -/
def readMsgPrepare (s : State) (data : Bytes) : Option State :=
  (Rle.encode s.rle data).bind fun r =>
  (if data.length = 0 then Rle.finalize r.2 else some r.2).map fun rle =>
    { s with
      rle := rle
      bytesProcessed := s.bytesProcessed + r.1
      phase := if rle.writeInfo.available then .writingSequence else s.phase }

/-- The second half of `prv_data_source_rle_build_msg_incremental`,
memfault_data_source_rle.c:163-178: copy data bytes after `hdr`, which was just written. -/
def buildData (msg : Bytes) (s : State) (hdr : Bytes) (room : Nat) : Option (Bytes × State) :=
  let total := s.rle.writeInfo.header.length + s.rle.writeInfo.writeLen
  let n := min room (total - s.writeOffset)
  (memcpyOut msg (backingReadOffset s) n).map fun data =>
    let s := { s with writeOffset := s.writeOffset + n,
                      currEncodedLen := s.currEncodedLen + (hdr.length + n) }
    (hdr ++ data,
      if s.writeOffset = total then
        { s with writeOffset := 0, phase := .findingSeqLength,
                 rle := { s.rle with writeInfo := Rle.WriteInfo.zero } }
      else s)

/-- `prv_data_source_rle_build_msg_incremental`, memfault_data_source_rle.c:142-179: the bytes put
into a buffer with `room` bytes. -/
def buildMsg (msg : Bytes) (s : State) (room : Nat) : Option (Bytes × State) :=
  if ¬ s.rle.writeInfo.available then some ([], s)
  else if s.writeOffset < s.rle.writeInfo.header.length then
    let hdr := (s.rle.writeInfo.header.drop s.writeOffset).take room
    let s' := { s with writeOffset := s.writeOffset + hdr.length }
    if room - hdr.length = 0 then
      some (hdr, { s' with currEncodedLen := s.currEncodedLen + hdr.length })
    else buildData msg s' hdr (room - hdr.length)
  else buildData msg s [] room

/-- A read in progress: the source's state, the bytes already in the caller's buffer and the room
left in it. -/
structure Progress where
  state : State
  out : Bytes
  room : Nat
  deriving Repr, DecidableEq

/-- `prv_data_source_rle_fill_msg`, memfault_data_source_rle.c:181-186. -/
def fillMsg (msg : Bytes) (p : Progress) : Option Progress :=
  (buildMsg msg p.state p.room).map fun r => ⟨r.2, p.out ++ r.1, p.room - r.1.length⟩

/-- One iteration of the `while` of `prv_data_source_rle_read`, memfault_data_source_rle.c:202-217,
up to the test whether the buffer is full. -/
def readStep (msg : Bytes) (p : Progress) : Option Progress :=
  (memcpyOut msg (backingReadOffset p.state)
    (min (p.state.originalSize - p.state.bytesProcessed) tempBufSize)).bind fun buf =>
  (readMsgPrepare p.state buf).bind fun s => fillMsg msg { p with state := s }

/-- The `while` of `prv_data_source_rle_read` and what follows it,
memfault_data_source_rle.c:202-221. -/
def readLoop (msg : Bytes) : Nat → Progress → Option Progress
  | fuel, p =>
    if p.state.bytesProcessed = p.state.originalSize then
      (readMsgPrepare p.state []).bind fun s => fillMsg msg { p with state := s }
    else match fuel with
      | 0 => none
      | fuel + 1 => (readStep msg p).bind fun p => if p.room = 0 then some p else readLoop msg fuel p

/-- `memfault_data_source_rle_read_msg` (`prv_data_source_rle_read`),
memfault_data_source_rle.c:188-222: whether it succeeded and the bytes written to the buffer. -/
def readMsg (msg : Bytes) (s : State) (offset len : Nat) : Option (Bool × Bytes × State) :=
  if offset ≠ s.currEncodedLen then some (false, [], s)
  else
    (fillMsg msg ⟨s, [], len⟩).bind fun p =>
    if p.room = 0 then some (true, p.out, p.state)
    else (readLoop msg (p.state.originalSize - p.state.bytesProcessed) p).map fun p =>
      (true, p.out, p.state)

end Mflt.DataSourceRle
