import Verif.Model.Crc16
import Verif.Model.Varint

/-!
# Model of `components/util/src/memfault_chunk_transport.c`

The message reader callback is a function of a state `σ` (some readers keep one); it returns
exactly `buf_len` bytes or is undefined (`none`). `size_t` and `uint32_t` are natural numbers, with
the one addition that can overflow (the single-chunk size) reduced modulo 2^32.
-/

namespace Mflt.Chunk

/-- `MfltChunkTransportMsgReaderCb`, chunk_transport.h:38: read `buf_len` bytes at `offset`. -/
abbrev Reader (σ : Type) := σ → (offset len : Nat) → Option (Bytes × σ)

/-- `sMfltChunkTransportCtx`, chunk_transport.h:41-60 (the callback is passed separately). -/
structure Ctx where
  totalSize : Nat
  enableMultiCallChunk : Bool
  singleChunkMessageLength : Nat
  readOffset : Nat
  crc16Incremental : BitVec 16
  deriving Repr, DecidableEq

/-- `MEMFAULT_MIN_CHUNK_BUF_LEN`, chunk_transport.h:25. -/
def minChunkBufLen : Nat := 9

/-- `prv_build_hdr`, memfault_chunk_transport.c:35-61. -/
def buildHdr (md continuation : Bool) : UInt8 :=
  let bit : Bool → UInt8 := fun b => if b then 1 else 0
  let hdr : UInt8 := (bit continuation <<< 7) ||| (bit md <<< 6)
  if !continuation then hdr ||| ((1 : UInt8) <<< 3) else hdr

/-- `prv_compute_single_message_chunk_size`, memfault_chunk_transport.c:68-70. -/
def singleMessageChunkSize (ctx : Ctx) : Nat := (1 + 2 + ctx.totalSize) % 2 ^ 32

/-- What the first half of `memfault_chunk_transport_get_next_chunk` decides: `(buffer, start
offset, bytes to read, more data, ctx)`. -/
structure Plan where
  buf : Bytes
  start : Nat
  bytesToRead : Nat
  moreData : Bool
  ctx : Ctx
  deriving Repr, DecidableEq

/-- The header part of `memfault_chunk_transport_get_next_chunk`,
memfault_chunk_transport.c:81-131. -/
def plan (ctx : Ctx) (buf : Bytes) : Option Plan :=
  let outBufLen := buf.length
  if ctx.readOffset = 0 then do
    let varint ← Varint.encodeU32 (BitVec.ofNat 32 ctx.totalSize)
    let buf ← memcpyIn buf 1 varint
    let single := singleMessageChunkSize ctx
    let moreData := decide (single > outBufLen)
    let md := moreData && !ctx.enableMultiCallChunk
    let ctx := { ctx with singleChunkMessageLength := single }
    let buf ← memcpyIn buf 0 [buildHdr md false]
    if md then
      pure ⟨buf, 1 + varint.length, outBufLen - 1 - varint.length, moreData, ctx⟩
    else if ctx.enableMultiCallChunk then
      pure ⟨buf, 1, min (outBufLen - 1) ctx.totalSize, moreData, ctx⟩
    else
      pure ⟨buf, 1, ctx.totalSize, moreData, ctx⟩
  else if ctx.enableMultiCallChunk then
    let bytesRemaining := ctx.totalSize - ctx.readOffset
    let bytesToRead := min outBufLen bytesRemaining
    pure ⟨buf, 0, bytesToRead, decide (outBufLen - bytesToRead < 2), ctx⟩
  else do
    let varint ← Varint.encodeU32 (BitVec.ofNat 32 ctx.readOffset)
    let buf ← memcpyIn buf 1 varint
    let bytesRemaining := ctx.totalSize - ctx.readOffset
    let space := outBufLen - 1 - varint.length
    let bytesToRead := min space bytesRemaining
    let moreData := decide (space - bytesToRead < 2)
    let buf ← memcpyIn buf 0 [buildHdr moreData true]
    pure ⟨buf, 1 + varint.length, bytesToRead, moreData, ctx⟩

/-- Result of one call. -/
structure Result (σ : Type) where
  moreData : Bool
  outBufLen : Nat
  buf : Bytes
  ctx : Ctx
  reader : σ
  deriving Repr, DecidableEq

/-- Reading the message part of a chunk, memfault_chunk_transport.c:133-139: new buffer, reader
state, CRC and write offset. -/
def readData {σ : Type} (read : Reader σ) (p : Plan) (st : σ) :
    Option (Bytes × σ × BitVec 16 × Nat) :=
  if p.bytesToRead ≠ 0 then do
    let (data, st) ← read st p.ctx.readOffset p.bytesToRead
    let buf ← memcpyIn p.buf p.start data
    let crc ← Crc16.computeTable p.ctx.crc16Incremental data
    return (buf, st, crc, p.start + p.bytesToRead)
  else some (p.buf, st, p.ctx.crc16Incremental, p.start)

/-- Appending the CRC to the last chunk, memfault_chunk_transport.c:141-148. -/
def appendCrc (moreData : Bool) (buf : Bytes) (crc : BitVec 16) (start : Nat) :
    Option (Bytes × Nat) :=
  if !moreData then
    (memcpyIn buf start [UInt8.ofNat (crc.toNat % 256), UInt8.ofNat (crc.toNat / 256)]).map
      fun buf => (buf, start + 2)
  else some (buf, start)

/-- `memfault_chunk_transport_get_next_chunk`, memfault_chunk_transport.c:72-173. `buf` is the
caller's buffer, of length `*out_buf_len`. `none` is a write outside of it (or a failing reader). -/
def getNextChunk {σ : Type} (read : Reader σ) (ctx : Ctx) (st : σ) (buf : Bytes) :
    Option (Result σ) :=
  if buf.length < minChunkBufLen then some ⟨true, 0, buf, ctx, st⟩
  else do
    let p ← plan ctx buf
    let (buf, st, crc, start) ← readData read p st
    let (buf, start) ← appendCrc p.moreData buf crc start
    let ctx := { p.ctx with crc16Incremental := crc, readOffset := p.ctx.readOffset + p.bytesToRead }
    let buf ← memcpyIn buf start (List.replicate (buf.length - start) 0xBA)
    pure ⟨p.moreData, start, buf, ctx, st⟩

/-- `memfault_chunk_transport_get_chunk_info`, memfault_chunk_transport.c:175-182. -/
def getChunkInfo (ctx : Ctx) : Ctx :=
  if ctx.readOffset ≠ 0 then ctx
  else { ctx with singleChunkMessageLength := singleMessageChunkSize ctx }

/-- A context for a fresh message. -/
def Ctx.start (totalSize : Nat) (multi : Bool) : Ctx := ⟨totalSize, multi, 0, 0, 0⟩

end Mflt.Chunk
