import Verif.Model.Varint

/-!
# Model of `components/util/src/memfault_rle.c`

Offsets and counters (`uint32_t`/`size_t`) are natural numbers that are never reduced modulo 2^32
except where the code subtracts or negates; the theorems are for streams below 2^31 bytes, where
the other counters cannot wrap.
-/

namespace Mflt.Rle

/-- `eMemfaultRleState`, util/rle.h:28-32. -/
inductive State
  | init
  | repeatSeq
  | nonRepeatSeq
  deriving Repr, DecidableEq

/-- `sMemfaultRleWriteInfo`, util/rle.h:34-46. `header` holds the `header_len` valid bytes. -/
structure WriteInfo where
  available : Bool
  header : Bytes
  writeStartOffset : Nat
  writeLen : Nat
  deriving Repr, DecidableEq

/-- All-zero write info. -/
def WriteInfo.zero : WriteInfo := ⟨false, [], 0, 0⟩

/-- `sMemfaultRleCtx`, util/rle.h:48-80. -/
structure Ctx where
  totalRleSize : Nat
  writeInfo : WriteInfo
  lastByte : UInt8
  seqStartOffset : Nat
  state : State
  seqCount : Nat
  numRepeats : Nat
  currOffset : Nat
  deriving Repr, DecidableEq

/-- A zero-initialised context, as callers are told to start from. -/
def Ctx.zero : Ctx := ⟨0, WriteInfo.zero, 0, 0, .init, 0, 0, 0⟩

/-- Unsigned 32-bit subtraction. -/
def usub32 (a b : Nat) : Nat := (a + 2 ^ 32 - b) % 2 ^ 32

/-- `prv_handle_rle_change`, memfault_rle.c:19-43. `none` would be an overflow of the 5-byte header. -/
def handleChange (ctx : Ctx) : Option Ctx :=
  let repeated := ctx.state = .repeatSeq
  let writeLen := if repeated then 1 else ctx.seqCount
  let rleSize : BitVec 32 :=
    if repeated then BitVec.ofNat 32 ctx.seqCount else -(BitVec.ofNat 32 ctx.seqCount)
  (Varint.encodeSi32 rleSize).map fun header =>
    let ctx := { ctx with
      writeInfo := { available := true, header := header, writeStartOffset := ctx.seqStartOffset,
                     writeLen := writeLen }
      totalRleSize := ctx.totalRleSize + (header.length + writeLen) }
    if repeated then
      { ctx with seqStartOffset := ctx.currOffset, seqCount := 0 }
    else
      { ctx with seqStartOffset := usub32 ctx.currOffset ctx.numRepeats, seqCount := ctx.numRepeats }

/-- `memfault_rle_encode_finalize`, memfault_rle.c:45-47. -/
def finalize (ctx : Ctx) : Option Ctx := handleChange ctx

/-- One iteration of the loop of `memfault_rle_encode` (without the final `break` test),
memfault_rle.c:61-108. -/
def stepByte (ctx : Ctx) (byte : UInt8) : Option Ctx := do
  let isRepeatSeq := ctx.currOffset ≠ 0 ∧ ctx.lastByte = byte
  let ctx := { ctx with numRepeats := if isRepeatSeq then ctx.numRepeats + 1 else 0 }
  let ctx ← match ctx.state with
    | .repeatSeq =>
      (if ¬ isRepeatSeq then handleChange ctx else some ctx).map
        fun ctx => { ctx with state := .nonRepeatSeq }
    | .nonRepeatSeq =>
      if isRepeatSeq ∧ ctx.numRepeats ≥ 2 then
        handleChange { ctx with seqCount := usub32 ctx.seqCount ctx.numRepeats }
      else some ctx
    | .init => some { ctx with state := .nonRepeatSeq }
  let ctx := if ctx.numRepeats ≥ 1 ∧ ctx.seqCount = ctx.numRepeats then
    { ctx with state := .repeatSeq } else ctx
  return { ctx with lastByte := byte, seqCount := ctx.seqCount + 1,
                    currOffset := ctx.currOffset + 1 }

/-- The loop of `memfault_rle_encode`, memfault_rle.c:60-112. -/
def encodeLoop (ctx : Ctx) : Bytes → Option Ctx
  | [] => some ctx
  | b :: bs => do
    let ctx ← stepByte ctx b
    if ctx.writeInfo.available then return ctx else encodeLoop ctx bs

/-- `memfault_rle_encode`, memfault_rle.c:49-115: number of bytes processed and new context. A null
buffer is the empty list. -/
def encode (ctx : Ctx) (buf : Bytes) : Option (Nat × Ctx) :=
  if buf.length = 0 then some (0, ctx)
  else do
    let startOffset := ctx.currOffset
    let ctx ← encodeLoop { ctx with writeInfo := WriteInfo.zero } buf
    return (usub32 ctx.currOffset startOffset, ctx)

end Mflt.Rle
