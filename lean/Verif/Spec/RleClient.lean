import Verif.Model.Rle

/-!
# The caller's side of the run-length encoder's contract (util/rle.h:82-95)

Feed the stream in pieces; continue after the bytes the encoder says it processed; whenever a write
sequence is available emit its header and the bytes of the original stream it names; finalize.
-/

namespace Mflt.Rle

/-- The bytes a write-info tells the caller to emit. -/
def WriteInfo.bytes (w : WriteInfo) (data : Bytes) : Bytes :=
  w.header ++ (data.drop w.writeStartOffset).take w.writeLen

/-- After a call, if a write sequence is available, append it to the output. The sequence must lie
within the bytes fed so far; `none` if it does not. -/
def collect (fed : Bytes) (w : WriteInfo) (out : Bytes) : Option Bytes :=
  if w.available then
    if w.writeStartOffset + w.writeLen ≤ fed.length then some (out ++ w.bytes fed) else none
  else some out

/-- Feed `data` from position `off` on, offering pieces of (at most) the given sizes. Returns the
context, the position reached and the bytes emitted. -/
def feed (data : Bytes) : List Nat → Ctx → Nat → Bytes → Option (Ctx × Nat × Bytes)
  | [], ctx, off, out => some (ctx, off, out)
  | k :: ks, ctx, off, out =>
    if (data.drop off).take k = [] then feed data ks ctx off out
    else do
      let (n, ctx) ← encode ctx ((data.drop off).take k)
      let out ← collect (data.take (off + n)) ctx.writeInfo out
      feed data ks ctx (off + n) out

/-- Feed, then finalize and emit the last sequence. Returns the context, whether the final call
made a sequence available, the position reached and the output. -/
def encodeAll (data : Bytes) (pieces : List Nat) : Option (Ctx × Nat × Bytes) := do
  let (ctx, off, out) ← feed data pieces Ctx.zero 0 []
  let ctx ← finalize ctx
  let out ← collect (data.take off) ctx.writeInfo out
  return (ctx, off, out)

end Mflt.Rle
