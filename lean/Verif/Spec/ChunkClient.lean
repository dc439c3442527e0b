import Verif.Model.ChunkTransport

/-! # The user of the chunk transport: call it with one buffer after another until it is done -/

namespace Mflt.Chunk

/-- A reader serves a message: in every state that is ready at an offset, reading from there inside
the message gives the message's bytes and a state ready after them. A stateless reader of a stored
message is the case where every state is always ready. Nothing is promised about reads that go
past the end of the message. -/
def Serves {σ : Type} (read : Reader σ) (msg : Bytes) (ready : σ → Nat → Prop) : Prop :=
  ∀ st off n, ready st off → 0 < n → off + n ≤ msg.length →
    ∃ st', read st off n = some ((msg.drop off).take n, st') ∧ ready st' (off + n)

/-- The reader of a message held in memory. -/
def memReader (msg : Bytes) : Reader Unit := fun _ off n => (memcpyOut msg off n).map (·, ())

/-- What one call left behind: the caller's buffer and the length it was told to use. -/
structure Call where
  buf : Bytes
  len : Nat
  deriving Repr, DecidableEq

/-- The chunk the caller sends. -/
def Call.chunk (c : Call) : Bytes := c.buf.take c.len

/-- Call `memfault_chunk_transport_get_next_chunk` with the given buffers until it says that there
is no more data. Returns the calls made, whether it finished, and the final states. -/
def send {σ : Type} (read : Reader σ) :
    List Bytes → Ctx → σ → Option (List Call × Bool × Ctx × σ)
  | [], ctx, st => some ([], false, ctx, st)
  | b :: bs, ctx, st => do
    let r ← getNextChunk read ctx st b
    if r.moreData then
      let (cs, fin, ctx, st) ← send read bs r.ctx r.reader
      return (⟨r.buf, r.outBufLen⟩ :: cs, fin, ctx, st)
    else return ([⟨r.buf, r.outBufLen⟩], true, r.ctx, r.reader)

end Mflt.Chunk
