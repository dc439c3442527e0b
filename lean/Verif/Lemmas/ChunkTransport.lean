import Verif.Model.ChunkTransport
import Verif.Spec.Chunk
import Verif.Spec.ChunkClient
import Verif.Props.Varint
import Verif.Props.Crc16
import Verif.Lemmas.Mem

/-! # One call of the chunk transport -/

namespace Mflt.Chunk

open Mflt.Props Mflt.Spec.Crc16

/-- The two CRC bytes of a message, least significant first. -/
def crcBytes (msg : Bytes) : Bytes :=
  [UInt8.ofNat ((crc 0 msg).toNat % 256), UInt8.ofNat ((crc 0 msg).toNat / 256)]

theorem crc_append (s : BitVec 16) (a b : Bytes) : crc s (a ++ b) = crc (crc s a) b := by
  unfold crc; rw [List.flatMap_append, List.foldl_append]

theorem finish {σ : Type} (read : Reader σ) (msg : Bytes) (ready : σ → Nat → Prop)
    (hs : Serves read msg ready) (ctx : Ctx) (st : σ) (buf : Bytes) (h9 : 9 ≤ buf.length)
    (p : Plan) (hp : plan ctx buf = some p) (pre rest : Bytes) (hbuf : p.buf = pre ++ rest)
    (hpre : pre.length = p.start) (hr : ready st p.ctx.readOffset)
    (hrange : p.ctx.readOffset + p.bytesToRead ≤ msg.length)
    (hfit : p.bytesToRead + (if p.moreData then 0 else 2) ≤ rest.length)
    (hcrc : p.ctx.crc16Incremental = crc 0 (msg.take p.ctx.readOffset)) :
    ∃ st' chunk pad, chunk = pre ++ (msg.drop p.ctx.readOffset).take p.bytesToRead ++
        (if p.moreData then [] else crcBytes (msg.take (p.ctx.readOffset + p.bytesToRead))) ∧
      pad = List.replicate (p.buf.length - chunk.length) 0xBA ∧
      chunk.length ≤ p.buf.length ∧
      getNextChunk read ctx st buf = some ⟨p.moreData, chunk.length, chunk ++ pad,
        { p.ctx with crc16Incremental := crc 0 (msg.take (p.ctx.readOffset + p.bytesToRead)),
                     readOffset := p.ctx.readOffset + p.bytesToRead }, st'⟩ ∧
      ready st' (p.ctx.readOffset + p.bytesToRead) := by
  obtain ⟨pbuf, start, n, more, pctx⟩ := p
  simp only at *
  subst hbuf
  have hd : ((msg.drop pctx.readOffset).take n).length = n := by simp; omega
  have hstep : ∃ st', ready st' (pctx.readOffset + n) ∧
      readData read ⟨pre ++ rest, start, n, more, pctx⟩ st =
      some ((pre ++ (msg.drop pctx.readOffset).take n) ++ rest.drop n, st',
        crc 0 (msg.take (pctx.readOffset + n)), start + n) := by
    by_cases hn : n = 0
    · subst hn
      refine ⟨st, hr, ?_⟩
      simp [readData, hcrc]
    · obtain ⟨st', r1, r2⟩ := hs st pctx.readOffset n hr (by omega) hrange
      refine ⟨st', r2, ?_⟩
      simp only [readData]
      rw [if_pos hn]
      simp only [r1, Option.bind_eq_bind, Option.bind_some]
      rw [memcpyIn_at hpre (by rw [hd]; omega), hd, (C03_crc_variants_agree _ _).1, hcrc,
        ← crc_append, ← List.take_add]
      rfl
  obtain ⟨st', hr', hst'⟩ := hstep
  generalize (msg.drop pctx.readOffset).take n = D at hd hst' ⊢
  have hl1 : (pre ++ D).length = start + n := by
    rw [List.length_append, hd, hpre]
  refine ⟨st', _, _, rfl, rfl, ?_, ?_, hr'⟩
  · simp only [List.length_append, hd]
    cases more <;> simp_all [crcBytes] <;> omega
  · unfold getNextChunk
    rw [if_neg (by unfold minChunkBufLen; omega)]
    simp only [hp, Option.bind_eq_bind, Option.bind_some, hst', Option.pure_def]
    cases more with
    | true =>
      simp only [if_true] at hfit
      simp only [appendCrc, Bool.not_true, Bool.false_eq_true, if_false, Option.bind_some, if_true,
        List.append_nil]
      rw [memcpyIn_at hl1 (by simp; omega)]
      simp only [Option.bind_some, List.length_append, hd, hpre, List.length_replicate,
        List.length_drop, List.drop_drop]
      rw [List.drop_of_length_le (by omega), List.append_nil]
      congr 4; omega
    | false =>
      simp only [Bool.false_eq_true, if_false] at hfit
      simp only [appendCrc, Bool.not_false, if_true, Bool.false_eq_true, if_false]
      rw [memcpyIn_at hl1 (by simp; omega)]
      simp only [Option.map_some, Option.bind_some]
      rw [memcpyIn_at (by rw [List.length_append, hl1]; rfl) (by simp; omega)]
      simp only [Option.bind_some, List.length_append, hd, hpre, List.length_replicate,
        List.length_drop, List.drop_drop, crcBytes, List.length_cons, List.length_nil]
      rw [List.drop_of_length_le (by omega), List.append_nil]
      congr 4; omega

theorem varint_u32 (k : Nat) (hk : k < 2 ^ 32) :
    ∃ v, Varint.encodeU32 (BitVec.ofNat 32 k) = some v ∧ 1 ≤ v.length ∧ v.length ≤ 5 ∧
      ∀ rest, Spec.Varint.decode (v ++ rest) = some (k, rest) := by
  obtain ⟨v, h1, -, h3, h4, -⟩ := C05_varint_roundtrip (BitVec.ofNat 32 k) []
  refine ⟨v, h1, h3, h4, fun rest => ?_⟩
  obtain ⟨v', g1, g2, -⟩ := C05_varint_roundtrip (BitVec.ofNat 32 k) rest
  rw [h1] at g1; cases g1
  rw [g2, BitVec.toNat_ofNat, Nat.mod_eq_of_lt hk]

/-- Writing the varint at 1 and then the header byte at 0. -/
theorem header_write (buf v : Bytes) (h : UInt8) (hl : 1 + v.length ≤ buf.length) :
    (memcpyIn buf 1 v).bind (fun b => memcpyIn b 0 [h]) =
      some ((h :: v) ++ buf.drop (1 + v.length)) := by
  cases buf with
  | nil => simp at hl
  | cons b bs =>
    simp only [List.length_cons] at hl
    have e := memcpyIn_at (p := [b]) (r := bs) (d := v) (i := 1) rfl (by omega)
    rw [List.singleton_append] at e
    rw [e, Option.bind_some, memcpyIn_zero (by simp)]
    simp [Nat.add_comm 1]

theorem header_write1 (buf v : Bytes) (h : UInt8) (hl : 1 + v.length ≤ buf.length) :
    ∃ rest, (memcpyIn buf 1 v).bind (fun b => memcpyIn b 0 [h]) = some ([h] ++ rest) ∧
      rest.length = buf.length - 1 := by
  refine ⟨v ++ buf.drop (1 + v.length), ?_, by simp; omega⟩
  rw [header_write _ _ _ hl]; rfl

theorem plan_bind {α : Type} (buf v : Bytes) (h : UInt8) (r : Bytes) (k : Bytes → Option α)
    (e : (memcpyIn buf 1 v).bind (fun b => memcpyIn b 0 [h]) = some r) :
    ((memcpyIn buf 1 v).bind fun b => (memcpyIn b 0 [h]).bind k) = k r := by
  rw [← Option.bind_assoc, e, Option.bind_some]

/-- First call, the whole message fits. -/
theorem plan_single (ctx : Ctx) (buf : Bytes) (h0 : ctx.readOffset = 0)
    (hm : ctx.enableMultiCallChunk = false) (h9 : 9 ≤ buf.length) (ht : ctx.totalSize + 3 < 2 ^ 32)
    (hfit : ctx.totalSize + 3 ≤ buf.length) :
    ∃ rest, plan ctx buf = some ⟨[0x08] ++ rest, 1, ctx.totalSize, false,
      { ctx with singleChunkMessageLength := ctx.totalSize + 3 }⟩ ∧ rest.length = buf.length - 1 := by
  obtain ⟨v, v1, v2, v3, v4⟩ := varint_u32 ctx.totalSize (by omega)
  obtain ⟨rest, r1, r2⟩ := header_write1 buf v (buildHdr false false) (by omega)
  refine ⟨rest, ?_, r2⟩
  have hsz : singleMessageChunkSize ctx = ctx.totalSize + 3 := by
    unfold singleMessageChunkSize; rw [Nat.mod_eq_of_lt (by omega)]; omega
  unfold plan
  simp only [h0, if_true, v1, Option.bind_eq_bind, Option.bind_some, hsz, hm, Bool.not_false,
    Bool.and_true]
  rw [decide_eq_false (by omega), plan_bind _ _ _ _ _ r1]
  simp; decide

/-- First call, the message needs several chunks. -/
theorem plan_first (ctx : Ctx) (buf : Bytes) (h0 : ctx.readOffset = 0)
    (hm : ctx.enableMultiCallChunk = false) (h9 : 9 ≤ buf.length) (ht : ctx.totalSize + 3 < 2 ^ 32)
    (hfit : buf.length < ctx.totalSize + 3) :
    ∃ v rest, plan ctx buf = some ⟨(0x48 :: v) ++ rest, 1 + v.length, buf.length - 1 - v.length, true,
        { ctx with singleChunkMessageLength := ctx.totalSize + 3 }⟩ ∧
      rest.length = buf.length - 1 - v.length ∧ 1 ≤ v.length ∧ v.length ≤ 5 ∧
      ∀ r, Spec.Varint.decode (v ++ r) = some (ctx.totalSize, r) := by
  obtain ⟨v, v1, v2, v3, v4⟩ := varint_u32 ctx.totalSize (by omega)
  refine ⟨v, buf.drop (1 + v.length), ?_, by simp; omega, v2, v3, v4⟩
  have hsz : singleMessageChunkSize ctx = ctx.totalSize + 3 := by
    unfold singleMessageChunkSize; rw [Nat.mod_eq_of_lt (by omega)]; omega
  unfold plan
  simp only [h0, if_true, v1, Option.bind_eq_bind, Option.bind_some, hsz, hm, Bool.not_false,
    Bool.and_true]
  rw [decide_eq_true (by omega), plan_bind _ _ _ _ _ (header_write buf v _ (by omega))]
  simp; decide

/-- Later calls. -/
theorem plan_cont (ctx : Ctx) (buf : Bytes) (h0 : ctx.readOffset ≠ 0)
    (hm : ctx.enableMultiCallChunk = false) (h9 : 9 ≤ buf.length) (ht : ctx.readOffset < 2 ^ 32) :
    ∃ v rest n more, plan ctx buf = some ⟨((if more then 0xC0 else 0x80) :: v) ++ rest, 1 + v.length,
        n, more, ctx⟩ ∧ n = min (buf.length - 1 - v.length) (ctx.totalSize - ctx.readOffset) ∧
      more = decide (buf.length - 1 - v.length - n < 2) ∧
      rest.length = buf.length - 1 - v.length ∧ 1 ≤ v.length ∧ v.length ≤ 5 ∧
      ∀ r, Spec.Varint.decode (v ++ r) = some (ctx.readOffset, r) := by
  obtain ⟨v, v1, v2, v3, v4⟩ := varint_u32 ctx.readOffset ht
  refine ⟨v, buf.drop (1 + v.length), _, _, ?_, rfl, rfl, by simp; omega, v2, v3, v4⟩
  unfold plan
  simp only [h0, if_false, hm, Bool.false_eq_true, v1, Option.bind_eq_bind, Option.bind_some]
  rw [plan_bind _ _ _ _ _ (header_write buf v _ (by omega))]
  have : ∀ b, buildHdr b true = if b then 0xC0 else 0x80 := by decide
  rw [this]
  simp

/-- First call in multi-call mode. -/
theorem plan_multi_first (ctx : Ctx) (buf : Bytes) (h0 : ctx.readOffset = 0)
    (hm : ctx.enableMultiCallChunk = true) (h9 : 9 ≤ buf.length) (ht : ctx.totalSize + 3 < 2 ^ 32) :
    ∃ rest, plan ctx buf = some ⟨[0x08] ++ rest, 1, min (buf.length - 1) ctx.totalSize,
        decide (buf.length < ctx.totalSize + 3),
        { ctx with singleChunkMessageLength := ctx.totalSize + 3 }⟩ ∧
      rest.length = buf.length - 1 := by
  obtain ⟨v, v1, v2, v3, v4⟩ := varint_u32 ctx.totalSize (by omega)
  obtain ⟨rest, r1, r2⟩ := header_write1 buf v (buildHdr false false) (by omega)
  refine ⟨rest, ?_, r2⟩
  have hsz : singleMessageChunkSize ctx = ctx.totalSize + 3 := by
    unfold singleMessageChunkSize; rw [Nat.mod_eq_of_lt (by omega)]; omega
  unfold plan
  simp only [h0, if_true, v1, Option.bind_eq_bind, Option.bind_some, hsz, hm, Bool.not_true,
    Bool.and_false]
  rw [plan_bind _ _ _ _ _ r1]
  simp; decide

/-- Later calls in multi-call mode. -/
theorem plan_multi_cont (ctx : Ctx) (buf : Bytes) (h0 : ctx.readOffset ≠ 0)
    (hm : ctx.enableMultiCallChunk = true) :
    plan ctx buf = some ⟨[] ++ buf, 0, min buf.length (ctx.totalSize - ctx.readOffset),
      decide (buf.length - min buf.length (ctx.totalSize - ctx.readOffset) < 2), ctx⟩ := by
  unfold plan
  simp [h0, hm]

end Mflt.Chunk
