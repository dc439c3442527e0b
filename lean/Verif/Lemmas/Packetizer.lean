import Verif.Lemmas.DataSourceRle
import Verif.Props.ChunkTransport
import Verif.Spec.Packetizer

/-! # Lemmas about the packetizer -/

namespace Mflt.Chunk

/-- One more call after a sequence of calls that did not finish. -/
theorem send_snoc {σ : Type} (read : Reader σ) (b : Bytes) (bufs : List Bytes) :
    ∀ (ctx : Ctx) (st : σ) (calls : List Call) (ctx' : Ctx) (st' : σ),
    send read bufs ctx st = some (calls, false, ctx', st') →
    calls.length = bufs.length ∧
    send read (bufs ++ [b]) ctx st = (getNextChunk read ctx' st' b).map fun r =>
      (calls ++ [⟨r.buf, r.outBufLen⟩], !r.moreData, r.ctx, r.reader) := by
  induction bufs with
  | nil =>
    intro ctx st calls ctx' st' h
    simp only [send, Option.some.injEq, Prod.mk.injEq] at h
    obtain ⟨rfl, -, rfl, rfl⟩ := h
    refine ⟨rfl, ?_⟩
    simp only [List.nil_append, send]
    cases getNextChunk read ctx st b with
    | none => rfl
    | some r => cases hm : r.moreData <;> simp [hm]
  | cons a as ih =>
    intro ctx st calls ctx' st' h
    simp only [send, Option.bind_eq_bind, List.cons_append] at h ⊢
    cases hr : getNextChunk read ctx st a with
    | none => simp [hr] at h
    | some r =>
      simp only [hr, Option.bind_some] at h ⊢
      cases hm : r.moreData with
      | false => simp [hm] at h
      | true =>
        simp only [hm, if_true] at h ⊢
        cases hs : send read as r.ctx r.reader with
        | none => simp [hs] at h
        | some q =>
          obtain ⟨cs, f, c, t⟩ := q
          simp only [hs, Option.bind_some, Option.pure_def, Option.some.injEq, Prod.mk.injEq] at h
          obtain ⟨rfl, rfl, rfl, rfl⟩ := h
          obtain ⟨i1, i2⟩ := ih _ _ _ _ _ hs
          refine ⟨by simp [i1], ?_⟩
          rw [i2]
          cases getNextChunk read c t b <;> rfl

/-- What a call does to the context. -/
theorem plan_ctx {ctx : Ctx} {buf : Bytes} {p : Plan} (h : plan ctx buf = some p) :
    p.ctx.enableMultiCallChunk = ctx.enableMultiCallChunk ∧ p.ctx.readOffset = ctx.readOffset ∧
    p.ctx.totalSize = ctx.totalSize ∧
    p.ctx.singleChunkMessageLength = (if ctx.readOffset = 0 then singleMessageChunkSize ctx
      else ctx.singleChunkMessageLength) ∧
    (ctx.readOffset = 0 → 9 ≤ buf.length → 0 < ctx.totalSize → 0 < p.bytesToRead) := by
  unfold plan at h
  by_cases h0 : ctx.readOffset = 0
  · simp only [h0, if_true, Option.bind_eq_bind] at h
    obtain ⟨v, v1, -, v3, -⟩ := varint_u32 (ctx.totalSize % 2 ^ 32) (Nat.mod_lt _ (by decide))
    have hv : BitVec.ofNat 32 (ctx.totalSize % 2 ^ 32) = BitVec.ofNat 32 ctx.totalSize := by
      apply BitVec.eq_of_toNat_eq; simp
    rw [hv] at v1
    rw [v1, Option.bind_some] at h
    cases h1 : memcpyIn buf 1 v with
    | none => simp [h1] at h
    | some b1 =>
      simp only [h1, Option.bind_some] at h
      generalize hmd : (decide (singleMessageChunkSize ctx > buf.length) &&
        !ctx.enableMultiCallChunk) = md at h
      cases h2 : memcpyIn b1 0 [buildHdr md false] with
      | none => simp [h2] at h
      | some b2 =>
        simp only [h2, Option.bind_some] at h
        cases md with
        | true =>
          simp only [if_true, Option.pure_def, Option.some.injEq] at h
          subst h
          refine ⟨by simp [*], h0.symm, rfl, by simp [h0], fun _ h9 ht => ?_⟩
          simp only; omega
        | false =>
          simp only [Bool.false_eq_true, if_false] at h
          cases hm : ctx.enableMultiCallChunk with
          | true =>
            simp only [hm, if_true, Option.pure_def, Option.some.injEq] at h
            subst h
            refine ⟨by simp [*], h0.symm, rfl, by simp [h0], fun _ h9 ht => ?_⟩
            simp only; omega
          | false =>
            simp only [hm, Bool.false_eq_true, if_false, Option.pure_def, Option.some.injEq] at h
            subst h
            exact ⟨by simp [*], h0.symm, rfl, by simp [h0], fun _ _ ht => ht⟩
  · simp only [h0, if_false] at h ⊢
    cases hm : ctx.enableMultiCallChunk with
    | true =>
      simp only [hm, if_true, Option.pure_def, Option.some.injEq] at h
      subst h
      exact ⟨hm, rfl, rfl, rfl, fun hx => hx.elim⟩
    | false =>
      simp only [hm, Bool.false_eq_true, if_false, Option.bind_eq_bind] at h
      cases h1 : Varint.encodeU32 (BitVec.ofNat 32 ctx.readOffset) with
      | none => simp [h1] at h
      | some v =>
        simp only [h1, Option.bind_some] at h
        cases h2 : memcpyIn buf 1 v with
        | none => simp [h2] at h
        | some b1 =>
          simp only [h2, Option.bind_some] at h
          generalize buildHdr (decide (buf.length - 1 - v.length -
            min (buf.length - 1 - v.length) (ctx.totalSize - ctx.readOffset) < 2)) true = hd at h
          cases h3 : memcpyIn b1 0 [hd] with
          | none => simp [h3] at h
          | some b2 =>
            simp only [h3, Option.bind_some, Option.pure_def, Option.some.injEq] at h
            subst h
            exact ⟨hm, rfl, rfl, rfl, fun hx => hx.elim⟩

theorem getNextChunk_ctx {σ : Type} {read : Reader σ} {ctx : Ctx} {st : σ} {buf : Bytes}
    {r : Result σ} (h : getNextChunk read ctx st buf = some r) (h9 : 9 ≤ buf.length)
    (ht : 0 < ctx.totalSize) :
    r.ctx.enableMultiCallChunk = ctx.enableMultiCallChunk ∧ r.ctx.readOffset ≠ 0 ∧
    r.ctx.totalSize = ctx.totalSize ∧
    r.ctx.singleChunkMessageLength = (if ctx.readOffset = 0 then singleMessageChunkSize ctx
      else ctx.singleChunkMessageLength) := by
  unfold getNextChunk at h
  rw [if_neg (by simp only [minChunkBufLen]; omega)] at h
  simp only [Option.bind_eq_bind] at h
  cases h1 : plan ctx buf with
  | none => simp [h1] at h
  | some p =>
    obtain ⟨p1, p2, p3, p4, p5⟩ := plan_ctx h1
    simp only [h1, Option.bind_some] at h
    cases h2 : readData read p st with
    | none => simp [h2] at h
    | some q =>
      simp only [h2, Option.bind_some] at h
      cases h3 : appendCrc p.moreData q.1 q.2.2.1 q.2.2.2 with
      | none => simp [h3] at h
      | some w =>
        simp only [h3, Option.bind_some] at h
        cases h4 : memcpyIn w.1 w.2 (List.replicate (w.1.length - w.2) 0xBA) with
        | none => simp [h4] at h
        | some z =>
          simp only [h4, Option.bind_some, Option.pure_def, Option.some.injEq] at h
          subst h
          refine ⟨p1, ?_, p3, p4⟩
          simp only [p2]
          by_cases h0 : ctx.readOffset = 0
          · have := p5 h0 h9 ht; omega
          · omega

/-- The first call does not depend on whether the announced length was already computed. -/
theorem getNextChunk_info {σ : Type} (read : Reader σ) (total : Nat) (multi : Bool) (st : σ)
    (buf : Bytes) (h9 : 9 ≤ buf.length) :
    getNextChunk read (getChunkInfo (Ctx.start total multi)) st buf =
      getNextChunk read (Ctx.start total multi) st buf := by
  unfold getNextChunk
  rw [if_neg (by simp only [minChunkBufLen]; omega), if_neg (by simp only [minChunkBufLen]; omega)]
  rfl

end Mflt.Chunk

namespace Mflt.Packetizer

open Mflt.Chunk Mflt.Spec.Packetizer

/-- A source that serves `body`. -/
def SourceServes {σ : Type} (src : σ → Nat → Bytes → Option (Bool × Bytes × σ)) (body : Bytes)
    (rdy : σ → Nat → Prop) : Prop :=
  ∀ st off (buf : Bytes), rdy st off → 0 < buf.length → off + buf.length ≤ body.length →
    ∃ st', src st off buf = some (true, (body.drop off).take buf.length, st') ∧
      rdy st' (off + buf.length)

theorem msgReader_eq {σ : Type} {src : σ → Nat → Bytes → Option (Bool × Bytes × σ)} {body : Bytes}
    {rdy : σ → Nat → Prop} (hs : SourceServes src body rdy) (hdr : Bytes) (st : σ) (off : Nat)
    (buf : Bytes) (hr : rdy st (off - hdr.length)) (hb : off + buf.length ≤ (hdr ++ body).length) :
    ∃ st', msgReader hdr src st off buf = some (((hdr ++ body).drop off).take buf.length, st') ∧
      rdy st' (off + buf.length - hdr.length) := by
  rw [List.length_append] at hb
  unfold msgReader readBody
  by_cases ho : off < hdr.length
  · rw [if_pos ho]
    dsimp only
    by_cases hl : buf.length ≤ hdr.length - off
    · rw [Nat.min_eq_right hl, if_pos (by simp)]
      refine ⟨st, ?_, by rw [show off + buf.length - hdr.length = off - hdr.length by omega]; exact hr⟩
      rw [List.drop_append_of_le_length (by omega), List.take_append_of_le_length (by simp; omega)]
    · rw [Nat.min_eq_left (by omega), if_neg (by simp; omega)]
      obtain ⟨st', e1, e2⟩ := hs st 0 (buf.drop (hdr.length - off))
        (by rw [show off - hdr.length = 0 by omega] at hr; exact hr) (by simp; omega) (by simp; omega)
      refine ⟨st', ?_, ?_⟩
      · rw [e1, Option.map_some]
        simp only [if_true, List.drop_zero, List.length_drop]
        rw [List.drop_append_of_le_length (by omega), List.take_append, List.length_drop,
          List.take_of_length_le (i := hdr.length - off) (by simp),
          List.take_of_length_le (i := buf.length) (by simp; omega)]
      · rw [show off + buf.length - hdr.length = 0 + (buf.drop (hdr.length - off)).length by
          simp; omega]
        exact e2
  · rw [if_neg ho]
    by_cases hl : buf.length = 0
    · rw [if_pos hl]
      refine ⟨st, by simp [hl], by rw [hl]; exact hr⟩
    · rw [if_neg hl]
      obtain ⟨st', e1, e2⟩ := hs st (off - hdr.length) buf hr (by omega) (by omega)
      refine ⟨st', ?_, by rw [show off + buf.length - hdr.length = off - hdr.length + buf.length by omega]; exact e2⟩
      rw [e1, Option.map_some]
      simp only [if_true, List.nil_append]
      rw [List.drop_append, List.drop_of_length_le (l := hdr) (by omega), List.nil_append]

/-- The reader handed to the transport serves header and body. -/
theorem reader_serves {cfg : Config} {queue : Src → List Bytes} {ra : Option Src} {a : Active}
    {body : Bytes} {rdy : DataSourceRle.State → Nat → Prop}
    (hs : SourceServes (sourceRead queue ra a) body rdy) :
    Serves (reader cfg queue ra a) (header cfg a ++ body)
      (fun st off => rdy st (off - (header cfg a).length)) := by
  intro st off n hr hn hb
  obtain ⟨st', e1, e2⟩ := msgReader_eq hs (header cfg a) st off (List.replicate n 0) hr
    (by simpa using hb)
  rw [List.length_replicate] at e1 e2
  exact ⟨st', e1, e2⟩

theorem mem_source_serves {queue : Src → List Bytes} {ra : Option Src} {src : Src} {m : Bytes}
    {rest : List Bytes} (hq : queue src = m :: rest) :
    SourceServes (sourceRead queue ra ⟨src, false⟩) m (fun _ _ => True) := by
  intro st off buf _ _ hb
  refine ⟨st, ?_, trivial⟩
  simp only [sourceRead, Bool.false_eq_true, if_false, hq, List.head?_cons, Option.bind_some,
    memcpyOut, if_pos hb, Option.map_some]

theorem rle_source_serves {queue : Src → List Bytes} {src : Src} {m E : Bytes}
    {rest : List Bytes} (hq : queue src = m :: rest) (hm : m.length < 2 ^ 31) :
    SourceServes (sourceRead queue (some src) ⟨src, true⟩) E
      (fun st off => DataSourceRle.Ready m E st off) := by
  intro st off buf hr h0 hb
  obtain ⟨st', e1, e2⟩ := hr.read hm h0 hb
  refine ⟨st', ?_, e2⟩
  have hl : ((E.drop off).take buf.length).length = buf.length := by simp; omega
  simp only [sourceRead, if_true, hq, List.head?_cons, Option.bind_some, e1, Option.map_some, hl,
    List.drop_length, List.append_nil]

theorem empty_source_serves {queue : Src → List Bytes} {ra : Option Src} {a : Active} :
    SourceServes (sourceRead queue ra a) [] (fun _ _ => True) := by
  intro st off buf _ h0 hb
  simp only [List.length_nil] at hb; omega

theorem reader_congr (cfg : Config) {q q' : Src → List Bytes} {ra : Option Src} {a : Active}
    (h1 : (q' a.src).head? = (q a.src).head?) (h2 : a.rle = true → ra = some a.src) :
    reader cfg q' ra a = reader cfg q ra a := by
  have : sourceRead q' ra a = sourceRead q ra a := by
    funext st off buf
    unfold sourceRead
    cases hr : a.rle with
    | false => simp only [Bool.false_eq_true, if_false, h1]
    | true => simp only [if_true, h2 hr, Option.bind_some, h1]
  funext st off n
  unfold reader
  rw [this]

theorem type_code (src : Src) : src.type = code src := by cases src <;> rfl

theorem mask_test (src : Src) (mask : Nat) :
    (1 <<< src.type) &&& mask = 0 ↔ mask.testBit (code src) = false := by
  rw [type_code, Nat.one_shiftLeft]
  constructor
  · intro h
    have := congrArg (fun n => n.testBit (code src)) h
    simpa [Nat.testBit_and, Nat.testBit_two_pow_self] using this
  · intro h
    apply Nat.eq_of_testBit_eq
    intro i
    rw [Nat.testBit_and, Nat.testBit_two_pow, Nat.zero_testBit]
    by_cases hi : code src = i
    · subst hi; simp [h]
    · simp [hi]

/-- The active source the packetizer selects for `src`. -/
def activeOf (cfg : Config) (src : Src) : Active := ⟨src, encoded cfg src⟩

theorem header_eq (cfg : Config) (src : Src) : header cfg (activeOf cfg src) =
    UInt8.ofNat (code src + (if encoded cfg src then 128 else 0) +
      (if cfg.key.isSome then 64 else 0)) :: cfg.key.getD [] := by
  unfold header activeOf
  cases hk : cfg.key <;> cases src <;> cases hr : cfg.rleEnabled <;>
    simp [encoded, code, Src.type, hr]

/-- Idle state of the RLE wrapper. -/
def RleIdle (cfg : Config) (s : State) : Prop :=
  s.rleActive = none ∨ (cfg.rleEnabled = true ∧ s.rleActive = some .coredump ∧
    (DataSourceRle.Fresh s.rle ∨ ∃ m rest c E, s.queue .coredump = m :: rest ∧ m ≠ [] ∧
      DataSourceRle.completes m 0 Rle.Ctx.zero [] = some (c, E) ∧
      DataSourceRle.Ready m E s.rle 0))

/-- What selecting a source for sending establishes. -/
structure Selected (cfg : Config) (s : State) (src : Src) (m message : Bytes) : Prop where
  isMessage : IsMessage cfg src m message
  len : message.length ≤ m.length + m.length / 64 + 2 + (cfg.key.getD []).length
  ra : encoded cfg src = true → s.rleActive = some src
  serves : ∃ ready, Serves (reader cfg s.queue s.rleActive (activeOf cfg src)) message ready ∧
    ready s.rle 0

theorem selected_plain {cfg : Config} {s : State} {src : Src} {m : Bytes} {rest : List Bytes}
    (he : encoded cfg src = false) (hq : s.queue src = m :: rest) :
    Selected cfg s src m (header cfg (activeOf cfg src) ++ m) := by
  have ha : activeOf cfg src = ⟨src, false⟩ := by simp [activeOf, he]
  refine ⟨⟨m, by rw [header_eq]; rfl, by simp [he]⟩, ?_, by simp [he], _,
    reader_serves (rdy := fun _ _ => True) ?_, trivial⟩
  · rw [header_eq]; simp; omega
  · rw [ha]; exact mem_source_serves hq

/-- Same packetizer state and sources, only the RLE wrapper may have moved. -/
structure SameButRle (s s' : State) : Prop where
  queue : s'.queue = s.queue
  mask : s'.mask = s.mask
  msg : s'.msg = s.msg
  ctx : s'.ctx = s.ctx

theorem getSource_plain (cfg : Config) (s : State) (S : Spec.Packetizer.State)
    (hq : S.queue = s.queue) (hm : S.mask = s.mask) (l : List Src)
    (hl : ∀ x ∈ l, x.useRle = false ∨ cfg.rleEnabled = false)  :
    getSourceWithData cfg l s = some ((l.find? (sendable S)).map
      (fun src => (⟨src, false⟩, ((s.queue src).head?.map List.length).getD 0)), s) := by
  induction l with
  | nil => rfl
  | cons x xs ih =>
    have ih := ih (fun y hy => hl y (by simp [hy]))
    unfold getSourceWithData
    have hx : (if x.useRle = true then setRleActive cfg s (some x) else (false, s)) = (false, s) := by
      rcases hl x (by simp) with h | h
      · simp [h]
      · simp [setRleActive, h]
    by_cases hmask : (1 <<< x.type) &&& s.mask = 0
    · rw [if_pos hmask, ih, List.find?_cons_of_neg]
      simp [sendable, hm, (mask_test x s.mask).mp hmask]
    · rw [if_neg hmask]
      have htb : s.mask.testBit (code x) = true := by
        cases h : s.mask.testBit (code x)
        · exact absurd ((mask_test x s.mask).mpr h) hmask
        · rfl
      simp only [hx, hasMore, Bool.false_eq_true, if_false, Option.bind_some]
      cases hqx : s.queue x with
      | nil =>
        simp only [List.head?_nil, Option.map_none]
        rw [ih, List.find?_cons_of_neg]
        simp [sendable, hq, hqx]
      | cons m rest =>
        simp only [List.head?_cons, Option.map_some]
        rw [List.find?_cons_of_pos (by simp [sendable, hm, htb, hq, hqx])]
        simp [hqx]

/-- Looking for something to send, in an idle state. -/
theorem getSource_eq (cfg : Config) (s : State) (S : Spec.Packetizer.State)
    (hq : S.queue = s.queue) (hm : S.mask = s.mask) (hi : RleIdle cfg s)
    (hsmall : ∀ src, ∀ m ∈ s.queue src, m.length < 2 ^ 30) :
    ∃ r s', getSourceWithData cfg sources s = some (r, s') ∧ SameButRle s s' ∧ RleIdle cfg s' ∧
      ((r = none ∧ pick S = none) ∨
        ∃ src m rest message size, r = some (activeOf cfg src, size) ∧ pick S = some src ∧
          s.queue src = m :: rest ∧ Selected cfg s' src m message ∧
          message.length = size + (header cfg (activeOf cfg src)).length) := by
  -- the sources after the coredump source
  have hplain : ∀ (s1 : State) (l : List Src), s1.queue = s.queue → s1.mask = s.mask →
      s1.msg = s.msg → s1.ctx = s.ctx → RleIdle cfg s1 →
      (∀ x ∈ l, x.useRle = false ∨ cfg.rleEnabled = false) → (∀ x ∈ l, encoded cfg x = false) →
      ∃ r s', getSourceWithData cfg l s1 = some (r, s') ∧ SameButRle s s' ∧ RleIdle cfg s' ∧
        ((r = none ∧ l.find? (sendable S) = none) ∨
          ∃ src m rest message size, r = some (activeOf cfg src, size) ∧
            l.find? (sendable S) = some src ∧
            s.queue src = m :: rest ∧ Selected cfg s' src m message ∧
            message.length = size + (header cfg (activeOf cfg src)).length) := by
    intro s1 l h1 h2 h3 h4 h5 h6 h7
    have hg := getSource_plain cfg s1 S (by rw [hq, h1]) (by rw [hm, h2]) l h6
    refine ⟨_, s1, hg, ⟨h1, h2, h3, h4⟩, h5, ?_⟩
    cases hf : l.find? (sendable S) with
    | none => exact Or.inl ⟨rfl, rfl⟩
    | some src =>
      right
      have he := h7 src (List.mem_of_find?_eq_some hf)
      have hsend := List.find?_some hf
      have : s.queue src ≠ [] := by
        simp only [sendable, hq, Bool.and_eq_true] at hsend
        intro hx; rw [hx] at hsend; simp at hsend
      obtain ⟨m, rest, hmr⟩ := List.exists_cons_of_ne_nil this
      refine ⟨src, m, rest, header cfg (activeOf cfg src) ++ m, m.length, ?_, rfl, hmr,
        selected_plain he (by rw [h1]; exact hmr), by simp; omega⟩
      simp [h1, hmr, activeOf, he]
  cases hre : cfg.rleEnabled with
  | false =>
    exact hplain s sources rfl rfl rfl rfl hi (fun x _ => Or.inr hre)
      (fun x _ => by simp [encoded, hre])
  | true =>
    have hrest : ∀ x ∈ [Src.event, Src.log, Src.cdr], x.useRle = false ∨ cfg.rleEnabled = false := by
      intro x hx; left; revert hx; cases x <;> simp [Src.useRle]
    have hrest' : ∀ x ∈ [Src.event, Src.log, Src.cdr], encoded cfg x = false := by
      intro x hx; revert hx; cases x <;> simp [encoded]
    have hskip : sendable S .coredump = false →
        pick S = [Src.event, Src.log, Src.cdr].find? (sendable S) := by
      intro h; unfold pick; rw [List.find?_cons_of_neg (by simp [h])]
    unfold sources getSourceWithData
    by_cases hmask : (1 <<< Src.coredump.type) &&& s.mask = 0
    · rw [if_pos hmask]
      have hns : sendable S .coredump = false := by
        simp [sendable, hm, (mask_test _ _).mp hmask]
      rw [hskip hns]
      exact hplain s _ rfl rfl rfl rfl hi hrest hrest'
    · rw [if_neg hmask]
      have htb : s.mask.testBit (code .coredump) = true := by
        cases h : s.mask.testBit (code .coredump)
        · exact absurd ((mask_test _ s.mask).mpr h) hmask
        · rfl
      -- selecting the wrapper
      obtain ⟨s1, hs1, q1, m1, g1, c1, ra1, hfr⟩ : ∃ s1, (if Src.coredump.useRle = true then
            setRleActive cfg s (some .coredump) else (false, s)) = (true, s1) ∧
          s1.queue = s.queue ∧ s1.mask = s.mask ∧ s1.msg = s.msg ∧ s1.ctx = s.ctx ∧
          s1.rleActive = some .coredump ∧
          (DataSourceRle.Fresh s1.rle ∨ ∃ m rest c E, s1.queue .coredump = m :: rest ∧ m ≠ [] ∧
            DataSourceRle.completes m 0 Rle.Ctx.zero [] = some (c, E) ∧
            DataSourceRle.Ready m E s1.rle 0) := by
        simp only [Src.useRle, if_true, setRleActive, hre, Bool.not_true, Bool.false_eq_true, if_false]
        rcases hi with hi | ⟨-, hi, hi2⟩
        · rw [if_neg (by rw [hi]; simp)]
          exact ⟨_, rfl, rfl, rfl, rfl, rfl, rfl, Or.inl DataSourceRle.fresh_zero⟩
        · rw [if_pos hi.symm]
          exact ⟨s, rfl, rfl, rfl, rfl, rfl, hi, hi2⟩
      rw [hs1]
      obtain ⟨q, ra, rl, mk, mg, cx⟩ := s1
      simp only at q1 m1 g1 c1 ra1 hfr
      subst q1 m1 g1 c1 ra1
      simp only [hasMore, if_true, Option.bind_some]
      cases hqc : s.queue .coredump with
      | nil =>
        have hfresh : DataSourceRle.Fresh rl := by
          rcases hfr with h | ⟨m, rest, -, -, h, -⟩
          · exact h
          · rw [hqc] at h; cases h
        simp only [List.head?_nil, DataSourceRle.hasMoreMsgs, Option.map_some, Option.bind_some]
        have hns : sendable S .coredump = false := by simp [sendable, hq, hqc]
        rw [hskip hns]
        refine hplain _ _ rfl rfl rfl rfl (Or.inr ⟨hre, rfl, Or.inl ?_⟩) hrest hrest'
        exact hfresh
      | cons m rest =>
        have hml : m.length < 2 ^ 30 := hsmall .coredump m (by rw [hqc]; simp)
        have hpick : pick S = some .coredump := by
          unfold pick
          rw [List.find?_cons_of_pos (by simp [sendable, hm, htb, hq, hqc])]
        have henc : encoded cfg .coredump = true := by simp [encoded, hre]
        have ha : activeOf cfg .coredump = ⟨.coredump, true⟩ := by simp [activeOf, henc]
        simp only [List.head?_cons]
        by_cases hne : m = []
        · subst hne
          have hfresh : DataSourceRle.Fresh rl := by
            rcases hfr with h | ⟨m, rest', -, -, h, h', -⟩
            · exact h
            · rw [hqc] at h; cases h; exact absurd rfl h'
          obtain ⟨f1, f2, f3, f4, f5⟩ := hfresh
          have hh : DataSourceRle.hasMoreMsgs (some []) rl = some (some 0,
              { rl with originalSize := 0, totalRleSize := 0, rle := Rle.Ctx.zero }) := by
            simp [DataSourceRle.hasMoreMsgs, f1, f2, DataSourceRle.computeRleSize,
              DataSourceRle.computeLoop, Rle.Ctx.zero]
          rw [hh]
          simp only [Option.map_some, Option.bind_some]
          refine ⟨_, _, rfl, ⟨rfl, rfl, rfl, rfl⟩, Or.inr ⟨hre, rfl, Or.inl ⟨rfl, rfl, f3, f4, f5⟩⟩,
            Or.inr ⟨.coredump, [], rest, header cfg (activeOf cfg .coredump), 0, by rw [ha], hpick,
              hqc, ⟨⟨[], by rw [header_eq, List.append_nil], by simp [henc, Spec.Rle.expand, Spec.Rle.expandN]⟩,
                ?_, fun _ => rfl, ?_⟩, by simp⟩⟩
          · rw [header_eq]; simp; omega
          · have := reader_serves (cfg := cfg) (a := activeOf cfg .coredump)
              (empty_source_serves (queue := s.queue) (ra := (some Src.coredump)))
            rw [List.append_nil] at this
            exact ⟨_, this, trivial⟩
        · have key : ∃ c E s2, DataSourceRle.completes m 0 Rle.Ctx.zero [] = some (c, E) ∧
              DataSourceRle.hasMoreMsgs (some m) rl = some (some E.length, s2) ∧
              DataSourceRle.Ready m E s2 0 ∧ Spec.Rle.expand E = some m ∧
              E.length ≤ m.length + m.length / 64 + 1 := by
            obtain ⟨c, E, e1, e2, e3, e4⟩ := DataSourceRle.completes_zero m (by omega)
            have hE : E ≠ [] := by
              intro hx; rw [hx] at e2
              exact hne (by simpa [Spec.Rle.expand, Spec.Rle.expandN] using e2.symm)
            rcases hfr with h | ⟨m', rest', c', E', h, -, h2, h3⟩
            · obtain ⟨s2, f1, f2⟩ := DataSourceRle.hasMoreMsgs_fresh (by omega) hne e1 e3 h
              exact ⟨c, E, s2, e1, f1, f2, e2, e4⟩
            · rw [hqc] at h; cases h
              rw [e1] at h2; cases h2
              exact ⟨c, E, rl, e1, DataSourceRle.hasMoreMsgs_again h3 hE, h3, e2, e4⟩
          obtain ⟨c, E, s2, e1, e2, e3, e4, e5⟩ := key
          rw [e2]
          simp only [Option.map_some, Option.bind_some]
          refine ⟨_, _, rfl, ⟨rfl, rfl, rfl, rfl⟩, Or.inr ⟨hre, rfl, Or.inr ⟨m, rest, c, E, ?_, hne, e1, e3⟩⟩,
            Or.inr ⟨.coredump, m, rest, header cfg (activeOf cfg .coredump) ++ E, E.length, by rw [ha],
              hpick, hqc, ⟨⟨E, by rw [header_eq]; rfl, by simp [henc, e4]⟩, ?_, fun _ => rfl,
              ?_⟩, by simp; omega⟩⟩
          · exact hqc
          · rw [header_eq]; simp; omega
          · refine ⟨_, reader_serves (cfg := cfg) (rdy := fun st off => DataSourceRle.Ready m E st off) ?_, ?_⟩
            · rw [ha]
              exact rle_source_serves (rest := rest) hqc (by omega)
            · simp only [Nat.zero_sub]; exact e3

end Mflt.Packetizer
