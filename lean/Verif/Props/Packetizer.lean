import Verif.Lemmas.Packetizer

/-! # C19, C20, C21: the packetizer -/

namespace Mflt.Props

open Mflt.Packetizer Mflt.Spec.Packetizer
open Mflt.Chunk (Serves Reader send getNextChunk Call)

/-- One more piece of a transfer, in either mode. -/
theorem next_piece {σ : Type} {read : Reader σ} {msg : Bytes} {ready : σ → Nat → Prop}
    (hs : Serves read msg ready) (hlen : msg.length + 3 < 2 ^ 32) {multi : Bool} {bufs : List Bytes}
    (hb : ∀ b ∈ bufs, 9 ≤ b.length) {st0 : σ} (hr : ready st0 0) {calls : List Call} {ctx : Chunk.Ctx}
    {st : σ} (h : send read bufs (Chunk.Ctx.start msg.length multi) st0 = some (calls, false, ctx, st))
    (b : Bytes) (h9 : 9 ≤ b.length) :
    ∃ r, getNextChunk read ctx st b = some r ∧ CallOk b.length ⟨r.buf, r.outBufLen⟩ ∧
      send read (bufs ++ [b]) (Chunk.Ctx.start msg.length multi) st0 =
        some (calls ++ [⟨r.buf, r.outBufLen⟩], !r.moreData, r.ctx, r.reader) ∧
      (r.moreData = false → received multi (calls.map Call.chunk ++ [r.buf.take r.outBufLen]) = some msg) ∧
      (r.moreData = true → calls.length < msg.length / 3 + 2) := by
  have hb' : ∀ x ∈ bufs ++ [b], 9 ≤ x.length := by
    intro x hx
    rcases List.mem_append.mp hx with hx | hx
    · exact hb x hx
    · simp at hx; subst hx; exact h9
  obtain ⟨hl, hsn⟩ := Chunk.send_snoc read b bufs _ _ _ _ _ h
  have key : ∃ calls' fin ctx' st', send read (bufs ++ [b]) (Chunk.Ctx.start msg.length multi) st0 =
      some (calls', fin, ctx', st') ∧ CallsOk (bufs ++ [b]) calls' ∧
      (fin = true → received multi (calls'.map Call.chunk) = some msg) ∧
      (msg.length / 3 + 3 ≤ (bufs ++ [b]).length → fin = true) := by
    cases multi with
    | false =>
      obtain ⟨c, f, x, t, e1, e2, e3, e4⟩ := C13_chunks_reassemble read msg ready hs hlen _ hb' st0 hr
      exact ⟨c, f, x, t, e1, e2, fun hf => by simpa [received] using (e3 hf).1, fun h => e4 (by omega)⟩
    | true =>
      obtain ⟨c, f, x, t, e1, e2, e3, e4⟩ := C13_multi_call_chunk read msg ready hs hlen _ hb' st0 hr
      exact ⟨c, f, x, t, e1, e2, fun hf => by simpa [received] using (e3 hf).1, fun h => e4 (by omega)⟩
  obtain ⟨c, f, x, t, e1, e2, e3, e4⟩ := key
  rw [hsn] at e1
  cases hg : getNextChunk read ctx st b with
  | none => simp [hg] at e1
  | some r =>
    simp only [hg, Option.map_some, Option.some.injEq, Prod.mk.injEq] at e1
    obtain ⟨rfl, rfl, -, -⟩ := e1
    refine ⟨r, rfl, ?_, by rw [hsn, hg]; rfl, fun hm => ?_, fun hm => ?_⟩
    · obtain ⟨b', h1, h2⟩ := e2.2 calls.length ⟨r.buf, r.outBufLen⟩ (by simp)
      rw [hl, List.getElem?_append_right (by omega)] at h1
      simp at h1
      subst h1; exact h2
    · have := e3 (by simp [hm])
      rw [List.map_append, List.map_cons, List.map_nil] at this
      exact this
    · have : ¬ (msg.length / 3 + 3 ≤ (bufs ++ [b]).length) := by
        intro hx; have := e4 hx; rw [hm] at this; cases this
      rw [List.length_append, List.length_singleton] at this
      omega

/-- The model is sending what the specification's transfer says. -/
structure Sending (cfg : Config) (s : Packetizer.State) (t : Transfer) : Prop where
  msg : s.msg = some (activeOf cfg t.src)
  head : ∃ m rest, s.queue t.src = m :: rest ∧ IsMessage cfg t.src m t.message
  ra : encoded cfg t.src = true → s.rleActive = some t.src
  len : t.message.length + 3 < 2 ^ 32
  total : s.ctx.totalSize = t.message.length
  single : s.ctx.singleChunkMessageLength = t.message.length + 3
  multi : s.ctx.enableMultiCallChunk = t.multi
  prog : s.ctx.readOffset ≠ 0 ↔ t.pieces ≠ []
  sent : ∃ ready st0 bufs calls ctx0,
    Serves (reader cfg s.queue s.rleActive (activeOf cfg t.src)) t.message ready ∧ ready st0 0 ∧
    (∀ b ∈ bufs, 9 ≤ b.length) ∧
    send (reader cfg s.queue s.rleActive (activeOf cfg t.src)) bufs
      (Chunk.Ctx.start t.message.length t.multi) st0 = some (calls, false, ctx0, s.rle) ∧
    calls.map Call.chunk = t.pieces ∧
    ∀ b : Bytes, 9 ≤ b.length →
      getNextChunk (reader cfg s.queue s.rleActive (activeOf cfg t.src)) s.ctx s.rle b =
      getNextChunk (reader cfg s.queue s.rleActive (activeOf cfg t.src)) ctx0 s.rle b

/-- The model and the specification agree on the current transfer. -/
def CurOk (cfg : Config) (s : Packetizer.State) : Option Transfer → Prop
  | none => s.msg = none ∧ RleIdle cfg s
  | some t => Sending cfg s t

/-- The relation between model and specification states. -/
structure Rel (cfg : Config) (s : Packetizer.State) (S : Spec.Packetizer.State) : Prop where
  queue : S.queue = s.queue
  mask : S.mask = s.mask
  small : ∀ src, ∀ m ∈ s.queue src, m.length < 2 ^ 30
  ra : cfg.rleEnabled = false → s.rleActive = none
  cur : CurOk cfg s S.cur

theorem rleIdle_ra {cfg : Config} {s : Packetizer.State} (h : RleIdle cfg s) :
    cfg.rleEnabled = false → s.rleActive = none := by
  intro hf
  rcases h with h | ⟨h, -⟩
  · exact h
  · rw [hf] at h; cases h

theorem reset_same (cfg : Config) (s : Packetizer.State) :
    (reset cfg s).queue = s.queue ∧ (reset cfg s).mask = s.mask ∧ (reset cfg s).msg = none := by
  unfold reset setRleActive
  split
  · exact ⟨rfl, rfl, rfl⟩
  · split <;> exact ⟨rfl, rfl, rfl⟩

theorem reset_idle {cfg : Config} {s : Packetizer.State}
    (hra : cfg.rleEnabled = false → s.rleActive = none) : (reset cfg s).rleActive = none := by
  unfold reset setRleActive
  cases h : cfg.rleEnabled with
  | false => simpa using hra h
  | true =>
    simp only [Bool.not_true, Bool.false_eq_true, if_false]
    split
    · rename_i hx; exact hx.symm
    · rfl

theorem isMessage_pos {cfg : Config} {src : Src} {m message : Bytes}
    (h : IsMessage cfg src m message) : 0 < message.length := by
  obtain ⟨body, h, -⟩ := h
  rw [h]; simp

theorem begin_refines {cfg : Config} (hkey : (cfg.key.getD []).length < 2 ^ 30)
    {s : Packetizer.State} {S : Spec.Packetizer.State} (h : Rel cfg s S) (multi : Bool) :
    ∃ o s' S', begin' cfg multi s = some (o, s') ∧ Begin cfg multi S o S' ∧ Rel cfg s' S' ∧
      (o.ok = true → S'.cur.isSome = true) := by
  have hcur := h.cur
  cases hc : S.cur with
  | some t =>
    rw [hc] at hcur
    have hsn : Sending cfg s t := hcur
    refine ⟨⟨true, t.message.length + 3, decide (t.pieces ≠ [])⟩, s, S, ?_, Begin.resume S t hc, h,
      fun _ => by simp [hc]⟩
    unfold begin'
    simp only [hsn.msg, Option.isNone_some, Bool.false_eq_true, if_false, Option.map_some, if_true,
      hsn.single]
    congr 3
    exact decide_eq_decide.mpr hsn.prog
  | none =>
    rw [hc] at hcur
    obtain ⟨hmsg, hidle⟩ : s.msg = none ∧ RleIdle cfg s := hcur
    obtain ⟨r, s', e1, e2, e3, e4⟩ := getSource_eq cfg s S h.queue h.mask hidle h.small
    unfold begin' loadNext
    simp only [hmsg, Option.isNone_none, if_true, e1, Option.map_some]
    rcases e4 with ⟨rfl, hp⟩ | ⟨src, m, rest, message, size, rfl, hp, hq, hsel, hml⟩
    · simp only [Bool.false_eq_true, if_false]
      refine ⟨_, _, S, rfl, Begin.nothing S hc hp, ⟨?_, ?_, ?_, rleIdle_ra e3, ?_⟩, by simp⟩
      · rw [e2.queue]; exact h.queue
      · rw [e2.mask]; exact h.mask
      · rw [e2.queue]; exact h.small
      · rw [hc]; exact ⟨by rw [e2.msg]; exact hmsg, e3⟩
    · simp only [if_true]
      have hmlen : m.length < 2 ^ 30 := h.small src m (by rw [hq]; simp)
      have hlen : message.length + 3 < 2 ^ 32 := by have := hsel.len; omega
      rw [← hml]
      have hsz : (Chunk.getChunkInfo (Chunk.Ctx.start message.length multi)).singleChunkMessageLength =
          message.length + 3 := by
        simp only [Chunk.getChunkInfo, Chunk.Ctx.start, ne_eq, not_true_eq_false, if_false,
          Chunk.singleMessageChunkSize]
        rw [Nat.mod_eq_of_lt (by omega)]; omega
      rw [hsz]
      refine ⟨_, _, { S with cur := some ⟨src, message, multi, []⟩ }, rfl,
        Begin.start S src m rest message hc hp (by rw [h.queue]; exact hq) hsel.isMessage,
        ⟨?_, ?_, ?_, rleIdle_ra e3, ?_⟩, fun _ => rfl⟩
      · simp only; rw [e2.queue]; exact h.queue
      · simp only; rw [e2.mask]; exact h.mask
      · simp only; rw [e2.queue]; exact h.small
      · obtain ⟨ready, g1, g2⟩ := hsel.serves
        refine ⟨rfl, ⟨m, rest, by simp only; rw [e2.queue]; exact hq, hsel.isMessage⟩, hsel.ra, hlen,
          rfl, hsz, rfl, by simp [Chunk.getChunkInfo, Chunk.Ctx.start], ready, s'.rle, [], [],
          Chunk.Ctx.start message.length multi, g1, g2, by simp, rfl, rfl, fun b hb => ?_⟩
        exact Chunk.getNextChunk_info _ _ _ _ _ hb

theorem next_refines {cfg : Config} {s : Packetizer.State} {S : Spec.Packetizer.State}
    (h : Rel cfg s S) (buf : Bytes) :
    ∃ o s' S', getNext cfg s buf = some (o, s') ∧ Next S buf o S' ∧ Rel cfg s' S' := by
  have hcur := h.cur
  cases hc : S.cur with
  | none =>
    rw [hc] at hcur
    obtain ⟨hmsg, hidle⟩ : s.msg = none ∧ RleIdle cfg s := hcur
    exact ⟨_, s, S, by simp [getNext, hmsg], Next.idle S buf hc, h⟩
  | some t =>
    rw [hc] at hcur
    have hsn : Sending cfg s t := hcur
    obtain ⟨m, rest, hq, him⟩ := hsn.head
    unfold getNext
    simp only [hsn.msg]
    by_cases h9 : 9 ≤ buf.length
    · obtain ⟨ready, st0, bufs, calls, ctx0, g1, g2, g3, g4, g5, g6⟩ := hsn.sent
      obtain ⟨r, e1, e2, e3, e4, e5⟩ := next_piece g1 hsn.len g3 g2 g4 buf h9
      obtain ⟨o1, o2, o3, o4⟩ := e2
      simp only at o1 o2 o3 o4
      have hcl : calls.length = t.pieces.length := by rw [← g5]; simp
      obtain ⟨x1, x2, x3, x4⟩ := Chunk.getNextChunk_ctx ((g6 buf h9).trans e1) h9
        (by rw [hsn.total]; exact isMessage_pos him)
      rw [g6 buf h9, e1, Option.bind_some]
      unfold finishNext
      dsimp only
      rw [if_neg (by omega)]
      cases hm : r.moreData with
      | true =>
        simp only [Bool.not_true, Bool.false_eq_true, if_false, x1, hsn.multi]
        refine ⟨_, _, _, rfl, Next.more S t buf r.buf r.outBufLen hc h9 o1 o2 o3 ?_,
          ⟨h.queue, h.mask, h.small, h.ra, ?_⟩⟩
        · rw [← hcl]; exact e5 hm
        · refine ⟨hsn.msg, hsn.head, hsn.ra, hsn.len, by simp only; rw [x3, hsn.total], ?_,
            by simp only; rw [x1, hsn.multi], ?_, ready, st0, bufs ++ [buf], _, r.ctx, g1, g2, ?_,
            by rw [e3, hm]; rfl, ?_, fun _ _ => rfl⟩
          · simp only
            rw [x4, hsn.single, Chunk.singleMessageChunkSize, hsn.total,
              Nat.mod_eq_of_lt (by have := hsn.len; omega)]
            split <;> omega
          · simp only; simp [x2]
          · intro x hx
            rcases List.mem_append.mp hx with hx | hx
            · exact g3 x hx
            · simp at hx; subst hx; exact h9
          · simp only [List.map_append, g5, List.map_cons, List.map_nil]; rfl
      | false =>
        simp only [Bool.not_false, if_true]
        have hrec := e4 hm
        rw [g5] at hrec
        -- marking the message as read
        obtain ⟨s2, k1, k2, k3, k4⟩ : ∃ s2, markRead { s with ctx := r.ctx, rle := r.reader }
            (activeOf cfg t.src) = some s2 ∧
            s2.queue = (fun x => if x = t.src then rest else s.queue x) ∧ s2.mask = s.mask ∧
            s2.rleActive = s.rleActive := by
          have hpop : (fun x => if x = t.src then (s.queue x).tail else s.queue x) =
              (fun x => if x = t.src then rest else s.queue x) := by
            funext x
            by_cases hx : x = t.src
            · subst hx; simp [hq]
            · simp [hx]
          unfold markRead
          cases he : encoded cfg t.src with
          | true =>
            simp only [activeOf, he, if_true, hsn.ra he, Option.map_some, hpop]
            exact ⟨_, rfl, rfl, rfl, rfl⟩
          | false =>
            simp only [activeOf, he, Bool.false_eq_true, if_false, hpop]
            exact ⟨_, rfl, rfl, rfl, rfl⟩
        rw [k1, Option.map_some]
        obtain ⟨r1, r2, r3⟩ := reset_same cfg s2
        have hra2 : cfg.rleEnabled = false → s2.rleActive = none := by rw [k4]; exact h.ra
        refine ⟨_, _, _, rfl, Next.last S t buf r.buf r.outBufLen m rest hc h9 o1 o2 o3 hrec
          (by rw [h.queue]; exact hq), ⟨?_, ?_, ?_, fun _ => reset_idle hra2, ?_⟩⟩
        · simp only; rw [r1, k2, h.queue]
        · simp only; rw [r2, k3, h.mask]
        · rw [r1, k2]
          intro src x hx
          simp only at hx
          split at hx
          · rename_i he; subst he
            exact h.small t.src x (by rw [hq]; simp [hx])
          · exact h.small src x hx
        · exact ⟨r3, Or.inl (reset_idle hra2)⟩
    · rw [C14_small_buffer_refused _ _ _ _ (by omega), Option.bind_some]
      unfold finishNext
      simp only [if_true]
      exact ⟨_, _, S, rfl, Next.small S t buf hc (by omega), h⟩

theorem step_refines' {cfg : Config} (hkey : (cfg.key.getD []).length < 2 ^ 30)
    {s : Packetizer.State} {S : Spec.Packetizer.State} (h : Rel cfg s S) (op : Op)
    (hop : ∀ src m, op = .enqueue src m → m.length < 2 ^ 30) :
    ∃ o s' S', Packetizer.step cfg s op = some (o, s') ∧ Step cfg S op o S' ∧ Rel cfg s' S' := by
  have habort : Rel cfg (reset cfg s) { S with cur := none } := by
    obtain ⟨r1, r2, r3⟩ := reset_same cfg s
    exact ⟨by rw [r1]; exact h.queue, by rw [r2]; exact h.mask, by rw [r1]; exact h.small,
      fun _ => reset_idle h.ra, r3, Or.inl (reset_idle h.ra)⟩
  cases op with
  | enqueue src m =>
    have hm := hop src m rfl
    have hhead : ∀ x, s.queue x ≠ [] →
        ((fun x => if x = src then s.queue x ++ [m] else s.queue x) x).head? = (s.queue x).head? := by
      intro x hx
      obtain ⟨y, ys, hy⟩ := List.exists_cons_of_ne_nil hx
      by_cases hxs : x = src
      · subst hxs; simp [hy]
      · simp [hxs]
    have hcons : ∀ x y ys, s.queue x = y :: ys → ∃ ys',
        (fun x => if x = src then s.queue x ++ [m] else s.queue x) x = y :: ys' := by
      intro x y ys hy
      by_cases hxs : x = src
      · subst hxs; exact ⟨ys ++ [m], by simp [hy]⟩
      · exact ⟨ys, by simp [hxs, hy]⟩
    refine ⟨_, _, _, rfl, Step.enqueue S src m, ⟨?_, h.mask, ?_, h.ra, ?_⟩⟩
    · simp only [h.queue]
    · intro x y hy
      simp only at hy
      split at hy
      · rcases List.mem_append.mp hy with hy | hy
        · exact h.small x y hy
        · simp at hy; subst hy; exact hm
      · exact h.small x y hy
    · have hcur := h.cur
      simp only
      cases hc : S.cur with
      | none =>
        rw [hc] at hcur
        obtain ⟨hmsg, hidle⟩ : s.msg = none ∧ RleIdle cfg s := hcur
        refine ⟨hmsg, ?_⟩
        rcases hidle with hi | ⟨i1, i2, i3 | ⟨y, ys, c, E, j1, j2⟩⟩
        · exact Or.inl hi
        · exact Or.inr ⟨i1, i2, Or.inl i3⟩
        · obtain ⟨ys', hy⟩ := hcons _ _ _ j1
          exact Or.inr ⟨i1, i2, Or.inr ⟨y, ys', c, E, hy, j2⟩⟩
      | some t =>
        rw [hc] at hcur
        have hsn : Sending cfg s t := hcur
        obtain ⟨y, ys, hy, him⟩ := hsn.head
        obtain ⟨ys', hy'⟩ := hcons _ _ _ hy
        have hrd : reader cfg (fun x => if x = src then s.queue x ++ [m] else s.queue x) s.rleActive
            (activeOf cfg t.src) = reader cfg s.queue s.rleActive (activeOf cfg t.src) :=
          reader_congr cfg (hhead t.src (by rw [hy]; simp)) hsn.ra
        refine ⟨hsn.msg, ⟨y, ys', hy', him⟩, hsn.ra, hsn.len, hsn.total, hsn.single, hsn.multi,
          hsn.prog, ?_⟩
        simp only [hrd]
        exact hsn.sent
  | «begin» multi =>
    obtain ⟨o, s', S', e1, e2, e3, -⟩ := begin_refines hkey h multi
    exact ⟨.begin o, s', S', by simp [Packetizer.step, e1], Step.begin S S' multi o e2, e3⟩
  | getNext buf =>
    obtain ⟨o, s', S', e1, e2, e3⟩ := next_refines h buf
    exact ⟨.next o, s', S', by simp [Packetizer.step, e1], Step.getNext S S' buf o e2, e3⟩
  | getChunk buf =>
    obtain ⟨b, s1, S1, e1, e2, e3, -⟩ := begin_refines hkey h false
    cases hb : b.ok with
    | false =>
      refine ⟨_, s1, S1, by simp [Packetizer.step, getChunk, e1, hb],
        Step.getChunkNone S S1 buf b e2 hb, e3⟩
    | true =>
      obtain ⟨o, s2, S2, f1, f2, f3⟩ := next_refines e3 buf
      refine ⟨_, s2, S2, by simp [Packetizer.step, getChunk, e1, hb, f1],
        Step.getChunk S S1 S2 buf b o e2 hb f2, f3⟩
  | abort => exact ⟨.unit, _, _, rfl, Step.abort S, habort⟩
  | setActiveSources mask =>
    exact ⟨.unit, _, _, rfl, Step.setActiveSources S mask,
      ⟨habort.queue, rfl, habort.small, habort.ra, habort.cur⟩⟩
  | dataAvailable =>
    have hcur := h.cur
    cases hc : S.cur with
    | some t =>
      rw [hc] at hcur
      have hsn : Sending cfg s t := hcur
      refine ⟨.avail true, s, S, by simp [Packetizer.step, dataAvailable, hsn.msg], ?_, h⟩
      have := Step.dataAvailable (cfg := cfg) S
      rw [hc] at this
      exact this
    | none =>
      rw [hc] at hcur
      obtain ⟨hmsg, hidle⟩ : s.msg = none ∧ RleIdle cfg s := hcur
      obtain ⟨r, s', e1, e2, e3, e4⟩ := getSource_eq cfg s S h.queue h.mask hidle h.small
      have hrel : Rel cfg s' S := by
        refine ⟨by rw [e2.queue]; exact h.queue, by rw [e2.mask]; exact h.mask,
          by rw [e2.queue]; exact h.small, rleIdle_ra e3, ?_⟩
        rw [hc]; exact ⟨by rw [e2.msg]; exact hmsg, e3⟩
      refine ⟨.avail r.isSome, s', S, by simp [Packetizer.step, dataAvailable, hmsg, e1], ?_, hrel⟩
      have := Step.dataAvailable (cfg := cfg) S
      rw [hc] at this
      have hr : r.isSome = (pick S).isSome := by
        rcases e4 with ⟨rfl, hp⟩ | ⟨src, m, rest, message, size, rfl, hp, -⟩
        · rw [hp]; rfl
        · rw [hp]; rfl
      rw [hr]
      simpa using this

theorem run_refines' {cfg : Config} (hkey : (cfg.key.getD []).length < 2 ^ 30) (ops : List Op) :
    ∀ {s : Packetizer.State} {S : Spec.Packetizer.State}, Rel cfg s S →
    (∀ src m, Op.enqueue src m ∈ ops → m.length < 2 ^ 30) →
    ∃ os s' S', Packetizer.run cfg s ops = some (os, s') ∧ Trace cfg S ops os S' ∧ Rel cfg s' S' := by
  induction ops with
  | nil => intro s S h _; exact ⟨[], s, S, rfl, Trace.nil S, h⟩
  | cons op ops ih =>
    intro s S h hops
    obtain ⟨o, s1, S1, e1, e2, e3⟩ := step_refines' hkey h op
      (fun src m hx => hops src m (by rw [hx]; simp))
    obtain ⟨os, s2, S2, f1, f2, f3⟩ := ih e3 (fun src m hx => hops src m (by simp [hx]))
    exact ⟨o :: os, s2, S2, by simp [Packetizer.run, e1, f1], Trace.cons e2 f2, f3⟩

theorem boot_rel (cfg : Config) : Rel cfg boot Spec.Packetizer.init :=
  ⟨rfl, rfl, by intro src m hm; simp [boot] at hm, fun _ => rfl, rfl, Or.inl rfl⟩

/-- C19: for every configuration and every history of new messages, begins, chunk requests with any
buffers, aborts and changes of the enabled sources, the packetizer never fails, and what it returns
is what the specification allows: a transfer starts from the highest-priority enabled source that
holds a message, its pieces reassemble to that message with its header, the message is removed when
the last piece is handed out and not before, and each transfer needs at most `length / 3 + 3`
pieces. -/
theorem C19_packetizer_refines_spec (cfg : Config) (hkey : (cfg.key.getD []).length < 2 ^ 30)
    (ops : List Op) (hops : ∀ src m, Op.enqueue src m ∈ ops → m.length < 2 ^ 30) :
    ∃ os s S, Packetizer.run cfg boot ops = some (os, s) ∧
      Trace cfg Spec.Packetizer.init ops os S ∧ S.queue = s.queue := by
  obtain ⟨os, s, S, h1, h2, h3⟩ := run_refines' hkey ops (boot_rel cfg) hops
  exact ⟨os, s, S, h1, h2, h3.queue⟩

/-- What the specification keeps for each source: delivered messages followed by the stored ones. -/
def held (S : Spec.Packetizer.State) (src : Src) : List Bytes :=
  deliveredFrom src S.delivered ++ S.queue src

theorem held_next {S S' : Spec.Packetizer.State} {buf : Bytes} {o : NextOut}
    (h : Next S buf o S') (src : Src) : held S' src = held S src := by
  cases h with
  | idle => rfl
  | small => rfl
  | more => rfl
  | last t _ buf' len m rest hc h9 h1 h2 h3 h4 hq =>
    simp only [held, deliveredFrom, List.filter_append, List.map_append]
    by_cases hx : src = t.src
    · subst hx; simp [hq]
    · have : ¬ t.src = src := fun h => hx h.symm
      simp [hx, this]

theorem held_begin {cfg : Config} {multi : Bool} {S S' : Spec.Packetizer.State} {o : BeginOut}
    (h : Begin cfg multi S o S') (src : Src) : held S' src = held S src := by
  cases h <;> rfl

theorem held_trace {cfg : Config} {S S' : Spec.Packetizer.State} {ops : List Op} {os : List Out}
    (h : Trace cfg S ops os S') (src : Src) : held S' src = held S src ++ enqueued src ops := by
  induction h with
  | nil => simp [enqueued]
  | cons hs _ ih =>
    rw [ih]
    cases hs with
    | enqueue src' m =>
      by_cases hx : src' = src
      · subst hx; simp [held, enqueued]
      · have hx' : ¬ src = src' := fun h => hx h.symm
        simp [held, enqueued, hx, hx']
    | «begin» _ _ _ hb => simp [held_begin hb src, enqueued]
    | getNext _ _ _ hn => simp [held_next hn src, enqueued]
    | getChunkNone _ _ _ hb => simp [held_begin hb src, enqueued]
    | getChunk _ _ _ _ _ hb _ hn => simp [held_next hn src, held_begin hb src, enqueued]
    | abort => simp [held, enqueued]
    | setActiveSources => simp [held, enqueued]
    | dataAvailable => simp [enqueued]

/-- C19: exactly once. In every history, for every source, the messages delivered by completed
transfers followed by the messages still stored are exactly the messages the source was given, in
order. -/
theorem C19_every_message_exactly_once (cfg : Config) (hkey : (cfg.key.getD []).length < 2 ^ 30)
    (ops : List Op) (hops : ∀ src m, Op.enqueue src m ∈ ops → m.length < 2 ^ 30) :
    ∃ os s S, Packetizer.run cfg boot ops = some (os, s) ∧
      Trace cfg Spec.Packetizer.init ops os S ∧
      ∀ src, deliveredFrom src S.delivered ++ s.queue src = enqueued src ops := by
  obtain ⟨os, s, S, h1, h2, h3⟩ := C19_packetizer_refines_spec cfg hkey ops hops
  refine ⟨os, s, S, h1, h2, fun src => ?_⟩
  have := held_trace h2 src
  simp only [held] at this
  rw [h3] at this
  simpa [Spec.Packetizer.init, deliveredFrom] using this

/-- Non-vacuous: an event and a run-length encoded coredump are sent, the coredump first. -/
example : (Packetizer.run ⟨true, none⟩ boot [.enqueue .event [5, 6], .enqueue .coredump [7, 7, 7, 7],
    .getChunk (List.replicate 9 0), .getChunk (List.replicate 9 0), .getChunk (List.replicate 9 0)]).map
      (·.1) =
    some [.unit, .unit, .chunk true [0x08, 0x81, 8, 7, 36, 245, 0xBA, 0xBA, 0xBA] 6,
      .chunk true [0x08, 2, 5, 6, 83, 241, 0xBA, 0xBA, 0xBA] 6,
      .chunk false (List.replicate 9 0) 9] := by decide +kernel

/-- Driving a transfer that is in progress. -/
theorem drive {cfg : Config} (bufs : List Bytes) : ∀ {S S' : Spec.Packetizer.State} {t : Transfer}
    {os : List Out}, S.cur = some t → (∀ b ∈ bufs, 9 ≤ b.length) →
    Trace cfg S (bufs.map Op.getNext) os S' →
    (∃ m rest, S.queue t.src = m :: rest ∧ S'.cur = none ∧
      S'.queue = (fun x => if x = t.src then rest else S.queue x) ∧
      S'.delivered = S.delivered ++ [(t.src, m)] ∧
      received t.multi (t.pieces ++ pieces os) = some t.message) ∨
    (S'.queue = S.queue ∧ S'.delivered = S.delivered ∧
      S'.cur = some { t with pieces := t.pieces ++ pieces os } ∧
      (bufs = [] ∨ t.pieces.length + bufs.length < t.message.length / 3 + 3)) := by
  induction bufs with
  | nil =>
    intro S S' t os hc _ h
    cases h
    right
    exact ⟨rfl, rfl, by simp [hc, pieces], Or.inl rfl⟩
  | cons b bs ih =>
    intro S S' t os hc hb h
    simp only [List.map_cons] at h
    cases h with
    | cons hs ht =>
      cases hs with
      | getNext _ _ o hn =>
        have h9 := hb b (by simp)
        cases hn with
        | idle _ hx => rw [hc] at hx; cases hx
        | small t' _ hx hl => omega
        | more t' _ buf' len hx _ h1 h2 h3 h4 =>
          rw [hc] at hx; cases hx
          have hp : ∀ os', pieces (Out.next ⟨if t.multi = true then .moreDataForChunk else .endOfChunk,
              buf', len⟩ :: os') = buf'.take len :: pieces os' := by
            intro os'; cases t.multi <;> simp [pieces]
          rw [hp]
          rcases ih rfl (fun b hb' => hb b (by simp [hb'])) ht with
            ⟨m, rest, g1, g2, g3, g4, g5⟩ | ⟨g1, g2, g3, g4⟩
          · left
            exact ⟨m, rest, g1, g2, g3, g4, by simpa using g5⟩
          · right
            refine ⟨g1, g2, by simpa using g3, Or.inr ?_⟩
            rcases g4 with rfl | g4
            · simp only [List.length_cons, List.length_nil]; omega
            · simp only [List.length_append, List.length_cons, List.length_nil] at g4 ⊢; omega
        | last t' _ buf' len m rest hx _ h1 h2 h3 h4 hq =>
          rw [hc] at hx; cases hx
          left
          -- the remaining calls find nothing to send
          have hidle : ∀ (l : List Bytes) {S1 S2 : Spec.Packetizer.State} {os1 : List Out},
              S1.cur = none → Trace cfg S1 (l.map Op.getNext) os1 S2 → S2 = S1 ∧ pieces os1 = [] := by
            intro l
            induction l with
            | nil => intro S1 S2 os1 _ h; cases h; exact ⟨rfl, rfl⟩
            | cons x xs ih' =>
              intro S1 S2 os1 hn h
              simp only [List.map_cons] at h
              cases h with
              | cons hs' ht' =>
                cases hs' with
                | getNext _ _ o' hn' =>
                  cases hn' with
                  | idle _ _ =>
                    obtain ⟨i1, i2⟩ := ih' hn ht'
                    exact ⟨i1, by simp [pieces, i2]⟩
                  | small _ _ hx => rw [hn] at hx; cases hx
                  | more _ _ _ _ hx => rw [hn] at hx; cases hx
                  | last _ _ _ _ _ _ hx => rw [hn] at hx; cases hx
          obtain ⟨i1, i2⟩ := hidle bs rfl ht
          subst i1
          refine ⟨m, rest, hq, rfl, rfl, rfl, ?_⟩
          simp only [pieces, i2, reduceCtorEq, if_false]
          exact h4

/-- C20: abort at any point of any history and start again. Nothing stored is lost; the transfer
that follows is for the first message of the highest-priority enabled source, it is announced as
not in progress, and its pieces (for any buffers of at least 9 bytes, enough of them) alone
reassemble to that whole message, which is then removed. -/
theorem C20_abort_loses_nothing (cfg : Config) (hkey : (cfg.key.getD []).length < 2 ^ 30)
    (ops : List Op) (hops : ∀ src m, Op.enqueue src m ∈ ops → m.length < 2 ^ 30)
    (multi : Bool) (bufs : List Bytes) (hb : ∀ b ∈ bufs, 9 ≤ b.length) :
    ∃ os s S, Packetizer.run cfg boot ops = some (os, s) ∧
      Trace cfg Spec.Packetizer.init ops os S ∧ S.queue = s.queue ∧
      ∃ s1, Packetizer.step cfg s .abort = some (.unit, s1) ∧ s1.queue = s.queue ∧
      ∃ b os' s', Packetizer.run cfg s1 (.begin multi :: bufs.map Op.getNext) =
          some (.begin b :: os', s') ∧
        ((pick S = none ∧ b.ok = false ∧ s'.queue = s.queue) ∨
         ∃ src m rest message, pick S = some src ∧ s.queue src = m :: rest ∧
          IsMessage cfg src m message ∧ b = ⟨true, message.length + 3, false⟩ ∧
          ((received multi (pieces os') = some message ∧
              s'.queue = fun x => if x = src then rest else s.queue x) ∨
            (s'.queue = s.queue ∧ bufs.length < message.length / 3 + 3))) := by
  obtain ⟨os, s, S, h1, h2, h3⟩ := run_refines' hkey ops (boot_rel cfg) hops
  refine ⟨os, s, S, h1, h2, h3.queue, ?_⟩
  obtain ⟨o, s1, S1, e1, e2, e3⟩ := step_refines' hkey h3 .abort (by intro _ _ h; cases h)
  cases e2
  have hs1 : s1.queue = s.queue := by rw [← e3.queue, ← h3.queue]
  refine ⟨s1, e1, hs1, ?_⟩
  obtain ⟨os2, s2, S2, f1, f2, f3⟩ := run_refines' hkey (.begin multi :: bufs.map Op.getNext) e3 (by
    intro src m hm; simp at hm)
  cases f2 with
  | cons hs ht =>
    cases hs with
    | «begin» _ _ b hbg =>
      refine ⟨b, _, s2, f1, ?_⟩
      have hpk : pick { S with cur := none } = pick S := rfl
      cases hbg with
      | resume t hx => cases hx
      | nothing _ hp =>
        left
        refine ⟨hp, rfl, ?_⟩
        have hidle : ∀ (l : List Bytes) {S1 S2 : Spec.Packetizer.State} {os1 : List Out},
            S1.cur = none → Trace cfg S1 (l.map Op.getNext) os1 S2 → S2 = S1 := by
          intro l
          induction l with
          | nil => intro S1 S2 os1 _ h; cases h; rfl
          | cons x xs ih' =>
            intro S1 S2 os1 hn h
            simp only [List.map_cons] at h
            cases h with
            | cons hs' ht' =>
              cases hs' with
              | getNext _ _ o' hn' =>
                cases hn' with
                | idle _ _ => exact ih' hn ht'
                | small _ _ hx => rw [hn] at hx; cases hx
                | more _ _ _ _ hx => rw [hn] at hx; cases hx
                | last _ _ _ _ _ _ hx => rw [hn] at hx; cases hx
        have := hidle bufs rfl ht
        rw [← f3.queue, this]; exact h3.queue
      | start src m rest message _ hp hq him =>
        right
        refine ⟨src, m, rest, message, hp, by rw [← h3.queue]; exact hq, him, rfl, ?_⟩
        rcases drive bufs rfl hb ht with ⟨m', rest', g1, g2, g3, g4, g5⟩ | ⟨g1, g2, g3, g4⟩
        · left
          simp only at g1 hq g3
          rw [hq] at g1; cases g1
          refine ⟨by simpa using g5, ?_⟩
          rw [← f3.queue, g3, h3.queue]
        · right
          refine ⟨by rw [← f3.queue, g1]; exact h3.queue, ?_⟩
          rcases g4 with rfl | g4
          · simp
          · simpa using g4

/-- Non-vacuous: an aborted coredump transfer is sent again from the beginning. -/
example : (Packetizer.run ⟨true, none⟩ boot [.enqueue .coredump [1, 2, 3, 4, 5, 6, 7, 8, 9],
    .begin false, .getNext (List.replicate 9 0), .abort,
    .begin false, .getNext (List.replicate 20 0)]).map (fun r => (r.1.map (fun o => match o with
      | .next n => n.buf.take n.len | _ => []), r.2.queue .coredump)) =
    some ([[], [], [0x48, 11, 0x81, 17, 1, 2, 3, 4, 5], [], [],
      [0x08, 0x81, 17, 1, 2, 3, 4, 5, 6, 7, 8, 9, 72, 137]], []) := by decide +kernel

/-- C21: for every header, every source that serves `body`, every offset and every buffer (whatever
it held before), the reader gives exactly the bytes of header and body at that offset. -/
theorem C21_message_bytes {σ : Type} (src : σ → Nat → Bytes → Option (Bool × Bytes × σ))
    (body : Bytes) (rdy : σ → Nat → Prop) (hs : SourceServes src body rdy) (hdr : Bytes) (st : σ)
    (off : Nat) (buf : Bytes) (hr : rdy st (off - hdr.length))
    (hb : off + buf.length ≤ (hdr ++ body).length) :
    ∃ st', msgReader hdr src st off buf = some (((hdr ++ body).drop off).take buf.length, st') ∧
      rdy st' (off + buf.length - hdr.length) := msgReader_eq hs hdr st off buf hr hb

/-- Non-vacuous: a key header of three bytes, read at every offset. -/
example : (List.range 5).map (fun off => (msgReader [0x42, 0x41, 0]
    (fun (st : Unit) o b => (memcpyOut [9, 8, 7, 6] o b.length).map fun d => (true, d, st)) ()
    off [1, 1, 1]).map (·.1)) =
    [some [0x42, 0x41, 0], some [0x41, 0, 9], some [0, 9, 8], some [9, 8, 7], some [8, 7, 6]] := by
  decide

/-- C21 (partial): when a source's read fails and leaves `left` in the part of the buffer it was
given, the header bytes are right, the next (at most 16) bytes are 0xEF, and exactly the requested
range is written. Missing from the full claim: bytes after the first 16 keep what the source left
there, which `C21_stale_bytes_after_failed_read` shows can be stale buffer contents. -/
theorem C21_failed_read_scrubbed_partial {σ : Type}
    (src : σ → Nat → Bytes → Option (Bool × Bytes × σ)) (hdr : Bytes) (st st' : σ) (off : Nat)
    (buf left : Bytes)
    (hlen : left.length = buf.length - (hdr.length - off)) (hpos : 0 < left.length)
    (hf : src st (off - hdr.length) (buf.drop (hdr.length - off)) = some (false, left, st')) :
    ∃ out, msgReader hdr src st off buf = some (out, st') ∧ out.length = buf.length ∧
      out.take (hdr.length - off) = hdr.drop off ∧
      (out.drop (hdr.length - off)).take 16 = List.replicate (min 16 left.length) 0xEF ∧
      out.drop (hdr.length - off + 16) = left.drop 16 := by
  have key : ∃ out, msgReader hdr src st off buf = some (out, st') ∧ out = hdr.drop off ++
      (List.replicate (min 16 left.length) 0xEF ++ left.drop (min 16 left.length)) := by
    refine ⟨_, ?_, rfl⟩
    unfold msgReader readBody
    by_cases ho : off < hdr.length
    · rw [if_pos ho]
      dsimp only
      rw [show off - hdr.length = 0 by omega] at hf
      rw [Nat.min_eq_left (by omega), if_neg (by simp; omega), hf, Option.map_some,
        List.take_of_length_le (i := hdr.length - off) (by simp)]
      simp
    · rw [show hdr.length - off = 0 by omega] at hf hlen
      rw [List.drop_zero] at hf
      rw [if_neg ho, if_neg (by omega), hf, Option.map_some,
        List.drop_of_length_le (l := hdr) (by omega)]
      simp
  obtain ⟨out, h1, h2⟩ := key
  have hd : (hdr.drop off).length = hdr.length - off := by simp
  refine ⟨out, h1, ?_, ?_, ?_, ?_⟩
  · rw [h2]; simp only [List.length_append, List.length_replicate, List.length_drop]; omega
  · rw [h2, List.take_left' hd]
  · rw [h2, List.drop_left' hd]
    rw [List.take_append, List.length_replicate]
    by_cases h16 : 16 ≤ left.length
    · rw [Nat.min_eq_left h16]; simp
    · rw [Nat.min_eq_right (by omega), List.drop_length]
      simp
      omega
  · rw [h2, ← List.drop_drop, List.drop_left' hd, List.drop_append, List.length_replicate,
      List.drop_of_length_le (l := List.replicate _ _) (by simp; omega), List.nil_append]
    by_cases h16 : 16 ≤ left.length
    · rw [Nat.min_eq_left h16]; simp
    · rw [Nat.min_eq_right (by omega), List.drop_length, List.drop_of_length_le (l := left) (by omega)]
      simp

/-- Non-vacuous: a source that fails without touching its 3 bytes. -/
example : (msgReader [2] (fun (st : Unit) _ b => some (false, b, st)) () 0 [7, 7, 7, 7]).map (·.1) =
    some [2, 0xEF, 0xEF, 0xEF] := by decide

/-- C21's claim about failing reads is false as stated: after a failed read of 20 bytes the last 4
bytes of the message are what happened to be in the caller's buffer. -/
theorem C21_stale_bytes_after_failed_read :
    (msgReader [2] (fun (st : Unit) _ b => some (false, b, st)) () 0
      (List.replicate 21 0x55)).map (·.1) =
    some (2 :: (List.replicate 16 0xEF ++ [0x55, 0x55, 0x55, 0x55])) := by decide

end Mflt.Props
