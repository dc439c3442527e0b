import Verif.Lemmas.System

/-! # What the server makes of the chunks -/

namespace Mflt.Chunk

theorem memcpyIn_head {m m' d : Bytes} {i : Nat} (h : memcpyIn m i d = some m') (hi : 1 ≤ i) : m'.head? = m.head? := by
  unfold memcpyIn at h
  split at h
  · next hl =>
    cases h
    cases m with
    | nil => simp at hl; omega
    | cons x xs =>
      obtain ⟨j, rfl⟩ : ∃ j, i = j + 1 := ⟨i - 1, by omega⟩
      simp
  · cases h

theorem memcpyIn_first {m m' : Bytes} {x : UInt8} (h : memcpyIn m 0 [x] = some m') : m'.head? = some x := by
  unfold memcpyIn at h
  split at h
  · cases h; simp
  · cases h

theorem plan_head {ctx : Ctx} {buf : Bytes} {p : Plan} (h : plan ctx buf = some p) :
    (ctx.enableMultiCallChunk = false → 1 ≤ p.start ∧
      p.buf.head? = some (buildHdr p.moreData (decide (ctx.readOffset ≠ 0)))) ∧
    (ctx.enableMultiCallChunk = true → ctx.readOffset = 0 → 1 ≤ p.start ∧ p.buf.head? = some (buildHdr false false)) := by
  unfold plan at h
  by_cases h0 : ctx.readOffset = 0
  · simp only [h0, if_true, Option.bind_eq_bind] at h
    obtain ⟨v, h1, h⟩ := Option.bind_eq_some_iff.1 h
    obtain ⟨b1, h2, h⟩ := Option.bind_eq_some_iff.1 h
    obtain ⟨b2, h3, h⟩ := Option.bind_eq_some_iff.1 h
    have hh := memcpyIn_first h3
    cases hm : ctx.enableMultiCallChunk with
    | true =>
      simp only [hm, Bool.not_true, Bool.and_false, Bool.false_eq_true, if_false, if_true, Option.pure_def,
        Option.some.injEq] at h hh
      subst h
      exact ⟨fun hx => Bool.noConfusion hx, fun _ _ => ⟨Nat.le_refl 1, hh⟩⟩
    | false =>
      refine ⟨fun _ => ?_, fun hx => by cases hx⟩
      simp only [hm, Bool.not_false, Bool.and_true, Bool.false_eq_true, if_false] at h hh
      split at h
      · simp only [Option.pure_def, Option.some.injEq] at h
        subst h
        refine ⟨by dsimp only; omega, ?_⟩
        rw [hh]; simp [h0]
      · simp only [Option.pure_def, Option.some.injEq] at h
        subst h
        refine ⟨Nat.le_refl 1, ?_⟩
        rw [hh]; simp [h0]
  · simp only [h0, if_false] at h
    cases hm : ctx.enableMultiCallChunk with
    | true => exact ⟨fun hx => Bool.noConfusion hx, fun _ hx => absurd hx h0⟩
    | false =>
      refine ⟨fun _ => ?_, fun hx => by cases hx⟩
      simp only [hm, Bool.false_eq_true, if_false, Option.bind_eq_bind] at h
      obtain ⟨v, h1, h⟩ := Option.bind_eq_some_iff.1 h
      obtain ⟨b1, h2, h⟩ := Option.bind_eq_some_iff.1 h
      obtain ⟨b2, h3, h⟩ := Option.bind_eq_some_iff.1 h
      have hh := memcpyIn_first h3
      simp only [Option.pure_def, Option.some.injEq] at h
      subst h
      refine ⟨by dsimp only; omega, ?_⟩
      dsimp only
      rw [hh]; simp [h0]

theorem next_head {σ : Type} {rd : Reader σ} {ctx : Ctx} {st : σ} {buf : Bytes} {r : Result σ}
    (h : getNextChunk rd ctx st buf = some r) (h0 : r.outBufLen ≠ 0) :
    (ctx.enableMultiCallChunk = false →
      (r.buf.take r.outBufLen).head? = some (buildHdr r.moreData (decide (ctx.readOffset ≠ 0)))) ∧
    (ctx.enableMultiCallChunk = true → ctx.readOffset = 0 →
      (r.buf.take r.outBufLen).head? = some (buildHdr false false)) := by
  have key : ∀ (x : UInt8), r.buf.head? = some x → (r.buf.take r.outBufLen).head? = some x := by
    intro x hx
    cases hb : r.buf with
    | nil => rw [hb] at hx; cases hx
    | cons y ys =>
      rw [hb] at hx
      obtain ⟨n, hn⟩ : ∃ n, r.outBufLen = n + 1 := ⟨r.outBufLen - 1, by omega⟩
      rw [hn]; simpa using hx
  unfold getNextChunk at h
  split at h
  · simp only [Option.some.injEq] at h; subst h; exact absurd rfl h0
  · simp only [Option.bind_eq_bind] at h
    obtain ⟨p, h1, h⟩ := Option.bind_eq_some_iff.1 h
    obtain ⟨⟨b1, st1, crc, start⟩, h2, h⟩ := Option.bind_eq_some_iff.1 h
    obtain ⟨⟨b2, start2⟩, h3, h⟩ := Option.bind_eq_some_iff.1 h
    obtain ⟨b3, h4, h⟩ := Option.bind_eq_some_iff.1 h
    dsimp only at h3 h4 h
    have hkeep : 1 ≤ p.start → b3.head? = p.buf.head? := by
      intro hs
      have hb1 : b1.head? = p.buf.head? ∧ 1 ≤ start := by
        unfold readData at h2
        split at h2
        · simp only [Option.bind_eq_bind] at h2
          obtain ⟨y, -, h2⟩ := Option.bind_eq_some_iff.1 h2
          obtain ⟨z, h5, h2⟩ := Option.bind_eq_some_iff.1 h2
          obtain ⟨c, -, h2⟩ := Option.bind_eq_some_iff.1 h2
          simp only [Option.pure_def, Option.some.injEq, Prod.mk.injEq] at h2
          obtain ⟨rfl, -, -, rfl⟩ := h2
          exact ⟨memcpyIn_head h5 hs, by omega⟩
        · simp only [Option.some.injEq, Prod.mk.injEq] at h2
          obtain ⟨rfl, -, -, rfl⟩ := h2
          exact ⟨rfl, hs⟩
      have hb2 : b2.head? = b1.head? ∧ 1 ≤ start2 := by
        unfold appendCrc at h3
        split at h3
        · obtain ⟨z, h5, h6⟩ := Option.map_eq_some_iff.1 h3
          simp only [Prod.mk.injEq] at h6
          obtain ⟨rfl, rfl⟩ := h6
          exact ⟨memcpyIn_head h5 hb1.2, by omega⟩
        · simp only [Option.some.injEq, Prod.mk.injEq] at h3
          obtain ⟨rfl, rfl⟩ := h3
          exact ⟨rfl, hb1.2⟩
      rw [memcpyIn_head h4 hb2.2, hb2.1, hb1.1]
    simp only [Option.pure_def, Option.some.injEq] at h
    obtain ⟨q1, q2⟩ := plan_head h1
    refine ⟨fun hm => ?_, fun hm hr => ?_⟩
    · obtain ⟨a1, a2⟩ := q1 hm
      apply key
      subst h
      exact (hkeep a1).trans a2
    · obtain ⟨a1, a2⟩ := q2 hm hr
      apply key
      subst h
      exact (hkeep a1).trans a2

end Mflt.Chunk

namespace Mflt.Sys

open Packetizer (Src Active NextOut BeginOut activeOf Status)
open Spec.Packetizer (encoded code sendable pick Begin Next Transfer IsMessage received)
open Spec.System (Receiver starts)

/-- The first byte of a piece. -/
theorem piece_head {cfg : Config} {s s' : State} {g g' : Ghost} {S S' : Spec.Packetizer.State} (h : SRel cfg s g S)
    {t : Transfer} (hcur : S.cur = some t) {buf : Bytes} {o : NextOut} (hn : getNext cfg s buf = some (o, s'))
    (h' : SRel cfg s' g' S') (ho : o.status ≠ .noMoreData) :
    (t.multi = false → (o.buf.take o.len).head? =
      some (Chunk.buildHdr S'.cur.isSome (decide (t.pieces ≠ [])))) ∧
    (t.multi = true → t.pieces = [] → (o.buf.take o.len).head? = some (Chunk.buildHdr false false)) := by
  have hsn := h.pk.cur
  rw [hcur] at hsn
  have hsn : Props.Sending cfg.pk (pk s S.queue) t := hsn
  have hm : s.msg = some (activeOf cfg.pk t.src) := hsn.msg
  unfold getNext at hn
  rw [hm] at hn
  dsimp only at hn
  obtain ⟨r, h1, h2⟩ := Option.bind_eq_some_iff.1 hn
  have hprog : s.ctx.readOffset ≠ 0 ↔ t.pieces ≠ [] := hsn.prog
  have hmulti : s.ctx.enableMultiCallChunk = t.multi := hsn.multi
  have hmd : r.outBufLen ≠ 0 ∧ o.buf = r.buf ∧ o.len = r.outBufLen ∧ S'.cur.isSome = r.moreData := by
    have hmn := msg_none h'.pk
    unfold finishNext at h2
    dsimp only at h2
    split at h2
    · simp only [Option.some.injEq, Prod.mk.injEq] at h2
      rw [← h2.1] at ho; exact absurd rfl ho
    · next h0 =>
      split at h2
      · next hmd =>
        obtain ⟨s1, h3, h4⟩ := Option.map_eq_some_iff.1 h2
        simp only [Prod.mk.injEq] at h4
        obtain ⟨rfl, rfl⟩ := h4
        refine ⟨h0, rfl, rfl, ?_⟩
        have : (reset cfg s1).msg = none := (setRle_w cfg _ none).2.2
        rw [hmn.1 this]
        simp only [Bool.not_eq_true'] at hmd
        rw [hmd]; rfl
      · next hmd =>
        simp only [Option.some.injEq, Prod.mk.injEq] at h2
        obtain ⟨rfl, rfl⟩ := h2
        refine ⟨h0, rfl, rfl, ?_⟩
        have hx : S'.cur ≠ none := fun hx => by
          have := hmn.2 hx
          rw [show (State.msg { s with ctx := r.ctx, rle := r.reader }) = s.msg from rfl, hm] at this
          cases this
        have hmd' : r.moreData = true := by simpa using hmd
        rw [hmd']
        cases hs : S'.cur with
        | none => exact absurd hs hx
        | some _ => rfl
  obtain ⟨k0, k1, k2, k3⟩ := hmd
  obtain ⟨q1, q2⟩ := Chunk.next_head h1 k0
  rw [k1, k2, k3]
  refine ⟨fun hx => ?_, fun hx hp => ?_⟩
  · rw [q1 (by rw [hmulti]; exact hx)]
    congr 2
    exact decide_eq_decide.2 hprog
  · refine q2 (by rw [hmulti]; exact hx) ?_
    by_cases h0 : s.ctx.readOffset = 0
    · exact h0
    · exact absurd hp (hprog.1 h0)

/-- Chunks of a message that is not complete. -/
def Unfinished : List Bytes → Prop
  | [] => True
  | c :: cs => c.head? = some 0x48 ∧ ∀ x ∈ cs, x.head? = some 0xC0

theorem collect_none (cs : List Bytes) (h : ∀ x ∈ cs, x.head? = some (0xC0 : UInt8)) :
    ∀ acc, Spec.Chunk.collect acc cs = none := by
  induction cs with
  | nil => intro acc; rfl
  | cons c cs ih =>
    intro acc
    have hc := h c (by simp)
    cases c with
    | nil => cases hc
    | cons b r =>
      have hb : b = 0xC0 := by simpa using hc
      subst hb
      unfold Spec.Chunk.collect
      simp only [Option.bind_eq_bind]
      cases hd : Spec.Varint.decode r with
      | none => rfl
      | some p =>
        rw [Option.bind_some]
        split
        · rfl
        · rw [if_neg (by decide), if_pos (by trivial)]
          exact ih (fun x hx => h x (by simp [hx])) _

theorem unfinished_none {cs : List Bytes} (h : Unfinished cs) : Spec.Chunk.reassemble cs = none := by
  cases cs with
  | nil => rfl
  | cons c cs =>
    obtain ⟨h1, h2⟩ := h
    cases c with
    | nil => cases h1
    | cons b r =>
      have hb : b = 0x48 := by simpa using h1
      subst hb
      unfold Spec.Chunk.reassemble
      dsimp only
      rw [if_neg (by decide), if_pos rfl]
      simp only [Option.bind_eq_bind]
      cases hd : Spec.Varint.decode r with
      | none => rfl
      | some p =>
        rw [Option.bind_some, collect_none cs h2]
        rfl

theorem unfinished_snoc {cs : List Bytes} {c : Bytes} (h : Unfinished cs) (h1 : cs = [] → c.head? = some 0x48)
    (h2 : cs ≠ [] → c.head? = some 0xC0) : Unfinished (cs ++ [c]) := by
  cases cs with
  | nil => exact ⟨h1 rfl, by simp⟩
  | cons x xs =>
    refine ⟨h.1, fun y hy => ?_⟩
    rcases List.mem_append.1 hy with hy | hy
    · exact h.2 y hy
    · simp at hy; subst hy; exact h2 (by simp)

/-- What the server knows of the transfer in progress. -/
def CurSeen (multi : Bool) (r : Receiver) : Option Transfer → Prop
  | none => r.part = []
  | some t => t.multi = multi ∧
      if multi then r.part = t.pieces.flatten ∧ (t.pieces ≠ [] → t.pieces.flatten.head? = some 0x08)
      else r.part = [] ∧ Unfinished t.pieces ∧ (t.pieces ≠ [] → r.chunks = t.pieces)

/-- The messages `ms` carry the payloads `d`, one by one. -/
def Arrived (cfg : Config) (d : List (Src × Bytes)) (ms : List Bytes) : Prop :=
  ∃ l : List (Src × Bytes × Bytes), l.map (fun x => (x.1, x.2.1)) = d ∧ l.map (fun x => x.2.2) = ms ∧
    ∀ x ∈ l, IsMessage cfg.pk x.1 x.2.1 x.2.2

/-- The server has the messages that were delivered. -/
structure RInv (cfg : Config) (multi : Bool) (S : Spec.Packetizer.State) (r : Receiver) : Prop where
  cur : CurSeen multi r S.cur
  messages : Arrived cfg S.delivered r.messages

theorem arrived_snoc {cfg : Config} {d : List (Src × Bytes)} {ms : List Bytes} (h : Arrived cfg d ms) {src : Src}
    {m b : Bytes} (hm : IsMessage cfg.pk src m b) : Arrived cfg (d ++ [(src, m)]) (ms ++ [b]) := by
  obtain ⟨l, h1, h2, h3⟩ := h
  refine ⟨l ++ [(src, m, b)], by simp [h1], by simp [h2], fun x hx => ?_⟩
  rcases List.mem_append.1 hx with hx | hx
  · exact h3 x hx
  · simp at hx; subst hx; exact hm

theorem head_append {a b : Bytes} {x : UInt8} (h : a.head? = some x) : (a ++ b).head? = some x := by
  cases a with
  | nil => cases h
  | cons y ys => exact h

theorem chunk_none {r : Receiver} {c : Bytes} {cs : List Bytes} (h : (if starts c then [c] else r.chunks ++ [c]) = cs)
    (hn : Spec.Chunk.reassemble cs = none) : r.chunk c = ⟨[], cs, r.messages⟩ := by
  unfold Receiver.chunk; dsimp only; rw [h, hn]

theorem chunk_some {r : Receiver} {c m : Bytes} {cs : List Bytes}
    (h : (if starts c then [c] else r.chunks ++ [c]) = cs)
    (hn : Spec.Chunk.reassemble cs = some m) : r.chunk c = ⟨[], [], r.messages ++ [m]⟩ := by
  unfold Receiver.chunk; dsimp only; rw [h, hn]

theorem starts_of {c : Bytes} {b : Bool} (h : c.head? = some (Chunk.buildHdr b false)) : starts c = true := by
  unfold starts
  rw [h]
  cases b <;> decide

theorem not_starts {c : Bytes} {b : Bool} (h : c.head? = some (Chunk.buildHdr b true)) : starts c = false := by
  unfold starts
  rw [h]
  cases b <;> decide

/-- The next piece arrives. -/
theorem recv_next {cfg : Config} {multi : Bool} {s s' : State} {g g' : Ghost} {S S' : Spec.Packetizer.State}
    (h : SRel cfg s g S) {buf : Bytes} {o : NextOut} (hn : getNext cfg s buf = some (o, s')) (hN : Next S buf o S')
    (h' : SRel cfg s' g' S') {r : Receiver} (hr : RInv cfg multi S r) :
    RInv cfg multi S' (r.piece o.status (o.buf.take o.len)) := by
  have hcs := hr.cur
  by_cases ho : o.status = .noMoreData
  · rcases next_cases hN with ⟨-, rfl⟩ | ⟨hx, -⟩ | ⟨_, _, _, hx, -⟩
    · rw [ho]; exact hr
    · exact absurd ho hx
    · exact absurd ho hx
  · obtain ⟨c, hcur⟩ : ∃ c, S.cur = c := ⟨_, rfl⟩
    cases c with
    | none =>
      rcases next_cases hN with ⟨hx, -⟩ | ⟨-, -⟩ | ⟨_, _, _, -, hx, -⟩
      · exact absurd hx ho
      · cases hN with
        | idle => exact absurd rfl ho
        | small => exact absurd rfl ho
        | more t _ _ _ hx => rw [hcur] at hx; cases hx
        | last t _ _ _ _ _ hx => rw [hcur] at hx; cases hx
      · rw [hcur] at hx; cases hx
    | some t =>
      rw [hcur] at hcs
      obtain ⟨hmt, hcs⟩ := hcs
      obtain ⟨p1, p2⟩ := piece_head h hcur hn h' ho
      cases hN with
      | idle => exact absurd rfl ho
      | small => exact absurd rfl ho
      | more t' _ buf' len hx =>
        rw [hcur] at hx
        cases hx
        cases hm : t.multi with
        | true =>
          rw [hm] at hmt
          subst hmt
          rw [if_pos rfl] at hcs
          simp only [if_true, Receiver.piece]
          refine ⟨⟨rfl, ?_⟩, hr.messages⟩
          rw [if_pos rfl]
          refine ⟨by simp [hcs.1], fun _ => ?_⟩
          dsimp only
          rw [List.flatten_append]
          by_cases hp : t.pieces = []
          · rw [hp]
            have := p2 hm hp
            rw [show Chunk.buildHdr false false = 8 by decide] at this
            simpa using this
          · exact head_append (hcs.2 hp)
        | false =>
          rw [hm] at hmt
          subst hmt
          rw [if_neg (by simp)] at hcs
          obtain ⟨c1, c2, c3⟩ := hcs
          have hd := p1 hm
          dsimp only [Option.isSome_some] at hd
          simp only [Bool.false_eq_true, if_false, Receiver.piece, c1, List.nil_append]
          have hu : Unfinished (t.pieces ++ [buf'.take len]) := by
            refine unfinished_snoc c2 (fun hp => ?_) (fun hp => ?_)
            · rw [hd, hp]; decide
            · rw [hd, decide_eq_true hp]; decide
          have hc : (if starts (buf'.take len) then [buf'.take len] else r.chunks ++ [buf'.take len]) =
              t.pieces ++ [buf'.take len] := by
            by_cases hp : t.pieces = []
            · rw [starts_of (b := true) (by rw [hd, hp]; rfl), hp]; rfl
            · rw [not_starts (b := true) (by rw [hd]; simp [hp]), c3 hp]; rfl
          rw [chunk_none hc (unfinished_none hu)]
          refine ⟨⟨rfl, ?_⟩, hr.messages⟩
          rw [if_neg (by simp)]
          exact ⟨rfl, hu, fun _ => rfl⟩
      | last t' _ buf' len m rest hx _ _ _ _ hrec hq =>
        rw [hcur] at hx
        cases hx
        have hsn := h.pk.cur
        rw [hcur] at hsn
        obtain ⟨m', rest', hq', him⟩ := Props.Sending.head hsn
        have hq' : S.queue t.src = m' :: rest' := hq'
        rw [hq] at hq'
        cases hq'
        cases hm : t.multi with
        | true =>
          rw [hm] at hmt hrec
          subst hmt
          rw [if_pos rfl] at hcs
          obtain ⟨c1, c2⟩ := hcs
          have hr1 : Spec.Chunk.reassemble [r.part ++ buf'.take len] = some t.message := by
            unfold received at hrec
            rw [if_pos rfl] at hrec
            rw [c1]; simpa using hrec
          have hst : starts (r.part ++ buf'.take len) = true := by
            apply starts_of (b := false)
            rw [c1]
            by_cases hp : t.pieces = []
            · rw [hp]; simpa using p2 hm hp
            · exact head_append (c2 hp)
          simp only [Receiver.piece]
          rw [chunk_some (by rw [hst]; rfl) hr1]
          exact ⟨rfl, arrived_snoc hr.messages him⟩
        | false =>
          rw [hm] at hmt hrec
          subst hmt
          rw [if_neg (by simp)] at hcs
          obtain ⟨c1, c2, c3⟩ := hcs
          have hd := p1 hm
          dsimp only [Option.isSome_none] at hd
          simp only [Receiver.piece, c1, List.nil_append]
          have hc : (if starts (buf'.take len) then [buf'.take len] else r.chunks ++ [buf'.take len]) =
              t.pieces ++ [buf'.take len] := by
            by_cases hp : t.pieces = []
            · rw [starts_of (b := false) (by rw [hd, hp]; rfl), hp]; rfl
            · rw [not_starts (b := false) (by rw [hd]; simp [hp]), c3 hp]; rfl
          unfold received at hrec
          rw [if_neg (by simp)] at hrec
          rw [chunk_some hc hrec]
          exact ⟨rfl, arrived_snoc hr.messages him⟩

theorem recv_begin {cfg : Config} {multi : Bool} {S S' : Spec.Packetizer.State} {Q : Src → List Bytes} {o : BeginOut}
    (h : Begin cfg.pk multi { S with queue := Q } o S') {r : Receiver} (hr : RInv cfg multi S r) :
    RInv cfg multi S' r := by
  cases h with
  | nothing => exact ⟨hr.cur, hr.messages⟩
  | start src m rest message hc =>
    refine ⟨⟨rfl, ?_⟩, hr.messages⟩
    have := hr.cur
    rw [show S.cur = none from hc] at this
    have hp : r.part = [] := this
    cases multi with
    | true => exact ⟨hp, fun hx => absurd rfl hx⟩
    | false => exact ⟨hp, trivial, fun hx => absurd rfl hx⟩
  | resume => exact ⟨hr.cur, hr.messages⟩

theorem recv_reset {cfg : Config} {multi : Bool} {S : Spec.Packetizer.State} {r : Receiver} (hr : RInv cfg multi S r)
    (mask : Nat) : RInv cfg multi { S with cur := none, mask := mask } { r with part := [] } := ⟨rfl, hr.messages⟩

theorem recv_queue {cfg : Config} {multi : Bool} {S : Spec.Packetizer.State} {r : Receiver} (hr : RInv cfg multi S r)
    (Q : Src → List Bytes) : RInv cfg multi { S with queue := Q } r := ⟨hr.cur, hr.messages⟩

end Mflt.Sys
