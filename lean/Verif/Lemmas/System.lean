import Verif.Lemmas.SystemSources
import Verif.Props.Packetizer

/-! # The packetizer on the real sources does what it does on queues -/

namespace Mflt.Sys

open Packetizer (Src Active NextOut BeginOut activeOf)
open Spec.Packetizer (encoded code sendable pick Begin Next)

/-- The packetizer over queues. -/
def pk (s : State) (Q : Src → List Bytes) : Packetizer.State := ⟨Q, s.rleActive, s.rle, s.mask, s.msg, s.ctx⟩

theorem pk_setRle (cfg : Config) (s : State) (Q : Src → List Bytes) (src : Option Src) :
    Packetizer.setRleActive cfg.pk (pk s Q) src = ((setRleActive cfg s src).1, pk (setRleActive cfg s src).2 Q) := by
  unfold Packetizer.setRleActive setRleActive
  by_cases h : cfg.pk.rleEnabled = true
  · simp only [h, Bool.not_true, Bool.false_eq_true, if_false]
    by_cases h2 : src = s.rleActive
    · rw [if_pos h2, if_pos (show src = (pk s Q).rleActive from h2)]
    · rw [if_neg h2, if_neg (show ¬ src = (pk s Q).rleActive from h2)]; rfl
  · simp only [h, Bool.not_eq_true] at h ⊢
    simp [h]

theorem setRle_w (cfg : Config) (s : State) (src : Option Src) : (setRleActive cfg s src).2.w = s.w ∧
    (setRleActive cfg s src).2.mask = s.mask ∧ (setRleActive cfg s src).2.msg = s.msg := by
  unfold setRleActive
  split
  · exact ⟨rfl, rfl, rfl⟩
  · split <;> exact ⟨rfl, rfl, rfl⟩

theorem pk_reset (cfg : Config) (s : State) (Q : Src → List Bytes) :
    Packetizer.reset cfg.pk (pk s Q) = pk (reset cfg s) Q := by
  unfold Packetizer.reset reset
  exact congrArg Prod.snd (pk_setRle cfg { s with msg := none, ctx := Chunk.Ctx.start 0 false } Q none)

theorem reset_w (cfg : Config) (s : State) : (reset cfg s).w = s.w := (setRle_w cfg _ none).1

/-! ## Reading -/

theorem source_mono {cfg : Config} (hc : ConfigOk cfg) {w : World} {g : Ghost} {Q : Src → List Bytes}
    (h : WRel cfg w g Q) {ra : Option Src} {a : Active} (hra : a.rle = true → ra = some .coredump)
    {st : DataSourceRle.State} {off : Nat} {buf : Bytes} (h0 : buf.length ≠ 0)
    {x : Bool × Bytes × DataSourceRle.State} (hx : Packetizer.sourceRead Q ra a st off buf = some x) :
    sourceRead cfg w ra a st off buf = some x := by
  unfold Packetizer.sourceRead at hx
  unfold sourceRead
  by_cases hr : a.rle = true
  · rw [if_pos hr] at hx ⊢
    rw [hra hr] at hx ⊢
    rw [Option.bind_some] at hx ⊢
    rw [(has_core h).2, Option.bind_some]
    exact hx
  · rw [if_neg hr] at hx ⊢
    obtain ⟨m, h1, h2⟩ := Option.bind_eq_some_iff.1 hx
    obtain ⟨rest, hq⟩ := List.head?_eq_some_iff.1 h1
    obtain ⟨d, h3, rfl⟩ := Option.map_eq_some_iff.1 h2
    obtain ⟨h4, rfl⟩ : off + buf.length ≤ m.length ∧ d = (m.drop off).take buf.length := by
      unfold memcpyOut at h3
      split at h3
      · next hb => cases h3; exact ⟨hb, rfl⟩
      · cases h3
    rw [read_ok hc h hq (by omega) h4]
    rfl

theorem body_mono {σ : Type} {src src' : σ → Nat → Bytes → Option (Bool × Bytes × σ)}
    (h : ∀ st off buf x, buf.length ≠ 0 → src st off buf = some x → src' st off buf = some x) {st : σ}
    {off : Nat} {pre buf : Bytes} {y : Bytes × σ} (hy : Packetizer.readBody src st off pre buf = some y) :
    Packetizer.readBody src' st off pre buf = some y := by
  unfold Packetizer.readBody at *
  split at hy
  · next h0 => rw [if_pos h0]; exact hy
  · next h0 =>
    rw [if_neg h0]
    obtain ⟨x, h1, h2⟩ := Option.map_eq_some_iff.1 hy
    rw [h _ _ _ _ h0 h1, Option.map_some, h2]

theorem reader_mono {cfg : Config} (hc : ConfigOk cfg) {w : World} {g : Ghost} {Q : Src → List Bytes}
    (h : WRel cfg w g Q) {ra : Option Src} {a : Active} (hra : a.rle = true → ra = some .coredump)
    {st : DataSourceRle.State} {off n : Nat} {y : Bytes × DataSourceRle.State}
    (hy : Packetizer.reader cfg.pk Q ra a st off n = some y) : reader cfg w ra a st off n = some y := by
  unfold Packetizer.reader Packetizer.msgReader at hy
  unfold reader Packetizer.msgReader
  have hs : ∀ st off buf x, buf.length ≠ 0 → Packetizer.sourceRead Q ra a st off buf = some x →
      sourceRead cfg w ra a st off buf = some x := fun st off buf x h0 hx => source_mono hc h hra h0 hx
  split at hy
  · next h1 => rw [if_pos h1]; exact body_mono hs hy
  · next h1 => rw [if_neg h1]; exact body_mono hs hy

theorem chunk_mono {σ : Type} {rd rd' : Chunk.Reader σ}
    (h : ∀ st off n y, rd st off n = some y → rd' st off n = some y) {ctx : Chunk.Ctx} {st : σ} {buf : Bytes}
    {r : Chunk.Result σ} (hr : Chunk.getNextChunk rd ctx st buf = some r) :
    Chunk.getNextChunk rd' ctx st buf = some r := by
  unfold Chunk.getNextChunk at *
  split at hr
  · next h0 => rw [if_pos h0]; exact hr
  · next h0 =>
    rw [if_neg h0]
    simp only [Option.bind_eq_bind] at hr ⊢
    obtain ⟨p, h1, hr⟩ := Option.bind_eq_some_iff.1 hr
    obtain ⟨q, h2, hr⟩ := Option.bind_eq_some_iff.1 hr
    rw [h1, Option.bind_some]
    have : Chunk.readData rd' p st = some q := by
      unfold Chunk.readData at *
      split at h2
      · next h3 =>
        rw [if_pos h3]
        simp only [Option.bind_eq_bind] at h2 ⊢
        obtain ⟨y, h4, h2⟩ := Option.bind_eq_some_iff.1 h2
        rw [h _ _ _ _ h4, Option.bind_some]
        exact h2
      · next h3 => rw [if_neg h3]; exact h2
    rw [this, Option.bind_some]
    exact hr

/-! ## Looking for something to send -/

/-- The sources of `l` have been asked, in some order. -/
inductive Polled (cfg : Config) (l : List Src) : Ghost → Ghost → Prop
  | refl (g : Ghost) : Polled cfg l g g
  | step {g g' : Ghost} {x : Src} : x ∈ l → Polled cfg l (g.poll cfg x) g' → Polled cfg l g g'

theorem Polled.mono {cfg : Config} {l l' : List Src} {g g' : Ghost} (h : Polled cfg l g g')
    (hl : ∀ x ∈ l, x ∈ l') : Polled cfg l' g g' := by
  induction h with
  | refl => exact .refl _
  | step hx _ ih => exact .step (hl _ hx) ih

theorem empty_poll {cfg : Config} {g : Ghost} {x y : Src} (hxy : x ≠ y) (h : Empty cfg g x) :
    Empty cfg (g.poll cfg y) x := by
  cases x <;> cases y <;> first | exact absurd rfl hxy | exact h

theorem Polled.empty {cfg : Config} {l : List Src} {g g' : Ghost} (h : Polled cfg l g g') {x : Src} (hx : x ∉ l)
    (he : Empty cfg g x) : Empty cfg g' x := by
  induction h with
  | refl => exact he
  | step hy _ ih => exact ih (empty_poll (fun hxy => hx (hxy ▸ hy)) he)

/-- Asking does not change what is stored. -/
structure SameData (g g' : Ghost) : Prop where
  core : g'.core = g.core
  cap : g'.q.cap = g.q.cap
  committed : g'.q.committed = g.q.committed
  pending : g'.q.pending = g.q.pending
  log : g'.S = g.S
  sources : g'.t.sources = g.t.sources
  waiting : g'.t.waiting = g.t.waiting
  ro : g'.ro = g.ro

theorem poll_same (cfg : Config) (g : Ghost) (x : Src) : SameData g (g.poll cfg x) := by
  cases x with
  | cdr => exact ⟨rfl, rfl, rfl, rfl, rfl, (choose_waiting g.t).2, (choose_waiting g.t).1, rfl⟩
  | _ => exact ⟨rfl, rfl, rfl, rfl, rfl, rfl, rfl, rfl⟩

theorem Polled.same {cfg : Config} {l : List Src} {g g' : Ghost} (h : Polled cfg l g g') : SameData g g' := by
  induction h with
  | refl => exact ⟨rfl, rfl, rfl, rfl, rfl, rfl, rfl, rfl⟩
  | step _ _ ih =>
    rename_i g g' x _ _
    have h1 := poll_same cfg g x
    exact ⟨ih.core.trans h1.core, ih.cap.trans h1.cap, ih.committed.trans h1.committed,
      ih.pending.trans h1.pending, ih.log.trans h1.log, ih.sources.trans h1.sources, ih.waiting.trans h1.waiting, ih.ro.trans h1.ro⟩

/-- The queues have only been filled. -/
structure Filled (l : List Src) (Q Q' : Src → List Bytes) : Prop where
  other : ∀ y, y ∉ l → Q' y = Q y
  keep : ∀ y, Q y ≠ [] → Q' y = Q y
  core : Q' .coredump = Q .coredump

theorem rle_source {src : Src} (h : src.useRle = true) : src = .coredump := by cases src <;> first | rfl | cases h

theorem has_core' {cfg : Config} {w : World} {g : Ghost} {Q : Src → List Bytes} (hc : ConfigOk cfg)
    (h : WRel cfg w g Q) (src : Src) :
    ∃ r w' Q', has cfg src w = some (r, w') ∧ WRel cfg w' (g.poll cfg src) Q' ∧
      r = (Q' src).head?.map List.length ∧ Filled [src] Q Q' ∧
      (Q' src = [] → Empty cfg (g.poll cfg src) src) := by
  by_cases hs : src = .coredump
  · subst hs
    refine ⟨_, w, Q, (has_core h).1, h, rfl, ⟨fun _ _ => rfl, fun _ _ => rfl, rfl⟩, fun hq => ?_⟩
    rw [h.coreQ] at hq
    show g.core = none
    cases hg : g.core with
    | none => rfl
    | some m => rw [hg] at hq; cases hq
  · obtain ⟨r, w', Q', h1, h2, h3, h4, h5, h6⟩ := has_ok hc h src
    refine ⟨r, w', Q', h1, h2, h3, ⟨fun y hy => h4 y (by simpa using hy), fun y hy => ?_, h4 _ (Ne.symm hs)⟩, h6⟩
    by_cases hx : y = src
    · subst hx; exact h5 hy
    · exact h4 y hx

theorem sim_getSource {cfg : Config} (hc : ConfigOk cfg) : ∀ (l : List Src), l.Nodup → ∀ {s : State} {g : Ghost}
    {Q : Src → List Bytes}, WRel cfg s.w g Q →
    ∃ Q' g', Filled l Q Q' ∧ Polled cfg l g g' ∧ (∀ src, ∀ m ∈ Q' src, m.length < 2 ^ 30) ∧ ∀ r p', Packetizer.getSourceWithData cfg.pk l (pk s Q') = some (r, p') →
      ∃ s', getSourceWithData cfg l s = some (r, s') ∧ p' = pk s' Q' ∧ WRel cfg s'.w g' Q' ∧
        (r = none → ∀ x ∈ l, s.mask.testBit (code x) = true → Empty cfg g' x) := by
  intro l
  induction l with
  | nil =>
    intro _ s g Q h
    refine ⟨Q, g, ⟨fun _ _ => rfl, fun _ _ => rfl, rfl⟩, .refl g, h.small hc, fun r p' hp => ?_⟩
    simp only [Packetizer.getSourceWithData, Option.some.injEq, Prod.mk.injEq] at hp
    obtain ⟨rfl, rfl⟩ := hp
    exact ⟨s, rfl, rfl, h, by simp⟩
  | cons src rest ih =>
    intro hnd s g Q h
    obtain ⟨hn, hnd'⟩ := List.nodup_cons.1 hnd
    by_cases hm : (1 <<< src.type) &&& s.mask = 0
    · obtain ⟨Q', g', f, po, sm, hh⟩ := ih hnd' h
      refine ⟨Q', g', ⟨fun y hy => f.other y (fun hx => hy (by simp [hx])), f.keep, f.core⟩,
        po.mono (by simp +contextual), sm, fun r p' hp => ?_⟩
      unfold Packetizer.getSourceWithData at hp
      rw [if_pos (show (1 <<< src.type) &&& (pk s Q').mask = 0 from hm)] at hp
      obtain ⟨s', h1, h2, h3, h4⟩ := hh r p' hp
      refine ⟨s', ?_, h2, h3, fun hr x hx hb => ?_⟩
      · unfold getSourceWithData; rw [if_pos hm]; exact h1
      · rcases List.mem_cons.1 hx with rfl | hx
        · rw [(Packetizer.mask_test _ _).1 hm] at hb; cases hb
        · exact h4 hr x hx hb
    · -- the source is asked
      let r0 := if src.useRle then setRleActive cfg s (some src) else (false, s)
      have hr0 : r0 = if src.useRle then setRleActive cfg s (some src) else (false, s) := rfl
      have hw0 : r0.2.w = s.w ∧ r0.2.mask = s.mask := by
        rw [hr0]; split
        · exact ⟨(setRle_w cfg s _).1, (setRle_w cfg s _).2.1⟩
        · exact ⟨rfl, rfl⟩
      have hp0 : ∀ Q, (if src.useRle then Packetizer.setRleActive cfg.pk (pk s Q) (some src)
          else (false, pk s Q)) = (r0.1, pk r0.2 Q) := by
        intro Q; rw [hr0]; split
        · exact pk_setRle cfg s Q _
        · rfl
      have hrle : r0.1 = true → src = .coredump ∧ r0.2.rleActive = some .coredump := by
        intro hr
        rw [hr0] at hr ⊢
        split at hr
        · next hu =>
          have := rle_source hu
          subst this
          refine ⟨rfl, ?_⟩
          rw [if_pos hu]
          unfold setRleActive at hr ⊢
          split at hr
          · cases hr
          · split
            · next hx => exact absurd hx ‹_›
            · split
              · next hx => exact hx.symm
              · rfl
        · cases hr
      clear_value r0
      by_cases hr : r0.1 = true
      · -- behind the RLE wrapper
        obtain ⟨rfl, hra⟩ := hrle hr
        have hwr : WRel cfg r0.2.w g Q := by rw [hw0.1]; exact h
        have hcore := (has_core hwr).2
        have hgo : ∀ Q', Q' .coredump = Q .coredump → ∀ q, Packetizer.hasMore (pk r0.2 Q') ⟨.coredump, r0.1⟩ = some q →
            ∃ s1, hasMore cfg r0.2 ⟨.coredump, r0.1⟩ = some (q.1, s1) ∧ s1.w = r0.2.w ∧ s1.mask = r0.2.mask ∧
              q.2 = pk s1 Q' := by
          intro Q' hQ q hq
          unfold Packetizer.hasMore at hq
          unfold hasMore
          rw [if_pos hr] at hq ⊢
          obtain ⟨y, hy, hq⟩ := Option.bind_eq_some_iff.1 hq
          have hy' : r0.2.rleActive = some y := hy
          have : y = .coredump := by rw [hra] at hy'; exact (Option.some.inj hy').symm
          subst this
          rw [hy', Option.bind_some, hcore, Option.bind_some]
          obtain ⟨x, hx1, hx2⟩ := Option.map_eq_some_iff.1 hq
          rw [show (pk r0.2 Q').queue .coredump = Q .coredump from hQ] at hx1
          rw [show DataSourceRle.hasMoreMsgs (Q .coredump).head? r0.2.rle = some x from hx1]
          refine ⟨{ r0.2 with rle := x.2 }, ?_, rfl, rfl, ?_⟩
          · rw [Option.map_some, ← hx2, ← hy']
          · rw [← hx2]; rfl
        cases hq0 : hasMore cfg r0.2 ⟨.coredump, r0.1⟩ with
        | none =>
          refine ⟨Q, g, ⟨fun _ _ => rfl, fun _ _ => rfl, rfl⟩, .refl g, h.small hc, fun r p' hp => ?_⟩
          unfold Packetizer.getSourceWithData at hp
          rw [if_neg (show ¬ (1 <<< Src.type .coredump) &&& (pk s Q).mask = 0 from hm)] at hp
          dsimp only at hp
          rw [hp0] at hp
          obtain ⟨q, hq1, -⟩ := Option.bind_eq_some_iff.1 hp
          obtain ⟨s1, hs1, -⟩ := hgo Q rfl q hq1
          rw [hq0] at hs1; cases hs1
        | some q0 =>
          obtain ⟨q1, s1⟩ := q0
          cases q1 with
          | some size =>
            refine ⟨Q, g, ⟨fun _ _ => rfl, fun _ _ => rfl, rfl⟩, .refl g, h.small hc, fun r p' hp => ?_⟩
            unfold Packetizer.getSourceWithData at hp
            rw [if_neg (show ¬ (1 <<< Src.type .coredump) &&& (pk s Q).mask = 0 from hm)] at hp
            dsimp only at hp
            rw [hp0] at hp
            obtain ⟨q, hq1, hq2⟩ := Option.bind_eq_some_iff.1 hp
            obtain ⟨s2, hs1, hs2, hs3, hs4⟩ := hgo Q rfl q hq1
            rw [hq0] at hs1
            simp only [Option.some.injEq, Prod.mk.injEq] at hs1
            obtain ⟨e1, rfl⟩ := hs1
            rw [← e1] at hq2
            simp only [Option.some.injEq, Prod.mk.injEq] at hq2
            obtain ⟨rfl, rfl⟩ := hq2
            refine ⟨s1, ?_, hs4, by rw [hs2]; exact hwr, by simp⟩
            unfold getSourceWithData
            rw [if_neg hm, ← hr0]
            dsimp only
            rw [hq0, Option.bind_some]
          | none =>
            have hs1w : s1.w = r0.2.w ∧ s1.mask = r0.2.mask := by
              unfold hasMore at hq0
              rw [if_pos hr, hra, Option.bind_some, hcore, Option.bind_some] at hq0
              obtain ⟨x, -, hx⟩ := Option.map_eq_some_iff.1 hq0
              simp only [Prod.mk.injEq] at hx
              obtain ⟨-, rfl⟩ := hx
              exact ⟨rfl, rfl⟩
            obtain ⟨Q', g', f, po, sm, hh⟩ := ih hnd' (s := s1) (by rw [hs1w.1]; exact hwr)
            refine ⟨Q', g', ⟨fun y hy => f.other y (fun hx => hy (by simp [hx])), f.keep, f.core⟩,
              po.mono (by simp +contextual), sm, fun r p' hp => ?_⟩
            unfold Packetizer.getSourceWithData at hp
            rw [if_neg (show ¬ (1 <<< Src.type .coredump) &&& (pk s Q').mask = 0 from hm)] at hp
            dsimp only at hp
            rw [hp0] at hp
            obtain ⟨q, hq1, hq2⟩ := Option.bind_eq_some_iff.1 hp
            have hq1' := hq1
            obtain ⟨s2, hs1, hs2, hs3, hs4⟩ := hgo Q' f.core q hq1
            rw [hq0] at hs1
            simp only [Option.some.injEq, Prod.mk.injEq] at hs1
            obtain ⟨e1, rfl⟩ := hs1
            rw [← e1] at hq2
            dsimp only at hq2
            rw [hs4] at hq2
            obtain ⟨s', h1, h2, h3, h4⟩ := hh r p' hq2
            refine ⟨s', ?_, h2, h3, fun hr' x hx hb => ?_⟩
            · unfold getSourceWithData
              rw [if_neg hm, ← hr0]
              dsimp only
              rw [hq0, Option.bind_some]
              exact h1
            · rcases List.mem_cons.1 hx with rfl | hx
              · have : Q .coredump = [] := by
                  cases hQ : Q .coredump with
                  | nil => rfl
                  | cons m rest =>
                    unfold Packetizer.hasMore at hq1'
                    rw [if_pos hr, show (pk r0.2 Q').rleActive = some .coredump from hra, Option.bind_some,
                      show (pk r0.2 Q').queue .coredump = Q .coredump from f.core, hQ] at hq1'
                    obtain ⟨x, hx1, hx2⟩ := Option.map_eq_some_iff.1 hq1'
                    rw [← hx2] at e1
                    unfold DataSourceRle.hasMoreMsgs at hx1
                    dsimp only [List.head?_cons] at hx1
                    split at hx1
                    · rw [← Option.some.inj hx1] at e1; cases e1
                    · obtain ⟨z, -, hz⟩ := Option.map_eq_some_iff.1 hx1
                      rw [← hz] at e1; cases e1
                have he : Empty cfg g .coredump := by
                  rw [h.coreQ] at this
                  show g.core = none
                  cases hg : g.core with
                  | none => rfl
                  | some m => rw [hg] at this; cases this
                exact po.empty hn he
              · exact h4 hr' x hx (by rw [hs1w.2, hw0.2]; exact hb)
      · -- the source itself
        have hr' : r0.1 = false := by simpa using hr
        have hwr : WRel cfg r0.2.w g Q := by rw [hw0.1]; exact h
        obtain ⟨n, w', Q1, a1, a2, a3, a4, a5⟩ := has_core' hc hwr src
        have hmore : hasMore cfg r0.2 ⟨src, r0.1⟩ = some (n, { r0.2 with w := w' }) := by
          unfold hasMore; rw [if_neg hr]; dsimp only; rw [a1]; rfl
        have hsys : getSourceWithData cfg (src :: rest) s = match n with
            | some size => some (some (⟨src, r0.1⟩, size), { r0.2 with w := w' })
            | none => getSourceWithData cfg rest { r0.2 with w := w' } := by
          rw [getSourceWithData, if_neg hm, ← hr0]
          dsimp only
          rw [hmore, Option.bind_some]
          cases n <;> rfl
        have hpk : ∀ Q', Packetizer.getSourceWithData cfg.pk (src :: rest) (pk s Q') =
            match (Q' src).head?.map List.length with
            | some size => some (some (⟨src, r0.1⟩, size), pk { r0.2 with w := w' } Q')
            | none => Packetizer.getSourceWithData cfg.pk rest (pk { r0.2 with w := w' } Q') := by
          intro Q'
          rw [Packetizer.getSourceWithData,
            if_neg (show ¬ (1 <<< Src.type src) &&& (pk s Q').mask = 0 from hm)]
          dsimp only
          rw [hp0, Packetizer.hasMore, if_neg hr, Option.bind_some]
          rfl
        cases hn1 : n with
        | some size =>
          refine ⟨Q1, g.poll cfg src, ⟨fun y hy => a4.other y (fun hx => hy (by
            simp only [List.mem_singleton] at hx; simp [hx])), a4.keep, a4.core⟩, .step (by simp) (.refl _),
            a2.small hc, fun r p' hp => ?_⟩
          rw [hpk, ← a3, hn1] at hp
          simp only [Option.some.injEq, Prod.mk.injEq] at hp
          obtain ⟨rfl, rfl⟩ := hp
          refine ⟨_, by rw [hsys, hn1], rfl, a2, by simp⟩
        | none =>
          obtain ⟨Q', g', f, po, sm, hh⟩ := ih hnd' (s := { r0.2 with w := w' }) a2
          have hsrc : Q' src = Q1 src := f.other src hn
          refine ⟨Q', g', ⟨fun y hy => ?_, fun y hy => ?_, f.core.trans a4.core⟩,
            .step (by simp) (po.mono (by simp +contextual)), sm, fun r p' hp => ?_⟩
          · rw [f.other y (fun hx => hy (by simp [hx])), a4.other y (fun hx => hy (by
              simp only [List.mem_singleton] at hx; simp [hx]))]
          · rw [f.keep y (by rw [a4.keep y hy]; exact hy), a4.keep y hy]
          · rw [hpk, hsrc, ← a3, hn1] at hp
            dsimp only at hp
            obtain ⟨s', h1, h2, h3, h4⟩ := hh r p' hp
            refine ⟨s', by rw [hsys, hn1]; exact h1, h2, h3, fun hr1 x hx hb => ?_⟩
            rcases List.mem_cons.1 hx with rfl | hx
            · refine po.empty hn (a5 ?_)
              rw [hn1] at a3
              cases hQ : Q1 x with
              | nil => rfl
              | cons m l => rw [hQ] at a3; cases a3
            · exact h4 hr1 x hx (by rw [show (State.mask { r0.2 with w := w' }) = s.mask from hw0.2]; exact hb)

/-! ## The calls of the packetizer -/

/-- The packetizer on queues does what the specification says, and the queues are what the sources hold. -/
structure SRel (cfg : Config) (s : State) (g : Ghost) (S : Spec.Packetizer.State) : Prop where
  pk : Props.Rel cfg.pk (pk s S.queue) S
  w : WRel cfg s.w g S.queue

theorem rel_fill {cfg : Config} {s : State} {S : Spec.Packetizer.State} (h : Props.Rel cfg.pk (pk s S.queue) S)
    (hcur : S.cur = none) {Q : Src → List Bytes} (hQ : Q .coredump = S.queue .coredump)
    (hsm : ∀ src, ∀ m ∈ Q src, m.length < 2 ^ 30) :
    Props.Rel cfg.pk (Sys.pk s Q) { S with queue := Q } := by
  refine ⟨rfl, h.mask, hsm, h.ra, ?_⟩
  have hc := h.cur
  rw [hcur] at hc
  show Props.CurOk cfg.pk (Sys.pk s Q) S.cur
  rw [hcur]
  obtain ⟨h1, h2⟩ : (Sys.pk s S.queue).msg = none ∧ Packetizer.RleIdle cfg.pk (Sys.pk s S.queue) := hc
  refine ⟨h1, ?_⟩
  rcases h2 with h2 | ⟨h3, h4, h5⟩
  · exact Or.inl h2
  · refine Or.inr ⟨h3, h4, ?_⟩
    rcases h5 with h5 | ⟨m, rest, c, E, h6, h7⟩
    · exact Or.inl h5
    · exact Or.inr ⟨m, rest, c, E, hQ.trans h6, h7⟩

theorem sources_nodup : Packetizer.sources.Nodup := by decide

/-- What asking for something to send does to the specification. -/
structure Asked (cfg : Config) (g : Ghost) (S : Spec.Packetizer.State) (g' : Ghost) (Q : Src → List Bytes) : Prop where
  filled : Filled Packetizer.sources S.queue Q
  polled : Polled cfg Packetizer.sources g g'

theorem mem_sources (x : Src) : x ∈ Packetizer.sources := by cases x <;> simp [Packetizer.sources]

theorem msg_none {cfg : Config} {s : State} {S : Spec.Packetizer.State} {Q : Src → List Bytes}
    (h : Props.Rel cfg.pk (pk s Q) S) : s.msg = none ↔ S.cur = none := by
  have hc := h.cur
  cases hcur : S.cur with
  | none => rw [hcur] at hc; exact ⟨fun _ => rfl, fun _ => hc.1⟩
  | some t =>
    rw [hcur] at hc
    have : s.msg = some (activeOf cfg.pk t.src) := Props.Sending.msg hc
    simp [this]

theorem ask_ok {cfg : Config} (hc : ConfigOk cfg) {s : State} {g : Ghost} {S : Spec.Packetizer.State}
    (h : SRel cfg s g S) (hcur : S.cur = none) :
    ∃ Q g', Asked cfg g S g' Q ∧ Props.Rel cfg.pk (pk s Q) { S with queue := Q } ∧
      ∀ r p', Packetizer.getSourceWithData cfg.pk Packetizer.sources (pk s Q) = some (r, p') →
        ∃ s', getSourceWithData cfg Packetizer.sources s = some (r, s') ∧ p' = pk s' Q ∧ WRel cfg s'.w g' Q ∧
          (r = none → ∀ x, S.mask.testBit (code x) = true → Empty cfg g' x) := by
  obtain ⟨Q, g', f, po, sm, hh⟩ := sim_getSource hc Packetizer.sources sources_nodup h.w
  refine ⟨Q, g', ⟨f, po⟩, rel_fill h.pk hcur f.core sm, fun r p' hp => ?_⟩
  obtain ⟨s', h1, h2, h3, h4⟩ := hh r p' hp
  refine ⟨s', h1, h2, h3, fun hr x hx => h4 hr x (mem_sources x) ?_⟩
  rw [← show S.mask = s.mask from h.pk.mask]; exact hx

theorem begin_ok {cfg : Config} (hc : ConfigOk cfg) {s : State} {g : Ghost} {S : Spec.Packetizer.State}
    (h : SRel cfg s g S) (multi : Bool) :
    ∃ o s' g' Q S', begin' cfg multi s = some (o, s') ∧ Begin cfg.pk multi { S with queue := Q } o S' ∧
      SRel cfg s' g' S' ∧ Asked cfg g S g' Q ∧ (o.ok = true → S'.cur.isSome = true) ∧
      (o.ok = false → ∀ x, S.mask.testBit (code x) = true → Empty cfg g' x) := by
  obtain ⟨c, hcur⟩ : ∃ c, S.cur = c := ⟨_, rfl⟩
  cases c with
  | some t =>
    obtain ⟨o, p', S', h1, h2, h3, h4⟩ := Props.begin_refines hc.key h.pk multi
    have hm : s.msg ≠ none := fun hx => by rw [(msg_none h.pk).1 hx] at hcur; cases hcur
    have hn : s.msg.isNone = false := by cases hs : s.msg with
      | none => exact absurd hs hm
      | some a => rfl
    refine ⟨o, s, g, S.queue, S', ?_, (show Begin cfg.pk multi { S with queue := S.queue } o S' from h2), ?_, ⟨⟨fun _ _ => rfl, fun _ _ => rfl, rfl⟩, .refl g⟩, h4, ?_⟩
    · unfold Packetizer.begin' at h1
      unfold begin'
      rw [show (pk s S.queue).msg = s.msg from rfl, hn] at h1
      simp only [hn, Bool.false_eq_true, if_false, Option.map_some, if_true, Option.some.injEq, Prod.mk.injEq] at h1 ⊢
      exact ⟨h1.1, trivial⟩
    · have hS : S' = S := by
        cases h2 with
        | nothing => rfl
        | start _ _ _ _ hx => rw [hcur] at hx; cases hx
        | resume => rfl
      rw [hS]; exact h
    · intro ho
      cases h2 with
      | nothing hx => rw [hcur] at hx; cases hx
      | start _ _ _ _ hx => rw [hcur] at hx; cases hx
      | resume => cases ho
  | none =>
    obtain ⟨Q, g', hA, hR, hT⟩ := ask_ok hc h hcur
    obtain ⟨o, p', S', h1, h2, h3, h4⟩ := Props.begin_refines hc.key hR multi
    have hm : s.msg.isNone = true := by rw [(msg_none h.pk).2 hcur]; rfl
    unfold Packetizer.begin' at h1
    rw [show (pk s Q).msg = s.msg from rfl, hm, if_pos rfl] at h1
    obtain ⟨r1, h5, h6⟩ := Option.map_eq_some_iff.1 h1
    unfold Packetizer.loadNext at h5
    obtain ⟨r0, h7, h8⟩ := Option.map_eq_some_iff.1 h5
    obtain ⟨r, p0⟩ := r0
    obtain ⟨s1, e1, rfl, e3, e4⟩ := hT r p0 h7
    have hS : S'.queue = Q := by cases h2 <;> rfl
    cases r with
    | none =>
      dsimp only at h8
      subst h8
      simp only [Bool.false_eq_true, if_false, Prod.mk.injEq] at h6
      obtain ⟨rfl, rfl⟩ := h6
      refine ⟨_, s1, g', Q, S', ?_, h2, ⟨?_, ?_⟩, hA, h4, fun _ => e4 rfl⟩
      · unfold begin' loadNext
        rw [hm, if_pos rfl, e1]; rfl
      · rw [hS]; exact h3
      · rw [hS]; exact e3
    | some a =>
      obtain ⟨a, size⟩ := a
      dsimp only at h8
      subst h8
      simp only [if_true, Prod.mk.injEq] at h6
      obtain ⟨rfl, rfl⟩ := h6
      refine ⟨_, { s1 with msg := some a, ctx := Chunk.getChunkInfo (Chunk.Ctx.start (size + (Packetizer.header cfg.pk a).length) multi) }, g', Q, S', ?_, h2, ⟨?_, ?_⟩, hA, h4, fun hx => by cases hx⟩
      · unfold begin' loadNext
        rw [hm, if_pos rfl, e1]; rfl
      · rw [hS]; exact h3
      · rw [hS]; exact e3

theorem next_cases {S S' : Spec.Packetizer.State} {buf : Bytes} {o : NextOut} (h : Next S buf o S') :
    (o.status = .noMoreData ∧ S' = S) ∨
    (o.status ≠ .noMoreData ∧ S'.cur.isSome = true ∧ S'.delivered = S.delivered ∧ S'.queue = S.queue) ∨
    ∃ t m rest, o.status ≠ .noMoreData ∧ S.cur = some t ∧ S'.cur = none ∧ S.queue t.src = m :: rest ∧
      S'.delivered = S.delivered ++ [(t.src, m)] ∧ S'.queue = fun x => if x = t.src then rest else S.queue x := by
  cases h with
  | idle => exact Or.inl ⟨rfl, rfl⟩
  | small => exact Or.inl ⟨rfl, rfl⟩
  | more t => exact Or.inr (Or.inl ⟨by cases t.multi <;> simp, rfl, rfl, rfl⟩)
  | last t _ _ len m rest hc _ _ _ _ _ hq => exact Or.inr (Or.inr ⟨t, m, rest, by simp, hc, rfl, hq, rfl, rfl⟩)

theorem available_ok {cfg : Config} (hc : ConfigOk cfg) {s : State} {g : Ghost} {S : Spec.Packetizer.State}
    (h : SRel cfg s g S) :
    ∃ o s' g' Q, dataAvailable cfg s = some (o, s') ∧ SRel cfg s' g' { S with queue := Q } ∧ Asked cfg g S g' Q ∧
      (o = false → ∀ x, S.mask.testBit (code x) = true → Empty cfg g' x) := by
  obtain ⟨c, hcur⟩ : ∃ c, S.cur = c := ⟨_, rfl⟩
  cases c with
  | some t =>
    have hm : s.msg ≠ none := fun hx => by rw [(msg_none h.pk).1 hx] at hcur; cases hcur
    have hn : s.msg.isSome = true := by cases hs : s.msg with
      | none => exact absurd hs hm
      | some a => rfl
    exact ⟨true, s, g, S.queue, by simp [dataAvailable, hn], h, ⟨⟨fun _ _ => rfl, fun _ _ => rfl, rfl⟩, .refl g⟩,
      by simp⟩
  | none =>
    obtain ⟨Q, g', hA, hR, hT⟩ := ask_ok hc h hcur
    have hm : s.msg = none := (msg_none h.pk).2 hcur
    have hcu := hR.cur
    rw [show ({ S with queue := Q } : Spec.Packetizer.State).cur = none from hcur] at hcu
    obtain ⟨r, p', e1, e2, e3, e4⟩ := Packetizer.getSource_eq cfg.pk (pk s Q) { S with queue := Q } rfl hR.mask hcu.2
      hR.small
    obtain ⟨s', f1, rfl, f3, f4⟩ := hT r p' e1
    refine ⟨r.isSome, s', g', Q, by simp [dataAvailable, hm, f1], ⟨⟨rfl, ?_, hR.small, Props.rleIdle_ra e3, ?_⟩, f3⟩, hA,
      fun ho => f4 (by simpa using ho)⟩
    · exact hR.mask.trans e2.mask.symm
    · show Props.CurOk cfg.pk (pk s' Q) S.cur
      rw [hcur]
      exact ⟨e2.msg.trans hm, e3⟩

theorem next_ok {cfg : Config} (hc : ConfigOk cfg) {s : State} {g : Ghost} {S : Spec.Packetizer.State}
    (h : SRel cfg s g S) (buf : Bytes) :
    ∃ o s' g' S', getNext cfg s buf = some (o, s') ∧ Next S buf o S' ∧ SRel cfg s' g' S' ∧
      ((g' = g ∧ S'.delivered = S.delivered ∧ S'.queue = S.queue) ∨
        ∃ src m, S.queue src = [m] ∧ g' = g.mark src ∧ S'.delivered = S.delivered ++ [(src, m)]) := by
  obtain ⟨o, p', S', h1, h2, h3⟩ := Props.next_refines h.pk buf
  cases hcur : S.cur with
  | none =>
    have hm : s.msg = none := (msg_none h.pk).2 hcur
    unfold Packetizer.getNext at h1
    rw [show (pk s S.queue).msg = none from hm] at h1
    simp only [Option.some.injEq, Prod.mk.injEq] at h1
    obtain ⟨rfl, rfl⟩ := h1
    have hS : S' = S := by
      rcases next_cases h2 with ⟨-, hx⟩ | ⟨hx, -⟩ | ⟨_, _, _, hx, -⟩
      · exact hx
      · exact absurd rfl hx
      · exact absurd rfl hx
    subst hS
    exact ⟨_, s, g, S', by simp [getNext, hm], h2, h, Or.inl ⟨rfl, rfl, rfl⟩⟩
  | some t =>
    have hsn := h.pk.cur
    rw [hcur] at hsn
    have hsn : Props.Sending cfg.pk (pk s S.queue) t := hsn
    have hm : s.msg = some (activeOf cfg.pk t.src) := hsn.msg
    unfold Packetizer.getNext at h1
    rw [show (pk s S.queue).msg = some (activeOf cfg.pk t.src) from hm] at h1
    dsimp only at h1
    obtain ⟨r, h4, h5⟩ := Option.bind_eq_some_iff.1 h1
    have hra : (activeOf cfg.pk t.src).rle = true → s.rleActive = some .coredump ∧ t.src = .coredump := by
      intro hr
      have h1 := hsn.ra hr
      have h2 : t.src = .coredump := by
        have : encoded cfg.pk t.src = true := hr
        simp only [encoded, Bool.and_eq_true, decide_eq_true_eq] at this
        exact this.1
      rw [h2] at h1
      exact ⟨h1, h2⟩
    have h4' : Chunk.getNextChunk (reader cfg s.w s.rleActive (activeOf cfg.pk t.src)) s.ctx s.rle buf = some r :=
      chunk_mono (fun st off n y hy => reader_mono hc h.w (fun hr => (hra hr).1) hy) h4
    have hgn : getNext cfg s buf = finishNext cfg s (activeOf cfg.pk t.src) r := by
      unfold getNext
      rw [hm]
      dsimp only
      rw [h4', Option.bind_some]
    rw [hgn]
    unfold Packetizer.finishNext at h5
    unfold finishNext
    dsimp only at h5 ⊢
    by_cases h0 : r.outBufLen = 0
    · rw [if_pos h0] at h5 ⊢
      simp only [Option.some.injEq, Prod.mk.injEq] at h5
      obtain ⟨rfl, rfl⟩ := h5
      have hS : S' = S := by
        rcases next_cases h2 with ⟨-, hx⟩ | ⟨hx, -⟩ | ⟨_, _, _, hx, -⟩
        · exact hx
        · exact absurd rfl hx
        · exact absurd rfl hx
      subst hS
      exact ⟨_, _, g, S', rfl, h2, ⟨h3, h.w⟩, Or.inl ⟨rfl, rfl, rfl⟩⟩
    · rw [if_neg h0] at h5 ⊢
      by_cases hmd : r.moreData = true
      · simp only [hmd, Bool.not_true, Bool.false_eq_true, if_false] at h5 ⊢
        simp only [Option.some.injEq, Prod.mk.injEq] at h5
        obtain ⟨rfl, rfl⟩ := h5
        have hc1 : S'.cur.isSome = true := by
          have := (msg_none (s := { s with ctx := r.ctx, rle := r.reader }) (Q := S.queue) h3)
          rw [show (State.msg { s with ctx := r.ctx, rle := r.reader }) = some (activeOf cfg.pk t.src) from hm] at this
          cases hx : S'.cur with
          | none => rw [hx] at this; simp at this
          | some _ => rfl
        have hS : S'.delivered = S.delivered ∧ S'.queue = S.queue := by
          rcases next_cases h2 with ⟨-, hx⟩ | ⟨-, -, hx⟩ | ⟨_, _, _, -, -, hx, -⟩
          · rw [hx]; exact ⟨rfl, rfl⟩
          · exact hx
          · rw [hx] at hc1; cases hc1
        refine ⟨_, _, g, S', rfl, h2, ⟨?_, ?_⟩, Or.inl ⟨rfl, hS.1, hS.2⟩⟩
        · rw [hS.2]; exact h3
        · rw [hS.2]; exact h.w
      · have hmd' : r.moreData = false := by simpa using hmd
        simp only [hmd', Bool.not_false, if_true] at h5 ⊢
        obtain ⟨p1, h6, h7⟩ := Option.map_eq_some_iff.1 h5
        obtain ⟨m, rest, hq, him⟩ := hsn.head
        have hq : S.queue t.src = m :: rest := hq
        have hrest := h.w.single hq
        subst hrest
        obtain ⟨w', w1, w2⟩ := mark_ok hc h.w hq
        have hmark : ∃ s1, markRead cfg { s with ctx := r.ctx, rle := r.reader } (activeOf cfg.pk t.src) = some s1 ∧
            s1.w = w' ∧ p1 = pk s1 (fun x => if x = t.src then [] else S.queue x) := by
          have hpop : (fun x => if x = t.src then (S.queue x).tail else S.queue x) =
              (fun x => if x = t.src then [] else S.queue x) := by
            funext x
            by_cases hx : x = t.src
            · subst hx; simp [hq]
            · simp [hx]
          unfold Packetizer.markRead at h6
          unfold markRead
          cases hr : (activeOf cfg.pk t.src).rle with
          | true =>
            obtain ⟨k1, k2⟩ := hra hr
            simp only [hr, if_true] at h6 ⊢
            rw [show (Packetizer.State.rleActive { pk s S.queue with ctx := r.ctx, rle := r.reader }) =
              some .coredump from k1, Option.map_some] at h6
            rw [show (State.rleActive { s with ctx := r.ctx, rle := r.reader }) = some .coredump from k1,
              Option.bind_some, ← k2, w1, Option.map_some]
            refine ⟨_, rfl, rfl, ?_⟩
            rw [← Option.some.inj h6, ← hpop]
            unfold pk
            dsimp only
            rw [k2]
          | false =>
            simp only [hr, Bool.false_eq_true, if_false] at h6 ⊢
            dsimp only [activeOf] at h6 ⊢
            rw [w1, Option.map_some]
            refine ⟨_, rfl, rfl, ?_⟩
            rw [← Option.some.inj h6, ← hpop]
            rfl
        obtain ⟨s1, k1, k2, k3⟩ := hmark
        simp only [Prod.mk.injEq] at h7
        obtain ⟨rfl, rfl⟩ := h7
        rw [k3, pk_reset] at h3
        have hc1 : S'.cur = none := by
          have := (msg_none h3)
          rw [← this]
          unfold reset
          exact (setRle_w cfg _ none).2.2
        have hS : S'.delivered = S.delivered ++ [(t.src, m)] ∧
            S'.queue = fun x => if x = t.src then [] else S.queue x := by
          rcases next_cases h2 with ⟨hx, -⟩ | ⟨-, hx, -⟩ | ⟨t', m', rest', -, hx, -, hq', hx1, hx2⟩
          · cases hx
          · rw [hc1] at hx; cases hx
          · rw [hcur] at hx
            cases hx
            rw [hq] at hq'
            cases hq'
            exact ⟨hx1, hx2⟩
        rw [k1, Option.map_some]
        refine ⟨_, _, g.mark t.src, S', rfl, h2, ⟨?_, ?_⟩, Or.inr ⟨t.src, m, hq, rfl, hS.1⟩⟩
        · rw [hS.2]; exact h3
        · rw [hS.2, reset_w, k2]; exact w2

theorem reset_ok {cfg : Config} {s : State} {g : Ghost} {S : Spec.Packetizer.State} (h : SRel cfg s g S) :
    SRel cfg (reset cfg s) g { S with cur := none } := by
  refine ⟨?_, by rw [reset_w]; exact h.w⟩
  show Props.Rel cfg.pk (pk (reset cfg s) S.queue) _
  rw [← pk_reset]
  obtain ⟨r1, r2, r3⟩ := Props.reset_same cfg.pk (pk s S.queue)
  refine ⟨r1.symm, ?_, by rw [r1]; exact h.pk.small, fun _ => Props.reset_idle h.pk.ra,
    ⟨r3, Or.inl (Props.reset_idle h.pk.ra)⟩⟩
  rw [r2]; exact h.pk.mask

theorem active_ok {cfg : Config} {s : State} {g : Ghost} {S : Spec.Packetizer.State} (h : SRel cfg s g S) (mask : Nat) :
    SRel cfg (setActiveSources cfg s mask) g { S with cur := none, mask := mask } := by
  obtain ⟨h1, h2⟩ := reset_ok h
  exact ⟨⟨h1.queue, rfl, h1.small, h1.ra, h1.cur⟩, h2⟩

/-- A change of the sources that leaves the queues alone. -/
theorem client_ok {cfg : Config} {s : State} {g g' : Ghost} {S : Spec.Packetizer.State} (h : SRel cfg s g S) {w' : World}
    (hw : WRel cfg w' g' S.queue) : SRel cfg { s with w := w' } g' S := ⟨h.pk, hw⟩

end Mflt.Sys
