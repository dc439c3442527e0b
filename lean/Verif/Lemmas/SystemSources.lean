import Verif.Lemmas.SystemSize
import Verif.Lemmas.Cdr
import Verif.Lemmas.Mem
import Verif.Props.EventStorage
import Verif.Spec.System

/-! # The sources of the packetizer hold queues -/

namespace Mflt.Sys

open Packetizer (Src)
open Props (Holds step_refines)
open Spec.EventQueue (message messageOf batchCount)

/-- What the sources stand for. -/
structure Ghost where
  core : Option Bytes
  q : Spec.EventQueue.State
  S : Spec.Log.State
  t : Spec.Cdr.State
  ro : Nat

structure ConfigOk (cfg : Config) : Prop where
  ds : cfg.log.dataSource = true
  line : Log.ConfigOk cfg.log
  key : (cfg.pk.key.getD []).length < 2 ^ 30
  dev : Log.devLoad cfg.dev < 2 ^ 20
  info : cfg.cdr.maxMetadata < 2 ^ 29

/-- The message of an upload. -/
def logMsg (cfg : Config) (w : World) (S : Spec.Log.State) : Bytes :=
  Cbor.emitAll (Log.uploadCalls cfg.log cfg.dev w.log.trigger w.log.cb.readOffset S.cap S.entries)

/-- The message of a recording. -/
def cdrMsg (cfg : Config) (r : Cdr.Recording) : Bytes := Cdr.head cfg.cdr.dev r ++ r.data

/-- The coredump in the storage. -/
def CoreRel (mem : Bytes) : Option Bytes → Prop
  | none => Coredump.hasValid true mem = none
  | some m => Coredump.hasValid true mem = some m.length ∧ mem.take m.length = m ∧ m.length ≤ mem.length ∧
      m.length < 2 ^ 30

/-- The sources hold the messages `Q`. -/
structure WRel (cfg : Config) (w : World) (g : Ghost) (Q : Src → List Bytes) : Prop where
  coreSize : w.core.length < 2 ^ 31
  core : CoreRel w.core g.core
  coreQ : Q .coredump = g.core.toList
  ev : Holds cfg.ev.batchMax w.ev g.q
  evCap : g.q.cap < 2 ^ 29
  evQ : Q .event = if g.q.reading = 0 then [] else [message g.q]
  log : Log.Rel cfg.log w.log g.S
  logCap : g.S.cap < 2 ^ 20
  logQ : Q .log = [] ∨ (g.S.frozen.isSome = true ∧ Q .log = [logMsg cfg w g.S])
  cdr : Cdr.Rel cfg.cdr w.cdr g.t
  cdrSmall : ∀ i, ∀ r ∈ g.t.waiting i, r.data.length < 2 ^ 29
  cdrQ : Q .cdr = [] ∨ ∃ r, g.t.recording = some r ∧ (Cdr.head cfg.cdr.dev r).length ≤ cfg.cdr.maxMetadata ∧
    Q .cdr = [cdrMsg cfg r]
  logRo : w.log.cb.readOffset = g.ro

theorem messageOf_le (es : List Bytes) : (messageOf es).length ≤ 5 + es.flatten.length := by
  have := EventStorage.length_arrayHead es.length
  unfold messageOf
  split <;> simp at * ; omega

theorem flatten_take_le (n : Nat) (es : List Bytes) : (es.take n).flatten.length ≤ es.flatten.length := by
  induction es generalizing n with
  | nil => simp
  | cons e es ih =>
    cases n with
    | zero => simp
    | succ n => have := ih n; simp only [List.take_succ_cons, List.flatten_cons, List.length_append]; omega

theorem flatten_used (q : Spec.EventQueue.State) : q.committed.flatten.length ≤ Spec.EventQueue.used q := by
  unfold Spec.EventQueue.used
  have : ∀ es : List Bytes, es.flatten.length ≤ (es.map fun e => e.length + 2).sum := by
    intro es
    induction es with
    | nil => simp
    | cons e es ih => simp only [List.flatten_cons, List.length_append, List.map_cons, List.sum_cons]; omega
  have := this q.committed
  omega

theorem event_small {b : Option Nat} {s : EventStorage.State} {q : Spec.EventQueue.State} (h : Holds b s q)
    (hc : q.cap < 2 ^ 29) : (message q).length < 2 ^ 30 := by
  have h1 := messageOf_le (q.committed.take q.reading)
  have h2 := flatten_take_le q.reading q.committed
  have h3 := flatten_used q
  have h4 := h.used_le
  unfold message
  omega

theorem log_total {cfg : Log.Config} {s : Log.State} {S : Spec.Log.State} (h : Log.Rel cfg s S) :
    Spec.Log.total S.entries ≤ S.cap := by
  obtain ⟨ro, hr⟩ := h.core.ring
  rw [← hr.readSize, ← hr.cap]; exact hr.inv.size

theorem log_small {cfg : Config} (hc : ConfigOk cfg) {w : World} {S : Spec.Log.State}
    (h : Log.Rel cfg.log w.log S) (hcap : S.cap < 2 ^ 20) : (logMsg cfg w S).length < 2 ^ 30 := by
  have h1 := Log.upload_le cfg.log cfg.dev w.log.trigger w.log.cb.readOffset S.cap S.entries
  have h2 := log_total h
  have h3 := hc.dev
  unfold logMsg
  omega

theorem cdr_recording {c : Cdr.Config} {s : Cdr.State} {t : Spec.Cdr.State} (h : Cdr.Rel c s t) {r : Cdr.Recording}
    (hr : t.recording = some r) : ∃ i l, t.current = some i ∧ t.waiting i = r :: l := by
  unfold Spec.Cdr.State.recording at hr
  cases hc : t.current with
  | none => rw [hc] at hr; cases hr
  | some i =>
    rw [hc] at hr
    dsimp only at hr
    obtain ⟨l, hl⟩ := List.head?_eq_some_iff.1 hr
    exact ⟨i, l, rfl, hl⟩

theorem cdr_small {cfg : Config} (hc : ConfigOk cfg) {w : World} {g : Ghost} {Q : Src → List Bytes}
    (h : WRel cfg w g Q) {r : Cdr.Recording} (hr : g.t.recording = some r)
    (hf : (Cdr.head cfg.cdr.dev r).length ≤ cfg.cdr.maxMetadata) : (cdrMsg cfg r).length < 2 ^ 30 := by
  obtain ⟨i, l, -, hw⟩ := cdr_recording h.cdr hr
  have h1 := h.cdrSmall i r (by rw [hw]; simp)
  have h2 := hc.info
  unfold cdrMsg
  rw [List.length_append]
  omega

theorem WRel.small {cfg : Config} (hc : ConfigOk cfg) {w : World} {g : Ghost} {Q : Src → List Bytes}
    (h : WRel cfg w g Q) : ∀ src, ∀ m ∈ Q src, m.length < 2 ^ 30 := by
  intro src m hm
  cases src with
  | coredump =>
    rw [h.coreQ] at hm
    have := h.core
    cases hg : g.core with
    | none => simp [hg] at hm
    | some x =>
      rw [hg] at this hm
      simp at hm; subst hm
      exact this.2.2.2
  | event =>
    rw [h.evQ] at hm
    split at hm
    · simp at hm
    · simp at hm; subst hm; exact event_small h.ev h.evCap
  | log =>
    rcases h.logQ with h1 | ⟨-, h1⟩
    · rw [h1] at hm; simp at hm
    · rw [h1] at hm; simp at hm; subst hm; exact log_small hc h.log h.logCap
  | cdr =>
    rcases h.cdrQ with h1 | ⟨r, h1, h2, h3⟩
    · rw [h1] at hm; simp at hm
    · rw [h3] at hm; simp at hm; subst hm; exact cdr_small hc h h1 h2

/-- Every queue holds at most one message. -/
theorem WRel.single {cfg : Config} {w : World} {g : Ghost} {Q : Src → List Bytes}
    (h : WRel cfg w g Q) {src : Src} {m : Bytes} {rest : List Bytes} (hq : Q src = m :: rest) : rest = [] := by
  cases src with
  | coredump => rw [h.coreQ] at hq; cases hg : g.core <;> simp [hg] at hq; exact hq.2
  | event =>
    rw [h.evQ] at hq
    split at hq
    · cases hq
    · injection hq with _ h2; exact h2.symm
  | log =>
    rcases h.logQ with h1 | ⟨-, h1⟩
    · rw [h1] at hq; cases hq
    · rw [h1] at hq; injection hq with _ h2; exact h2.symm
  | cdr =>
    rcases h.cdrQ with h1 | ⟨r, -, -, h1⟩
    · rw [h1] at hq; cases hq
    · rw [h1] at hq; injection hq with _ h2; exact h2.symm

/-! ## Asking for a message -/

/-- What asking does. -/
def Ghost.poll (cfg : Config) (g : Ghost) : Src → Ghost
  | .event => { g with q := { g.q with
      reading := if g.q.reading = 0 then batchCount cfg.ev.batchMax g.q.committed else g.q.reading } }
  | .cdr => { g with t := g.t.choose }
  | _ => g

/-- Nothing to send. -/
def Empty (cfg : Config) (g : Ghost) : Src → Prop
  | .coredump => g.core = none
  | .event => g.q.committed = []
  | .log => g.S.frozen = none
  | .cdr => (∃ r, g.t.recording = some r ∧ cfg.cdr.maxMetadata < (Cdr.head cfg.cdr.dev r).length) ∨
      (g.t.current = none ∧ ∀ i ∈ g.t.sources, g.t.waiting i = [])

theorem event_step {b : Option Nat} {s : EventStorage.State} {q q' : Spec.EventQueue.State}
    {op : Spec.EventQueue.Op} {o : Spec.EventQueue.Out} (h : Holds b s q)
    (hs : Spec.EventQueue.step b q op = some (o, q')) :
    ∃ s', EventStorage.step ⟨b⟩ s op = some (o, s') ∧ Holds b s' q' := step_refines h hs

theorem batchCount_zero {b : Option Nat} {es : List Bytes} (h : batchCount b es = 0) : es = [] := by
  cases es with
  | nil => rfl
  | cons e es => cases b <;> simp [batchCount] at h

theorem has_event {cfg : Config} {w : World} {g : Ghost} {Q : Src → List Bytes} (h : WRel cfg w g Q) :
    ∃ r w' Q', has cfg .event w = some (r, w') ∧ WRel cfg w' (g.poll cfg .event) Q' ∧
      r = (Q' .event).head?.map List.length ∧ (∀ x, x ≠ .event → Q' x = Q x) ∧
      (Q .event ≠ [] → Q' .event = Q .event) ∧ (Q' .event = [] → Empty cfg (g.poll cfg .event) .event) := by
  let n := if g.q.reading = 0 then batchCount cfg.ev.batchMax g.q.committed else g.q.reading
  let q' := { g.q with reading := n }
  have hn : n = (if g.q.reading = 0 then batchCount cfg.ev.batchMax g.q.committed else g.q.reading) := rfl
  obtain ⟨s', h1, h2⟩ := event_step (op := .hasData) (o := .avail (decide (n ≠ 0)) (message q').length)
    (q' := q') h.ev rfl
  simp only [EventStorage.step, Option.map_eq_some_iff] at h1
  obtain ⟨⟨b, k, s2⟩, h1, h3⟩ := h1
  simp only [Prod.mk.injEq, Spec.EventQueue.Out.avail.injEq] at h3
  obtain ⟨⟨rfl, rfl⟩, rfl⟩ := h3
  refine ⟨if n = 0 then none else some (message q').length, { w with ev := s2 }, fun x => if x = .event then (if n = 0 then [] else [message q']) else Q x,
    ?_, ?_, ?_, ?_, ?_, ?_⟩
  · simp only [has]; rw [h1]; by_cases h0 : n = 0 <;> simp [h0]
  · exact ⟨h.coreSize, h.core, h.coreQ, h2, h.evCap, rfl, h.log, h.logCap, h.logQ,
      h.cdr, h.cdrSmall, h.cdrQ, h.logRo⟩
  · by_cases h0 : n = 0 <;> simp [h0]
  · intro x hx; simp [hx]
  · intro hne
    rw [h.evQ] at hne ⊢
    by_cases hr : g.q.reading = 0
    · simp [hr] at hne
    · have : n = g.q.reading := by rw [hn, if_neg hr]
      have hq' : q' = g.q := by show ({ g.q with reading := n } : Spec.EventQueue.State) = g.q; rw [this]
      rw [hq']
      simp [this, hr]
  · intro he
    have h0 : n = 0 := by
      simp only [if_true] at he
      by_cases h0 : n = 0
      · exact h0
      · simp [h0] at he
    show g.q.committed = []
    rw [hn] at h0
    split at h0
    · exact batchCount_zero h0
    · contradiction

theorem has_log {cfg : Config} (hc : ConfigOk cfg) {w : World} {g : Ghost} {Q : Src → List Bytes}
    (h : WRel cfg w g Q) :
    ∃ r w' Q', has cfg .log w = some (r, w') ∧ WRel cfg w' (g.poll cfg .log) Q' ∧
      r = (Q' .log).head?.map List.length ∧ (∀ x, x ≠ .log → Q' x = Q x) ∧
      (Q .log ≠ [] → Q' .log = Q .log) ∧ (Q' .log = [] → Empty cfg (g.poll cfg .log) .log) := by
  cases hf : g.S.frozen with
  | none =>
    have ht := h.log.trig.triggered.1
    rw [hf] at ht
    have hQ : Q .log = [] := by
      rcases h.logQ with h1 | ⟨h1, -⟩
      · exact h1
      · rw [hf] at h1; cases h1
    refine ⟨none, w, Q, ?_, h, by rw [hQ]; rfl, fun _ _ => rfl, fun _ => rfl, fun _ => hf⟩
    simp only [has, Log.hasLogs, ht]
    rfl
  | some p =>
    obtain ⟨n, now⟩ := p
    obtain ⟨ro, hr⟩ := h.log.core.ring
    have ht := h.log.trig
    rw [hf] at ht
    obtain ⟨-, t2, t3, t4⟩ := ht
    have hn : 0 < w.log.trigger.numLogs := by rw [t2]; exact t3
    have he := Log.hasLogs_eq hc.line cfg.dev h.log.cap hr h.log.core.ok hn (by rw [t2])
    rw [← hr.ro] at he
    refine ⟨some (logMsg cfg w g.S).length, w, fun x => if x = .log then [logMsg cfg w g.S] else Q x, ?_, ?_, rfl, ?_,
      ?_, ?_⟩
    · simp only [has, he]; rfl
    · exact ⟨h.coreSize, h.core, h.coreQ, h.ev, h.evCap, h.evQ, h.log, h.logCap,
        Or.inr ⟨by simp [Ghost.poll, hf], rfl⟩, h.cdr, h.cdrSmall, h.cdrQ, h.logRo⟩
    · intro x hx; simp [hx]
    · intro hne
      rcases h.logQ with h1 | ⟨-, h1⟩
      · exact absurd h1 hne
      · rw [h1]; rfl
    · intro h1; cases h1

theorem choose_recording_none {c : Cdr.Config} {s : Cdr.State} {t : Spec.Cdr.State} (h : Cdr.Rel c s t)
    (hn : t.choose.recording = none) :
    t.choose.current = none ∧ ∀ i ∈ t.choose.sources, t.choose.waiting i = [] := by
  unfold Spec.Cdr.State.recording Spec.Cdr.State.choose at *
  cases hc : t.current with
  | some i =>
    rw [hc] at hn
    dsimp only at hn
    rw [hc] at hn
    dsimp only at hn
    obtain ⟨r, q, h1, -⟩ := h.busy i (by rw [h.active, hc])
    rw [h.queues] at h1
    rw [h1] at hn
    cases hn
  | none =>
    rw [hc] at hn
    dsimp only at hn ⊢
    cases hf : t.sources.find? (fun i => !(t.waiting i).isEmpty) with
    | some i =>
      rw [hf] at hn
      dsimp only at hn
      have := List.find?_some hf
      simp only [Bool.not_eq_true', List.isEmpty_eq_false_iff] at this
      obtain ⟨r, q, h1⟩ := List.exists_cons_of_ne_nil this
      rw [h1] at hn
      cases hn
    | none =>
      refine ⟨rfl, fun i hi => ?_⟩
      have := List.find?_eq_none.1 hf i hi
      simpa using this

theorem choose_recording {t : Spec.Cdr.State} {r : Cdr.Recording} (h : t.recording = some r) :
    t.choose = t := by
  unfold Spec.Cdr.State.recording at h
  unfold Spec.Cdr.State.choose
  cases hc : t.current with
  | none => rw [hc] at h; cases h
  | some i => rfl

theorem choose_waiting (t : Spec.Cdr.State) : t.choose.waiting = t.waiting ∧ t.choose.sources = t.sources := by
  unfold Spec.Cdr.State.choose
  split <;> exact ⟨rfl, rfl⟩

theorem has_cdr {cfg : Config} {w : World} {g : Ghost} {Q : Src → List Bytes} (h : WRel cfg w g Q) :
    ∃ r w' Q', has cfg .cdr w = some (r, w') ∧ WRel cfg w' (g.poll cfg .cdr) Q' ∧
      r = (Q' .cdr).head?.map List.length ∧ (∀ x, x ≠ .cdr → Q' x = Q x) ∧
      (Q .cdr ≠ [] → Q' .cdr = Q .cdr) ∧ (Q' .cdr = [] → Empty cfg (g.poll cfg .cdr) .cdr) := by
  obtain ⟨s', h1, h2⟩ := Cdr.has_rel h.cdr
  simp only [Cdr.step, Option.map_eq_some_iff] at h1
  obtain ⟨⟨r, s2⟩, h1, h3⟩ := h1
  simp only [Spec.Cdr.step, Prod.mk.injEq, Spec.Cdr.Out.size.injEq] at h3 h2
  obtain ⟨h3, rfl⟩ := h3
  have hsm : ∀ i, ∀ r ∈ g.t.choose.waiting i, r.data.length < 2 ^ 29 := by
    rw [(choose_waiting g.t).1]; exact h.cdrSmall
  by_cases hx : ∃ r, g.t.choose.recording = some r ∧ (Cdr.head cfg.cdr.dev r).length ≤ cfg.cdr.maxMetadata
  · obtain ⟨x, hx1, hx2⟩ := hx
    rw [hx1] at h3
    dsimp only at h3
    rw [if_pos hx2] at h3
    subst h3
    refine ⟨_, { w with cdr := s2 }, fun y => if y = .cdr then [cdrMsg cfg x] else Q y, ?_, ?_, rfl, ?_, ?_, ?_⟩
    · simp only [has]; rw [h1]; rfl
    · exact ⟨h.coreSize, h.core, h.coreQ, h.ev, h.evCap, h.evQ, h.log, h.logCap,
        h.logQ, h2, hsm, Or.inr ⟨x, hx1, hx2, rfl⟩, h.logRo⟩
    · intro y hy; simp [hy]
    · intro hne
      rcases h.cdrQ with h4 | ⟨r, h4, h5, h6⟩
      · exact absurd h4 hne
      · rw [choose_recording h4, h4] at hx1
        cases hx1
        rw [h6]; rfl
    · intro h4; cases h4
  · have hQ : Q .cdr = [] := by
      rcases h.cdrQ with h4 | ⟨r, h4, h5, h6⟩
      · exact h4
      · exact absurd ⟨r, by rw [choose_recording h4]; exact h4, h5⟩ hx
    have hr : r = none := by
      rw [h3]
      cases hc : g.t.choose.recording with
      | none => rfl
      | some x =>
        dsimp only
        rw [if_neg fun h => hx ⟨x, hc, h⟩]
    subst hr
    refine ⟨none, { w with cdr := s2 }, Q, ?_, ?_, by rw [hQ]; rfl, fun _ _ => rfl, fun _ => rfl, fun _ => ?_⟩
    · simp only [has]; rw [h1]; rfl
    · exact ⟨h.coreSize, h.core, h.coreQ, h.ev, h.evCap, h.evQ, h.log, h.logCap, h.logQ, h2, hsm, Or.inl hQ, h.logRo⟩
    · cases hc : g.t.choose.recording with
      | some x => exact Or.inl ⟨x, hc, Nat.lt_of_not_le fun h => hx ⟨x, hc, h⟩⟩
      | none => exact Or.inr (choose_recording_none h.cdr hc)

theorem has_core {cfg : Config} {w : World} {g : Ghost} {Q : Src → List Bytes} (h : WRel cfg w g Q) :
    has cfg .coredump w = some ((Q .coredump).head?.map List.length, w) ∧
      backing w .coredump = some (Q .coredump).head? := by
  have hc := h.core
  rw [h.coreQ]
  simp only [has, backing]
  cases hg : g.core with
  | none => rw [hg] at hc; simp only [CoreRel] at hc; rw [hc]; exact ⟨rfl, rfl⟩
  | some m =>
    rw [hg] at hc
    obtain ⟨h1, h2, -⟩ := hc
    rw [h1]
    simp [h2]

theorem has_ok {cfg : Config} (hc : ConfigOk cfg) {w : World} {g : Ghost} {Q : Src → List Bytes}
    (h : WRel cfg w g Q) (src : Src) :
    ∃ r w' Q', has cfg src w = some (r, w') ∧ WRel cfg w' (g.poll cfg src) Q' ∧
      r = (Q' src).head?.map List.length ∧ (∀ x, x ≠ src → Q' x = Q x) ∧
      (Q src ≠ [] → Q' src = Q src) ∧ (Q' src = [] → Empty cfg (g.poll cfg src) src) := by
  cases src with
  | coredump =>
    refine ⟨_, w, Q, (has_core h).1, h, rfl, fun _ _ => rfl, fun _ => rfl, fun hq => ?_⟩
    rw [h.coreQ] at hq
    show g.core = none
    cases hg : g.core with
    | none => rfl
    | some m => rw [hg] at hq; cases hq
  | event => exact has_event h
  | log => exact has_log hc h
  | cdr => exact has_cdr h

/-! ## Reading -/

theorem read_ok {cfg : Config} (hc : ConfigOk cfg) {w : World} {g : Ghost} {Q : Src → List Bytes}
    (h : WRel cfg w g Q) {src : Src} {m : Bytes} {rest : List Bytes} (hq : Q src = m :: rest) {off : Nat}
    {buf : Bytes} (h0 : 0 < buf.length) (hb : off + buf.length ≤ m.length) :
    read cfg src w off buf = some (true, (m.drop off).take buf.length) := by
  have hsm := WRel.small hc h src m (by rw [hq]; simp)
  cases src with
  | coredump =>
    have hk := h.core
    rw [h.coreQ] at hq
    cases hg : g.core with
    | none => rw [hg] at hq; cases hq
    | some m' =>
      rw [hg] at hq hk
      simp only [Option.toList_some, List.cons.injEq] at hq
      obtain ⟨rfl, -⟩ := hq
      obtain ⟨-, k1, k2, -⟩ := hk
      have hs := h.coreSize
      have ha : add32 off buf.length = off + buf.length := add32_eq (by omega)
      simp only [read, CoredumpStorage.ramRead, CoredumpStorage.withinBounds, ha]
      have hd : decide (off + buf.length ≤ w.core.length) = true := by simp; omega
      rw [hd, memcpyOut_some (by omega)]
      simp only [Bool.not_true, Bool.false_eq_true, if_false, Option.map_some, Option.isSome_some, Option.getD_some]
      have e : ∀ k, off + buf.length ≤ k →
          ((w.core.take k).drop off).take buf.length = (w.core.drop off).take buf.length := by
        intro k hk
        rw [List.drop_take, List.take_take, Nat.min_eq_left (by omega)]
      rw [← e _ hb, k1]
  | event =>
    rw [h.evQ] at hq
    split at hq
    · cases hq
    · injection hq with hq _
      subst hq
      obtain ⟨s', h1, -⟩ := event_step (op := .read off buf.length)
        (o := .data (some (((message g.q).drop off).take buf.length))) (q' := g.q) h.ev
        (by simp only [Spec.EventQueue.step, if_pos hb])
      simp only [EventStorage.step, Option.map_eq_some_iff] at h1
      obtain ⟨d, h1, h3⟩ := h1
      simp only [Prod.mk.injEq, Spec.EventQueue.Out.data.injEq] at h3
      obtain ⟨rfl, -⟩ := h3
      simp only [read]; rw [h1]; rfl
  | log =>
    rcases h.logQ with h1 | ⟨h1, h2⟩
    · rw [h1] at hq; cases hq
    · rw [h2] at hq
      injection hq with hq _
      obtain ⟨⟨n, now⟩, hf⟩ := Option.isSome_iff_exists.1 h1
      obtain ⟨ro, hr⟩ := h.log.core.ring
      have ht := h.log.trig
      rw [hf] at ht
      obtain ⟨-, t2, t3, t4⟩ := ht
      have hn : 0 < w.log.trigger.numLogs := by rw [t2]; exact t3
      have hro := hr.ro
      have he := Log.logsRead_eq hc.line cfg.dev h.log.cap hr h.log.core.ok hn
        (by rw [← hro]; show (logMsg cfg w g.S).length < _; rw [hq]; omega) off buf
      rw [← hro] at he
      change Log.logsRead cfg.log cfg.dev w.log off buf = some
        (decide (buf.length = (Log.window (logMsg cfg w g.S) off buf.length).length),
          Log.window (logMsg cfg w g.S) off buf.length ++
            buf.drop (Log.window (logMsg cfg w g.S) off buf.length).length) at he
      rw [hq] at he
      have hl : (Log.window m off buf.length).length = buf.length := by
        unfold Log.window; rw [List.length_take, List.length_drop]; omega
      simp only [read]
      rw [he, hl]
      simp [Log.window]
  | cdr =>
    rcases h.cdrQ with h1 | ⟨r, h1, h2, h3⟩
    · rw [h1] at hq; cases hq
    · rw [h3] at hq
      injection hq with hq _
      subst hq
      have hi := hc.info
      have he := Cdr.read_rel h.cdr off buf.length ⟨h0, by omega, by omega⟩
      rw [h1] at he
      dsimp only at he
      rw [if_pos ⟨h2, hb⟩] at he
      simp only [read]; rw [he]; rfl

/-! ## Marking -/

/-- What marking the message of a source does. -/
def Ghost.mark (g : Ghost) : Src → Ghost
  | .coredump => { g with core := none }
  | .event => { g with q := { g.q with committed := g.q.committed.drop g.q.reading, reading := 0 } }
  | .log => { g with S := { g.S with
      entries := Spec.Log.markSent ((g.S.frozen.map Prod.fst).getD 0) g.S.entries, frozen := none } }
  | .cdr => { g with t := (Spec.Cdr.step 0 0 (fun _ => []) g.t .mark).2 }

theorem mark_step (slots limit : Nat) (hd : Cdr.Recording → Bytes) (t : Spec.Cdr.State) :
    (Spec.Cdr.step slots limit hd t .mark).2 = (Spec.Cdr.step 0 0 (fun _ => []) t .mark).2 := by
  simp only [Spec.Cdr.step]

theorem clear_invalid {mem : Bytes} {n : Nat} (h : Coredump.hasValid true mem = some n) :
    ∃ m', CoredumpStorage.ramClear mem = some m' ∧ m'.length = mem.length ∧ Coredump.hasValid true m' = none := by
  have hl : 12 ≤ mem.length := by
    unfold Coredump.hasValid Coredump.readHeader at h
    by_cases h0 : mem.length = 0
    · simp [h0] at h
    · rw [if_neg h0] at h
      by_cases h1 : 12 ≤ mem.length
      · exact h1
      · simp [h1] at h
  match mem, hl with
  | a :: b :: c :: d :: rest, hl =>
    refine ⟨0 :: b :: c :: d :: rest, ?_, rfl, ?_⟩
    · unfold CoredumpStorage.ramClear CoredumpStorage.ramWrite CoredumpStorage.withinBounds
      have : add32 0 ([0] : Bytes).length = 1 := add32_eq (by decide)
      rw [this]
      simp [memcpyIn]
    · unfold Coredump.hasValid Coredump.readHeader
      rw [if_neg (by simp), if_pos (by simpa using hl)]
      have : Coredump.headerValid ((0 :: b :: c :: d :: rest).take 12) = false := by
        unfold Coredump.headerValid
        simp only [List.take_succ_cons, List.take_zero]
        rw [beq_eq_false_iff_ne]
        simp only [Coredump.ofLe32]
        intro h
        revert h
        simp
        omega
      dsimp only
      rw [this]
      rfl

theorem mark_ok {cfg : Config} (hc : ConfigOk cfg) {w : World} {g : Ghost} {Q : Src → List Bytes}
    (h : WRel cfg w g Q) {src : Src} {m : Bytes} {rest : List Bytes} (hq : Q src = m :: rest) :
    ∃ w', mark cfg src w = some w' ∧
      WRel cfg w' (g.mark src) (fun x => if x = src then rest else Q x) := by
  have hrest := h.single hq
  subst hrest
  cases src with
  | coredump =>
    have hk := h.core
    rw [h.coreQ] at hq
    cases hg : g.core with
    | none => rw [hg] at hq; cases hq
    | some m' =>
      rw [hg] at hk
      obtain ⟨k1, -⟩ := hk
      obtain ⟨m2, c1, c2, c3⟩ := clear_invalid k1
      refine ⟨{ w with core := m2 }, by simp only [mark, c1]; rfl, ?_⟩
      exact ⟨by rw [c2]; exact h.coreSize, c3, rfl, h.ev, h.evCap, h.evQ, h.log, h.logCap,
        h.logQ, h.cdr, h.cdrSmall, h.cdrQ, h.logRo⟩
  | event =>
    obtain ⟨s', h1, h2⟩ := event_step (op := .markRead) (o := .unit)
      (q' := { g.q with committed := g.q.committed.drop g.q.reading, reading := 0 }) h.ev rfl
    simp only [EventStorage.step, Option.map_eq_some_iff] at h1
    obtain ⟨s2, h1, h3⟩ := h1
    simp only [Prod.mk.injEq, true_and] at h3
    subst h3
    refine ⟨{ w with ev := s2 }, by simp only [mark, h1]; rfl, ?_⟩
    exact ⟨h.coreSize, h.core, h.coreQ, h2, h.evCap, rfl, h.log, h.logCap,
      h.logQ, h.cdr, h.cdrSmall, h.cdrQ, h.logRo⟩
  | log =>
    rcases h.logQ with h1 | ⟨h1, h2⟩
    · rw [h1] at hq; cases hq
    · obtain ⟨⟨n, now⟩, hf⟩ := Option.isSome_iff_exists.1 h1
      obtain ⟨s', e1, e2, e3⟩ := Log.markSent_rel hc.line h.log hf
      refine ⟨{ w with log := s' }, by simp only [mark, e1]; rfl, ?_⟩
      refine ⟨h.coreSize, h.core, h.coreQ, h.ev, h.evCap, h.evQ, ?_, h.logCap,
        Or.inl rfl, h.cdr, h.cdrSmall, h.cdrQ, e3.trans h.logRo⟩
      simp only [Ghost.mark, hf]
      exact e2
  | cdr =>
    obtain ⟨s', h1, h2⟩ := Cdr.step_rel h.cdr .mark trivial
    rw [mark_step] at h2
    simp only [Cdr.step, Option.some.injEq, Prod.mk.injEq] at h1
    obtain ⟨-, rfl⟩ := h1
    refine ⟨{ w with cdr := Cdr.mark cfg.cdr w.cdr }, rfl, ?_⟩
    refine ⟨h.coreSize, h.core, h.coreQ, h.ev, h.evCap, h.evQ, h.log, h.logCap,
      h.logQ, h2, ?_, Or.inl rfl, h.logRo⟩
    intro i r hr
    simp only [Ghost.mark, Spec.Cdr.step] at hr
    split at hr
    · exact h.cdrSmall i r hr
    · dsimp only at hr
      split at hr
      · next hx => subst hx; exact h.cdrSmall _ r (List.mem_of_mem_tail hr)
      · exact h.cdrSmall i r hr

/-! ## The application -/

/-- The calls that do not take events out. -/
def EvWrite : Spec.EventQueue.Op → Prop
  | .begin => True
  | .append _ => True
  | .finish _ => True
  | _ => False

theorem ev_write {b : Option Nat} {s : EventStorage.State} {q q' : Spec.EventQueue.State}
    {op : Spec.EventQueue.Op} {o : Spec.EventQueue.Out} (h : Holds b s q) (hw : EvWrite op)
    (hs : Spec.EventQueue.step b q op = some (o, q')) :
    q'.cap = q.cap ∧ q'.reading = q.reading ∧ message q' = message q := by
  cases op <;> simp only [EvWrite] at hw
  · simp only [Spec.EventQueue.step] at hs
    split at hs <;> simp only [Option.some.injEq, Prod.mk.injEq] at hs <;> obtain ⟨-, rfl⟩ := hs <;>
      exact ⟨rfl, rfl, rfl⟩
  · simp only [Spec.EventQueue.step] at hs
    split at hs
    · cases hs
    · split at hs <;> simp only [Option.some.injEq, Prod.mk.injEq] at hs <;> obtain ⟨-, rfl⟩ := hs <;>
        exact ⟨rfl, rfl, rfl⟩
  · simp only [Spec.EventQueue.step] at hs
    split at hs
    · simp only [Option.some.injEq, Prod.mk.injEq] at hs; obtain ⟨-, rfl⟩ := hs; exact ⟨rfl, rfl, rfl⟩
    · split at hs
      · simp only [Option.some.injEq, Prod.mk.injEq] at hs; obtain ⟨-, rfl⟩ := hs; exact ⟨rfl, rfl, rfl⟩
      · split at hs
        · simp only [Option.some.injEq, Prod.mk.injEq] at hs
          obtain ⟨-, rfl⟩ := hs
          refine ⟨rfl, rfl, ?_⟩
          unfold message
          dsimp only
          rw [List.take_append_of_le_length h.reading]
        · cases hs

theorem ev_ok {cfg : Config} {w : World} {g : Ghost} {Q : Src → List Bytes} (h : WRel cfg w g Q)
    {op : Spec.EventQueue.Op} {o : Spec.EventQueue.Out} {q' : Spec.EventQueue.State} (hw : EvWrite op)
    (hs : Spec.EventQueue.step cfg.ev.batchMax g.q op = some (o, q')) :
    ∃ s', EventStorage.step cfg.ev w.ev op = some (o, s') ∧
      WRel cfg { w with ev := s' } { g with q := q' } Q := by
  obtain ⟨s', h1, h2⟩ := event_step h.ev hs
  obtain ⟨c1, c2, c3⟩ := ev_write h.ev hw hs
  refine ⟨s', h1, ⟨h.coreSize, h.core, h.coreQ, h2, by rw [c1]; exact h.evCap, ?_, h.log, h.logCap, h.logQ,
    h.cdr, h.cdrSmall, h.cdrQ, h.logRo⟩⟩
  show Q .event = if q'.reading = 0 then [] else [message q']
  rw [c2, c3]; exact h.evQ

theorem trigger_eq {cfg : Log.Config} {t : Log.Trigger} {es : List Spec.Log.Entry} {p : Nat × Option Nat}
    (h : Log.TrigRel cfg t es (some p)) : t = ⟨true, p.1, p.2⟩ := h.2.1

theorem log_ok {cfg : Config} (hc : ConfigOk cfg) {w : World} {g : Ghost} {Q : Src → List Bytes}
    (h : WRel cfg w g Q) {op : Spec.Log.Op} {o : Spec.Log.Out} {S' : Spec.Log.State} (hw : op ≠ .markSent)
    (hs : Spec.Log.step cfg.log g.S op = some (o, S')) :
    ∃ s', Log.step cfg.log w.log op = some (o, s') ∧
      WRel cfg { w with log := s' } { g with S := S', ro := s'.cb.readOffset } Q := by
  obtain ⟨s', h1, h2, h3⟩ := Log.step_rel hc.line h.log hs
  have hcap : S'.cap = g.S.cap := by
    refine Spec.Log.run_cap' (cfg := cfg.log) (ops := [op]) (outs := [o]) ?_
    simp [Spec.Log.run, hs]
  refine ⟨s', h1, ⟨h.coreSize, h.core, h.coreQ, h.ev, h.evCap, h.evQ, h2, by rw [hcap]; exact h.logCap, ?_,
    h.cdr, h.cdrSmall, h.cdrQ, rfl⟩⟩
  rcases h.logQ with h4 | ⟨h4, h5⟩
  · exact Or.inl h4
  · right
    obtain ⟨f, hf⟩ := Option.isSome_iff_exists.1 h4
    obtain ⟨f1, f2⟩ := Log.frozen_step hf hw hs
    refine ⟨by rw [f1]; rfl, ?_⟩
    rw [h5]
    have t1 := h.log.trig
    have t2 := h2.trig
    rw [hf] at t1
    rw [f1] at t2
    have e1 := trigger_eq t1
    have e2 := trigger_eq t2
    have hn : f.1 ≤ Spec.Log.unsent g.S.entries := t1.2.2.2
    obtain ⟨a, b, g1, g2, -⟩ := f2
    unfold logMsg
    dsimp only
    rw [h3 h4 hw, e1, e2, hcap, g1]
    unfold Log.uploadCalls
    dsimp only
    rw [Log.collect_append _ _ _ _ _ _ _ (by rw [Log.unsent_congr g2]; exact hn), Log.collect_congr _ _ _ _ _ _ _ g2]

/-- The calls that do not take recordings out. -/
def CdrWrite : Spec.Cdr.Op → Prop
  | .register _ => True
  | .record _ r => r.data.length < 2 ^ 29
  | _ => False

theorem cdr_ok {cfg : Config} {w : World} {g : Ghost} {Q : Src → List Bytes} (h : WRel cfg w g Q)
    {op : Spec.Cdr.Op} (hw : CdrWrite op) (hop : op.Ok cfg.cdr.maxMetadata) :
    ∃ s', Cdr.step cfg.cdr w.cdr op =
        some ((Spec.Cdr.step cfg.cdr.maxSources cfg.cdr.maxMetadata (Cdr.head cfg.cdr.dev) g.t op).1, s') ∧
      WRel cfg { w with cdr := s' }
        { g with t := (Spec.Cdr.step cfg.cdr.maxSources cfg.cdr.maxMetadata (Cdr.head cfg.cdr.dev) g.t op).2 } Q := by
  obtain ⟨s', h1, h2⟩ := Cdr.step_rel h.cdr op hop
  refine ⟨s', h1, ⟨h.coreSize, h.core, h.coreQ, h.ev, h.evCap, h.evQ, h.log, h.logCap, h.logQ, h2, ?_, ?_, h.logRo⟩⟩
  · intro i r hr
    cases op <;> simp only [CdrWrite] at hw
    · simp only [Spec.Cdr.step] at hr
      split at hr <;> exact h.cdrSmall i r hr
    · simp only [Spec.Cdr.step] at hr
      split at hr
      · next hx =>
        subst hx
        rcases List.mem_append.1 hr with hr | hr
        · exact h.cdrSmall _ r hr
        · simp at hr; subst hr; exact hw
      · exact h.cdrSmall i r hr
  · rcases h.cdrQ with h4 | ⟨r, h4, h5, h6⟩
    · exact Or.inl h4
    · refine Or.inr ⟨r, ?_, h5, h6⟩
      obtain ⟨i, l, c1, c2⟩ := cdr_recording h.cdr h4
      cases op <;> simp only [CdrWrite] at hw
      · simp only [Spec.Cdr.step]
        split <;> exact h4
      · simp only [Spec.Cdr.step, Spec.Cdr.State.recording, c1]
        split
        · next hx => subst hx; rw [c2]; rfl
        · rw [c2]; rfl

end Mflt.Sys
