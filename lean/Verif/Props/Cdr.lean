import Verif.Lemmas.Cdr

/-! # Properties C50, C61: custom data recordings -/

namespace Mflt.Props

open Cdr
open Spec.Cbor (decode)
open Spec.Cdr (Op Out)

/-- A history of the module from boot: what is observed, and the state reached. `none` if
undefined behaviour occurred. -/
def cdrRun (c : Config) : State → List Op → Option (List Out × State)
  | s, [] => some ([], s)
  | s, op :: ops =>
    match step c s op with
    | none => none
    | some (o, s) =>
      match cdrRun c s ops with
      | none => none
      | some (os, s) => some (o :: os, s)

theorem cdrRun_rel {c : Config} (ops : List Op) (hops : ∀ op ∈ ops, op.Ok c.maxMetadata) :
    ∀ {s : State} {t : Spec.Cdr.State}, Rel c s t →
    ∃ s', cdrRun c s ops =
        some ((Spec.Cdr.run c.maxSources c.maxMetadata (head c.dev) t ops).1, s') ∧
      Rel c s' (Spec.Cdr.run c.maxSources c.maxMetadata (head c.dev) t ops).2 := by
  induction ops with
  | nil => intro s t h; exact ⟨s, rfl, h⟩
  | cons op ops ih =>
    intro s t h
    obtain ⟨s1, h1, h2⟩ := step_rel h op (hops op (by simp))
    obtain ⟨s2, h3, h4⟩ := ih (fun o ho => hops o (by simp [ho])) h2
    refine ⟨s2, ?_, h4⟩
    rw [cdrRun, h1]
    dsimp only
    rw [h3]
    rfl

theorem cdr_init_rel (c : Config) : Rel c (State.init c) Spec.Cdr.State.init :=
  idle_rel rfl rfl rfl rfl (by simp [State.init]) (by simp [State.init]) ⟨rfl, rfl⟩

/-- **C50.** For every device and every configuration there are descriptions `head r` of recordings
such that the description followed by the recorded data is the CBOR event of the recording, and such
that every history of registering, recording, asking, reading any windows, marking and resetting is
observed exactly as the specification says: one recording at a time, oldest first, from the first
registered source that has one, windows of that one message only, and the announced source is the
one that loses its oldest recording. No access leaves the metadata buffer. -/
theorem C50_delivery (c : Config) (hd : Spec.Event.DeviceOk c.dev) :
    ∃ head : Recording → Bytes,
      (∀ r, Spec.Cdr.Ok c.maxMetadata r →
        decode (head r ++ r.data) = some (Spec.Cdr.event c.dev r)) ∧
      ∀ ops : List Op, (∀ op ∈ ops, op.Ok c.maxMetadata) →
        ∃ s, cdrRun c (State.init c) ops =
            some ((Spec.Cdr.run c.maxSources c.maxMetadata head Spec.Cdr.State.init ops).1, s) ∧
          s.queues =
            (Spec.Cdr.run c.maxSources c.maxMetadata head Spec.Cdr.State.init ops).2.waiting := by
  refine ⟨head c.dev, fun r hr => decode_head hd hr, fun ops hops => ?_⟩
  obtain ⟨s, h1, h2⟩ := cdrRun_rel ops hops (cdr_init_rel c)
  exact ⟨s, h1, h2.queues⟩

/-- **C50 (one delivery).** Whenever, after any history, a message is announced, there is a
registered source whose oldest recording it is: the announced number of bytes decodes to the event
of that recording, every window inside reads exactly those bytes, every window beyond is refused,
and marking removes that recording and no other. -/
theorem C50_message (c : Config) (hd : Spec.Event.DeviceOk c.dev) (ops : List Op)
    (hops : ∀ op ∈ ops, op.Ok c.maxMetadata) (outs : List Out) (s s' : State) (n : Nat)
    (hrun : cdrRun c (State.init c) ops = some (outs, s)) (hhas : has c s = some (some n, s')) :
    s'.queues = s.queues ∧
    ∃ (i : Nat) (r : Recording) (q : List Recording) (msg : Bytes),
      s.queues i = r :: q ∧
      msg.length = n ∧ decode msg = some (Spec.Cdr.event c.dev r) ∧
      (∃ description : Bytes, description.length ≤ c.maxMetadata ∧ msg = description ++ r.data) ∧
      (∀ off len, 0 < len → len + c.maxMetadata < 2 ^ 32 → off < 2 ^ 32 →
        read s' off len =
          some (if off + len ≤ n then some ((msg.drop off).take len) else none)) ∧
      ∀ j, (mark c s').queues j = if j = i then q else s.queues j := by
  obtain ⟨s1, h1, h2⟩ := cdrRun_rel ops hops (cdr_init_rel c)
  rw [hrun] at h1
  obtain ⟨rfl, rfl⟩ : outs = _ ∧ s = s1 := by
    injection h1 with h1; injection h1 with h3 h4; exact ⟨h3, h4⟩
  obtain ⟨s2, h3, h4⟩ := has_rel h2
  simp only [Cdr.step, hhas, Option.map_some] at h3
  obtain ⟨h5, rfl⟩ : _ ∧ s' = s2 := by
    injection h3 with h3; injection h3 with h5 h6; exact ⟨h5, h6⟩
  have hqs : s'.queues = s.queues := by
    rw [h4.queues, h2.queues]
    simp only [Spec.Cdr.step, Spec.Cdr.State.choose]
    split <;> rfl
  refine ⟨hqs, ?_⟩
  simp only [Spec.Cdr.step] at h5 h4
  generalize Spec.Cdr.State.choose
    (Spec.Cdr.run c.maxSources c.maxMetadata (head c.dev) Spec.Cdr.State.init ops).2 = t at *
  cases hr : t.recording with
  | none => rw [hr] at h5; simp at h5
  | some r =>
    rw [hr] at h5
    simp only [Out.size.injEq] at h5
    have hf : (head c.dev r).length ≤ c.maxMetadata := by
      apply Classical.byContradiction
      intro hc
      rw [if_neg hc] at h5; cases h5
    rw [if_pos hf] at h5
    injection h5 with hn
    have hr' := hr
    unfold Spec.Cdr.State.recording at hr'
    cases hc : t.current with
    | none => rw [hc] at hr'; cases hr'
    | some i =>
      rw [hc] at hr'
      dsimp only at hr'
      rw [← h4.queues] at hr'
      cases hq : s'.queues i with
      | nil => rw [hq] at hr'; cases hr'
      | cons a q =>
        rw [hq] at hr'
        obtain rfl : a = r := by simpa using hr'
        refine ⟨i, a, q, head c.dev a ++ a.data, by rw [← hqs]; exact hq, hn.symm,
          decode_head hd (h4.small i a (by rw [hq]; simp)), ⟨_, hf, rfl⟩, ?_, ?_⟩
        · intro off len hl hl2 ho
          rw [read_rel h4 off len ⟨hl, hl2, ho⟩, hr]
          dsimp only
          rw [hn]
          by_cases hw : off + len ≤ (head c.dev a ++ a.data).length
          · rw [if_pos ⟨hf, hw⟩, if_pos hw]
          · rw [if_neg (fun h => hw h.2), if_neg hw]
        · intro j
          unfold mark
          rw [h4.active, hc]
          dsimp only [setQueue]
          rw [hq, hqs]
          rfl

/-! ## Every recording gets its turn -/

/-- All recordings of a history have a description that fits. -/
def allFit (limit : Nat) (head : Recording → Bytes) (ops : List Op) : Prop :=
  ∀ i r, Op.record i r ∈ ops → (head r).length ≤ limit

theorem spec_small {slots limit : Nat} {head : Recording → Bytes} {P : Recording → Prop}
    (ops : List Op) (hops : ∀ i r, Op.record i r ∈ ops → P r) :
    ∀ t : Spec.Cdr.State, (∀ i, ∀ r ∈ t.waiting i, P r) →
      ∀ i, ∀ r ∈ (Spec.Cdr.run slots limit head t ops).2.waiting i, P r := by
  induction ops with
  | nil => intro t h; exact h
  | cons op ops ih =>
    intro t h
    have hstep : ∀ i, ∀ r ∈ (Spec.Cdr.step slots limit head t op).2.waiting i, P r := by
      intro i r hr
      cases op with
      | register j =>
        simp only [Spec.Cdr.step] at hr
        split at hr <;> exact h i r hr
      | record j r' =>
        simp only [Spec.Cdr.step] at hr
        split at hr
        · rcases List.mem_append.mp hr with h1 | h1
          · exact h j r h1
          · rw [List.mem_singleton] at h1
            subst h1; exact hops j r (by simp)
        · exact h i r hr
      | has =>
        simp only [Spec.Cdr.step, Spec.Cdr.State.choose] at hr
        split at hr <;> exact h i r hr
      | read off len => exact h i r hr
      | mark =>
        simp only [Spec.Cdr.step] at hr
        split at hr
        · exact h i r hr
        · dsimp only at hr
          split at hr
          · exact h _ r (List.mem_of_mem_tail hr)
          · exact h i r hr
      | reset => exact h i r hr
    exact ih (fun i r hr => hops i r (by simp [hr])) _ hstep

/-- In every reachable specification state a current source has a recording. -/
theorem spec_current {slots limit : Nat} {head : Recording → Bytes} (ops : List Op) :
    ∀ t : Spec.Cdr.State, (∀ i, t.current = some i → t.waiting i ≠ []) →
      ∀ i, (Spec.Cdr.run slots limit head t ops).2.current = some i →
        (Spec.Cdr.run slots limit head t ops).2.waiting i ≠ [] := by
  induction ops with
  | nil => intro t h; exact h
  | cons op ops ih =>
    intro t h
    refine ih _ ?_
    intro i hi
    cases op with
    | register j =>
      simp only [Spec.Cdr.step] at hi ⊢
      split at hi
      · rw [if_pos ‹_›]; exact h i hi
      · rw [if_neg ‹_›]; exact h i hi
    | record j r' =>
      simp only [Spec.Cdr.step] at hi ⊢
      split
      · simp
      · exact h i hi
    | has =>
      simp only [Spec.Cdr.step, Spec.Cdr.State.choose] at hi ⊢
      cases hc : t.current with
      | some k => rw [hc] at hi; simp only at hi ⊢; exact h i (by rw [hc] at hi ⊢; exact hi)
      | none =>
        rw [hc] at hi
        simp only at hi ⊢
        have := List.find?_some hi
        intro hn
        simp [hn] at this
    | read off len => exact h i hi
    | mark =>
      simp only [Spec.Cdr.step] at hi ⊢
      split at hi
      · rename_i hc; rw [hc] at hi; cases hi
      · cases hi
    | reset => cases hi

/-- **C61 (partial).** If the descriptions of all recordings fit into the metadata buffer, then
after any history a message is announced exactly when some registered source has a recording, or one
is being delivered. Missing: recordings whose description does not fit, see `C61_false_blocked`. -/
theorem C61_available_partial (c : Config) (hd : Spec.Event.DeviceOk c.dev) :
    ∃ head : Recording → Bytes,
      (∀ r, Spec.Cdr.Ok c.maxMetadata r →
        decode (head r ++ r.data) = some (Spec.Cdr.event c.dev r)) ∧
      ∀ ops : List Op, (∀ op ∈ ops, op.Ok c.maxMetadata) → allFit c.maxMetadata head ops →
        ∃ outs s n s', cdrRun c (State.init c) ops = some (outs, s) ∧ has c s = some (n, s') ∧
          (n.isSome ↔ s.active.isSome ∨ ∃ i ∈ s.regs, s.queues i ≠ []) := by
  refine ⟨head c.dev, fun r hr => decode_head hd hr, fun ops hops hfit => ?_⟩
  obtain ⟨s, h1, h2⟩ := cdrRun_rel ops hops (cdr_init_rel c)
  have hsm := spec_small (slots := c.maxSources) (limit := c.maxMetadata) (head := head c.dev)
    (P := fun r => (head c.dev r).length ≤ c.maxMetadata) ops hfit Spec.Cdr.State.init
    (by simp [Spec.Cdr.State.init])
  have hcu := spec_current (slots := c.maxSources) (limit := c.maxMetadata) (head := head c.dev) ops
    Spec.Cdr.State.init (by simp [Spec.Cdr.State.init])
  generalize Spec.Cdr.run c.maxSources c.maxMetadata (head c.dev) Spec.Cdr.State.init ops = p at *
  obtain ⟨outs, t⟩ := p
  dsimp only at *
  obtain ⟨s2, h3, h4⟩ := has_rel h2
  cases hh : has c s with
  | none => simp [Cdr.step, hh] at h3
  | some q =>
    obtain ⟨n, s'⟩ := q
    refine ⟨outs, s, n, s', h1, hh, ?_⟩
    simp only [Cdr.step, hh, Option.map_some, Spec.Cdr.step, Option.some.injEq, Prod.mk.injEq,
      Out.size.injEq] at h3
    obtain ⟨h3, -⟩ := h3
    rw [h3, h2.active, h2.regs, h2.queues]
    unfold Spec.Cdr.State.recording Spec.Cdr.State.choose
    cases hc : t.current with
    | some i =>
      have := hcu i hc
      dsimp only
      rw [hc]
      cases hw : t.waiting i with
      | nil => exact absurd hw this
      | cons r q =>
        have hl := hsm i r (by rw [hw]; simp)
        simp [hw, hl]
    | none =>
      dsimp only
      cases hf : t.sources.find? (fun i => !(t.waiting i).isEmpty) with
      | none =>
        simp only [Option.isSome_none, Bool.false_eq_true, false_or, false_iff, not_exists, not_and,
          ne_eq, Classical.not_not]
        intro i hi
        have := List.find?_eq_none.mp hf i hi
        simpa using this
      | some i =>
        have h5 := List.find?_some hf
        have h6 := List.mem_of_find?_eq_some hf
        cases hw : t.waiting i with
        | nil => simp [hw] at h5
        | cons r q =>
          have hl := hsm i r (by rw [hw]; simp)
          simp only [hw, List.head?_cons, hl, if_true, Option.isSome_some, Option.isSome_none,
            Bool.false_eq_true, false_or, true_iff]
          exact ⟨i, h6, by simp [hw]⟩

/-- The deliveries of a packetizer that asks, reads the whole message and marks it, `n` times at
most. -/
def drain (c : Config) : Nat → State → Option (List Bytes × State)
  | 0, s => some ([], s)
  | n + 1, s =>
    match has c s with
    | none => none
    | some (none, s) => some ([], s)
    | some (some size, s) =>
      match read s 0 size with
      | some (some b) =>
        match drain c n (mark c s) with
        | none => none
        | some (bs, s) => some (b :: bs, s)
      | _ => none

theorem find_append_empty {q : Nat → List Recording} {done : List Nat} (h : ∀ i ∈ done, q i = [])
    (l : List Nat) : (done ++ l).find? (fun i => !(q i).isEmpty) =
      l.find? (fun i => !(q i).isEmpty) := by
  induction done with
  | nil => rfl
  | cons a d ih =>
    rw [List.cons_append, List.find?_cons]
    simp only [h a (by simp), List.isEmpty_nil, Bool.not_true]
    exact ih fun i hi => h i (by simp [hi])

theorem drain_rel {c : Config} (n : Nat) : ∀ {s : State} {t : Spec.Cdr.State} (done todo : List Nat),
    Rel c s t → t.current = none → t.sources = done ++ todo → todo.Nodup → (∀ i ∈ done, i ∉ todo) →
    (∀ i ∈ done, t.waiting i = []) →
    (∀ i, ∀ r ∈ t.waiting i, (head c.dev r).length ≤ c.maxMetadata ∧
      (head c.dev r ++ r.data).length + c.maxMetadata < 2 ^ 32) →
    (todo.flatMap t.waiting).length < n →
    ∃ s', drain c n s = some ((todo.flatMap t.waiting).map (fun r => head c.dev r ++ r.data), s') := by
  induction n with
  | zero => intro s t done todo _ _ _ _ _ _ _ h; omega
  | succ n ih =>
    intro s t done todo hrel hcur hsrc hnd hdis hdone hfit hn
    induction todo generalizing done with
    | nil =>
      obtain ⟨s2, h3, -⟩ := has_rel hrel
      have hf : t.sources.find? (fun i => !(t.waiting i).isEmpty) = none := by
        rw [hsrc, find_append_empty hdone]; rfl
      simp only [Cdr.step, Spec.Cdr.step, Spec.Cdr.State.recording, Spec.Cdr.State.choose, hcur, hf]
        at h3
      cases hh : has c s with
      | none => simp [hh] at h3
      | some q =>
        obtain ⟨m, s'⟩ := q
        rw [hh] at h3
        simp only [Option.map_some, Option.some.injEq, Prod.mk.injEq, Out.size.injEq] at h3
        obtain ⟨rfl, -⟩ := h3
        exact ⟨s', by rw [drain, hh]; rfl⟩
    | cons i todo ih2 =>
      cases hw : t.waiting i with
      | nil =>
        have := ih2 (done ++ [i]) (by rw [hsrc]; simp) (List.nodup_cons.mp hnd).2
          (by
            intro j hj
            rcases List.mem_append.mp hj with h1 | h1
            · exact fun h2 => hdis j h1 (by simp [h2])
            · rw [List.mem_singleton] at h1
              subst h1; exact (List.nodup_cons.mp hnd).1)
          (by
            intro j hj
            rcases List.mem_append.mp hj with h1 | h1
            · exact hdone j h1
            · rw [List.mem_singleton] at h1
              subst h1; exact hw)
          (by rw [List.flatMap_cons, hw, List.nil_append] at hn; exact hn)
        rw [List.flatMap_cons, hw, List.nil_append]
        exact this
      | cons r q =>
        obtain ⟨hl, hsz⟩ := hfit i r (by rw [hw]; simp)
        have hf : t.sources.find? (fun i => !(t.waiting i).isEmpty) = some i := by
          rw [hsrc, find_append_empty hdone, List.find?_cons]
          simp [hw]
        obtain ⟨s2, h3, h4⟩ := has_rel hrel
        have hrec : t.choose.recording = some r := by
          simp only [Spec.Cdr.State.recording, Spec.Cdr.State.choose, hcur, hf, hw, List.head?_cons]
        simp only [Cdr.step, Spec.Cdr.step, hrec, hl, if_true] at h3
        simp only [Spec.Cdr.step] at h4
        cases hh : has c s with
        | none => simp [hh] at h3
        | some p =>
          obtain ⟨m, s'⟩ := p
          rw [hh] at h3
          simp only [Option.map_some, Option.some.injEq, Prod.mk.injEq, Out.size.injEq] at h3
          obtain ⟨rfl, rfl⟩ := h3
          have hpos : 0 < (head c.dev r ++ r.data).length := by
            rw [List.length_append]
            have : 0 < (head c.dev r).length := by
              unfold head headCalls SerializerHelper.eventCalls
              rw [List.cons_append, emitAll_cons, List.length_append]
              have := headBytes_pos 5 (BitVec.ofNat 32 (SerializerHelper.topLevelPairs c.dev r.metadata.time))
              simp only [Cbor.emit, Cbor.pieces, List.flatten_cons, List.flatten_nil, List.append_nil]
              omega
            omega
          have hread := read_rel h4 0 (head c.dev r ++ r.data).length ⟨hpos, hsz, by decide⟩
          rw [hrec] at hread
          dsimp only at hread
          rw [if_pos ⟨hl, by omega⟩, List.drop_zero, List.take_length] at hread
          obtain ⟨s3, h5, h6⟩ := step_rel h4 .mark trivial
          have hcc : t.choose.current = some i := by
            simp only [Spec.Cdr.State.choose, hcur, hf]
          have hcw : t.choose.waiting = t.waiting := by
            simp only [Spec.Cdr.State.choose, hcur]
          have hcs : t.choose.sources = t.sources := by
            simp only [Spec.Cdr.State.choose, hcur]
          simp only [Cdr.step, Spec.Cdr.step, hcc, Option.some.injEq, Prod.mk.injEq, true_and] at h5 h6
          subst h5
          have hnotin := (List.nodup_cons.mp hnd).1
          have hother : todo.flatMap (fun j => if j = i then (t.choose.waiting i).tail
              else t.choose.waiting j) = todo.flatMap t.waiting := by
            rw [hcw]
            clear ih2 hn hnd hdis hsrc
            induction todo with
            | nil => rfl
            | cons a l ih3 =>
              simp only [List.mem_cons, not_or] at hnotin
              rw [List.flatMap_cons, List.flatMap_cons, if_neg (Ne.symm hnotin.1), ih3 hnotin.2]
          obtain ⟨s4, h7⟩ := ih done (i :: todo) h6 rfl (by rw [hcs, hsrc]) hnd hdis
            (by
              intro j hj
              have hne : j ≠ i := fun h => hdis j hj (by simp [h])
              dsimp only
              rw [if_neg hne, hcw]; exact hdone j hj)
            (by
              intro j r' hr'
              dsimp only at hr'
              rw [hcw] at hr'
              split at hr'
              · exact hfit i r' (List.mem_of_mem_tail hr')
              · exact hfit j r' hr')
            (by
              dsimp only
              rw [List.flatMap_cons, hother, if_pos rfl, hcw, hw, List.tail_cons]
              rw [List.flatMap_cons, hw, List.length_append, List.length_cons] at hn
              rw [List.length_append]; omega)
          dsimp only at h7
          rw [List.flatMap_cons, hother, if_pos rfl, hcw, hw, List.tail_cons] at h7
          refine ⟨s4, ?_⟩
          rw [drain, hh]
          dsimp only
          rw [hread]
          dsimp only
          rw [h7, List.flatMap_cons, hw]
          rfl

/-- **C61 (partial).** After any history in which all descriptions fit and no recording is being
delivered, a packetizer that keeps asking, reading and marking gets every waiting recording of every
registered source exactly once: source after source in the order of registration, oldest first, and
then is told that there is nothing left. Missing: a description that does not fit, which blocks all sources
(`C61_false_blocked`). -/
theorem C61_drains_partial (c : Config) (hd : Spec.Event.DeviceOk c.dev) :
    ∃ head : Recording → Bytes,
      (∀ r, Spec.Cdr.Ok c.maxMetadata r →
        decode (head r ++ r.data) = some (Spec.Cdr.event c.dev r)) ∧
      ∀ ops : List Op, (∀ op ∈ ops, op.Ok (2 * c.maxMetadata)) → allFit c.maxMetadata head ops →
        ∃ outs s, cdrRun c (State.init c) ops = some (outs, s) ∧
          (s.active = none → s.regs.Nodup → ∀ n, (s.regs.flatMap s.queues).length < n →
            ∃ s', drain c n s =
              some ((s.regs.flatMap s.queues).map (fun r => head r ++ r.data), s')) := by
  refine ⟨head c.dev, fun r hr => decode_head hd hr, fun ops hops hfit => ?_⟩
  have hops' : ∀ op ∈ ops, op.Ok c.maxMetadata := by
    intro op hop
    have := hops op hop
    cases op with
    | record i r => exact ⟨this.duration, this.reason, this.mimetypes, this.count,
        by have := this.data; omega⟩
    | read off len => exact ⟨this.1, by have := this.2.1; omega, this.2.2⟩
    | register i => trivial
    | has => trivial
    | mark => trivial
    | reset => trivial
  obtain ⟨s, h1, h2⟩ := cdrRun_rel ops hops' (cdr_init_rel c)
  refine ⟨_, s, h1, fun hidle hnd n hn => ?_⟩
  have hsm := spec_small (slots := c.maxSources) (limit := c.maxMetadata) (head := head c.dev)
    (P := fun r => (head c.dev r).length ≤ c.maxMetadata ∧
      (head c.dev r ++ r.data).length + c.maxMetadata < 2 ^ 32) ops
    (by
      intro i r hr
      have h3 := hfit i r hr
      have h4 := (hops _ hr).data
      refine ⟨h3, ?_⟩
      rw [List.length_append]; omega)
    Spec.Cdr.State.init (by simp [Spec.Cdr.State.init])
  rw [h2.regs, h2.queues] at hn ⊢
  rw [h2.regs] at hnd
  exact drain_rel n [] _ h2 (by rw [← h2.active]; exact hidle) rfl hnd (by simp) (by simp) hsm hn

/-! ## The blocked case -/

/-- Neither a delivery report nor a reset. -/
def Op.quiet : Op → Bool
  | .mark => false
  | .reset => false
  | _ => true

/-- The state in which nothing can be delivered. -/
structure Blocked (limit : Nat) (head : Recording → Bytes) (i k : Nat) (big small : Recording)
    (t : Spec.Cdr.State) : Prop where
  current : t.current = some i
  waiting : (t.waiting i).head? = some big
  large : limit < (head big).length
  source : k ∈ t.sources
  other : small ∈ t.waiting k

theorem blocked_step {slots limit : Nat} {head : Recording → Bytes} {i k : Nat}
    {big small : Recording} {t : Spec.Cdr.State} (h : Blocked limit head i k big small t) (op : Op)
    (hq : Op.quiet op = true) :
    Blocked limit head i k big small (Spec.Cdr.step slots limit head t op).2 ∧
      ∀ n, (Spec.Cdr.step slots limit head t op).1 = Out.size n → n = none := by
  obtain ⟨h1, h2, h3, h4, h5⟩ := h
  cases op with
  | register j =>
    simp only [Spec.Cdr.step]
    by_cases hf : t.sources.length < slots
    · rw [if_pos hf]
      exact ⟨⟨h1, h2, h3, by simp [h4], h5⟩, by simp⟩
    · rw [if_neg hf]
      exact ⟨⟨h1, h2, h3, h4, h5⟩, by simp⟩
  | record j r' =>
    refine ⟨⟨h1, ?_, h3, h4, ?_⟩, by simp [Spec.Cdr.step]⟩
    · simp only [Spec.Cdr.step]
      split
      · rename_i hij
        subst hij
        rw [List.head?_append, h2]; rfl
      · exact h2
    · simp only [Spec.Cdr.step]
      split
      · rename_i hij
        subst hij
        exact List.mem_append_left _ h5
      · exact h5
  | has =>
    have hch : t.choose = t := by simp only [Spec.Cdr.State.choose, h1]
    have hrec : t.recording = some big := by
      simp only [Spec.Cdr.State.recording, h1, h2]
    simp only [Spec.Cdr.step, hch, hrec, if_neg (show ¬ (head big).length ≤ limit by omega)]
    refine ⟨⟨h1, h2, h3, h4, h5⟩, ?_⟩
    intro n hn
    injection hn with hn
    exact hn.symm
  | read off len => exact ⟨⟨h1, h2, h3, h4, h5⟩, by simp [Spec.Cdr.step]⟩
  | mark => cases hq
  | reset => cases hq

theorem blocked_run {slots limit : Nat} {head : Recording → Bytes} {i k : Nat}
    {big small : Recording} (ops : List Op) (hq : ∀ op ∈ ops, Op.quiet op = true) :
    ∀ {t : Spec.Cdr.State}, Blocked limit head i k big small t →
      Blocked limit head i k big small (Spec.Cdr.run slots limit head t ops).2 ∧
      ∀ n, Out.size n ∈ (Spec.Cdr.run slots limit head t ops).1 → n = none := by
  induction ops with
  | nil => intro t h; exact ⟨h, by simp [Spec.Cdr.run]⟩
  | cons op ops ih =>
    intro t h
    obtain ⟨h1, h2⟩ := blocked_step (slots := slots) h op (hq op (by simp))
    obtain ⟨h3, h4⟩ := ih (fun o ho => hq o (by simp [ho])) h1
    refine ⟨h3, ?_⟩
    intro n hn
    rw [Spec.Cdr.run] at hn
    dsimp only at hn
    rcases List.mem_cons.mp hn with hn | hn
    · exact h2 n hn.symm
    · exact h4 n hn

theorem spec_run_append {slots limit : Nat} {head : Recording → Bytes} (a b : List Op) :
    ∀ t : Spec.Cdr.State, Spec.Cdr.run slots limit head t (a ++ b) =
      ((Spec.Cdr.run slots limit head t a).1 ++
        (Spec.Cdr.run slots limit head (Spec.Cdr.run slots limit head t a).2 b).1,
       (Spec.Cdr.run slots limit head (Spec.Cdr.run slots limit head t a).2 b).2) := by
  induction a with
  | nil => intro t; rfl
  | cons op a ih =>
    intro t
    rw [List.cons_append, Spec.Cdr.run, Spec.Cdr.run]
    dsimp only
    rw [ih]
    rfl

/-- A device. -/
def cdrDev : SerializerHelper.Device :=
  { serial := some [68], softwareType := [109], softwareVersion := [49], hardwareVersion := [50]
    buildId := none }

/-- The default configuration. -/
def cdrCfg : Config := { maxSources := 4, maxMetadata := 128, dev := cdrDev }

def cdrSmall : Recording :=
  { time := some 1700000000, mimetypes := [[116, 47, 97], [116]], duration := 70000, reason := [114, 115]
    data := [1, 2, 3, 4, 5] }

/-- A recording with a reason of 120 characters. -/
def cdrBig : Recording :=
  { time := none, mimetypes := [[116]], duration := 1, reason := List.replicate 120 97, data := [9] }

theorem cdrDev_ok : Spec.Event.DeviceOk cdrDev :=
  ⟨by intro s hs; cases hs; decide, by decide, by decide, by decide, by intro s hs; cases hs⟩

theorem cdrSmall_ok : Spec.Cdr.Ok 128 cdrSmall := ⟨by decide, by decide, by decide, by decide, by decide⟩

theorem cdrBig_ok : Spec.Cdr.Ok 128 cdrBig := ⟨by decide, by decide, by decide, by decide, by decide⟩

/-- The hypotheses of C50 and C61 are met by a history in which two sources deliver. -/
example : (cdrRun cdrCfg (State.init cdrCfg)
      [.register 7, .register 3, .record 3 cdrSmall, .has, .record 7 cdrSmall, .read 38 8, .mark,
       .has]).map (·.1) =
    some [.registered true, .registered true, .done, .size (some 50), .done,
      .bytes (some [116, 3, 98, 114, 115, 4, 69, 1]), .done, .size (some 50)] := by
  decide +kernel

/-- **C61 is false.** With the default sizes, one recording whose description does not fit blocks
all recordings of all sources for good: in every continuation in which nothing is reported as
delivered and the module is not reset, every question is answered with "no message", although
source 1 has had a recording of five bytes all along. -/
theorem C61_false_blocked (ops : List Op) (hops : ∀ op ∈ ops, op.Ok 128)
    (hq : ∀ op ∈ ops, Op.quiet op = true) :
    ∃ outs s, cdrRun cdrCfg (State.init cdrCfg)
        ([.register 0, .register 1, .record 0 cdrBig, .record 1 cdrSmall, .has] ++ ops) =
          some (outs, s) ∧
      (∀ n, Out.size n ∈ outs → n = none) ∧ 1 ∈ s.regs ∧ cdrSmall ∈ s.queues 1 := by
  have hbig : 128 < (head cdrDev cdrBig).length := by decide +kernel
  have hpre : ∀ op ∈ ([.register 0, .register 1, .record 0 cdrBig, .record 1 cdrSmall, .has] : List Op),
      op.Ok 128 := by
    intro op hop
    simp only [List.mem_cons, List.not_mem_nil, or_false] at hop
    rcases hop with rfl | rfl | rfl | rfl | rfl
    · trivial
    · trivial
    · exact cdrBig_ok
    · exact cdrSmall_ok
    · trivial
  obtain ⟨s, h1, h2⟩ := cdrRun_rel (c := cdrCfg)
    ([.register 0, .register 1, .record 0 cdrBig, .record 1 cdrSmall, .has] ++ ops)
    (fun op hop => (List.mem_append.mp hop).elim (hpre op) (hops op)) (cdr_init_rel cdrCfg)
  have hst : Blocked 128 (head cdrDev) 0 1 cdrBig cdrSmall
      (Spec.Cdr.run 4 128 (head cdrDev) Spec.Cdr.State.init
        [.register 0, .register 1, .record 0 cdrBig, .record 1 cdrSmall, .has]).2 :=
    ⟨rfl, rfl, hbig, by decide, List.mem_singleton.mpr rfl⟩
  have hout : (Spec.Cdr.run 4 128 (head cdrDev) Spec.Cdr.State.init
      [.register 0, .register 1, .record 0 cdrBig, .record 1 cdrSmall, .has]).1 =
      [.registered true, .registered true, .done, .done, .size none] := by
    have : (if (head cdrDev cdrBig).length ≤ 128 then
        some (head cdrDev cdrBig ++ cdrBig.data).length else none) = none := if_neg (by omega)
    show [Out.registered true, .registered true, .done, .done, .size (if (head cdrDev cdrBig).length ≤ 128 then
        some (head cdrDev cdrBig ++ cdrBig.data).length else none)] = _
    rw [this]
  obtain ⟨h3, h4⟩ := blocked_run (slots := 4) ops hq hst
  change cdrRun cdrCfg _ _ = some ((Spec.Cdr.run 4 128 (head cdrDev) _ _).1, s) at h1
  change Rel cdrCfg s (Spec.Cdr.run 4 128 (head cdrDev) _ _).2 at h2
  rw [spec_run_append, hout] at h1
  rw [spec_run_append] at h2
  refine ⟨_, s, h1, ?_, ?_, ?_⟩
  · intro n hn
    rcases List.mem_append.mp hn with hn | hn
    · simp at hn; exact hn
    · exact h4 n hn
  · rw [h2.regs]; exact h3.source
  · rw [h2.queues]; exact h3.other

end Mflt.Props
