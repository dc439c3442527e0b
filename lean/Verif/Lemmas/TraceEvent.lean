import Verif.Lemmas.Event
import Verif.Lemmas.MetricsSize
import Verif.Spec.TraceEvent
import Verif.Props.SerializerHelper

/-! # Lemmas: trace events -/

namespace Mflt.TraceEvent

open Cbor SerializerHelper Spec.TraceEvent Props

/-- The information as a CBOR value. -/
def infoVal (i : Info) : CborVal :=
  .map ([val 6, val i.reason] ++ (if i.pc ≠ 0 then [val 2, val i.pc] else []) ++
    (if i.lr ≠ 0 then [val 3, val i.lr] else []) ++
    (match i.status with | some v => [val 7, .i32 v] | none => []) ++
    (match i.log with | some l => [val 8, .bytes l] | none => []))

/-- All calls of the encoder. -/
def calls (dev : Device) (time : Option Nat) (i : Info) : List Call :=
  eventCalls dev 2 time (infoVal i).calls

theorem infoVal_calls (i : Info) : (u32 4 :: (infoVal i).calls) =
    traceCalls ⟨6, i.reason, i.pc, i.lr, extraPairs i⟩ ++ optionalCalls i := by
  obtain ⟨reason, pc, lr, status, log⟩ := i
  unfold infoVal traceCalls optionalCalls extraPairs
  by_cases hp : pc = 0 <;> by_cases hl : lr = 0 <;> cases status <;> cases log <;>
    simp [hp, hl, CborVal.calls, CborVal.callsList, val, u32]

theorem infoVal_item {i : Info} (h : InfoOk i) (dev : Device) (time : Option Nat) :
    Spec.Event.event dev 2 time (infoVal i).item = traceEvent dev time i := by
  obtain ⟨reason, pc, lr, status, log⟩ := i
  have h1 := h.reason
  have h2 := h.pc
  have h3 := h.lr
  simp only at h1 h2 h3
  unfold traceEvent infoVal
  by_cases hp : pc = 0 <;> by_cases hl : lr = 0 <;> cases status <;> cases log <;>
    simp [hp, hl, CborVal.item, CborVal.items, val, Nat.mod_eq_of_lt h1, Nat.mod_eq_of_lt h2,
      Nat.mod_eq_of_lt h3]

theorem infoVal_ok {i : Info} (h : InfoOk i) : (infoVal i).ok := by
  obtain ⟨reason, pc, lr, status, log⟩ := i
  have h4 := h.log
  simp only at h4
  unfold infoVal
  by_cases hp : pc = 0 <;> by_cases hl : lr = 0 <;> cases status <;> cases log <;>
    simp_all [CborVal.ok, CborVal.okList, val]

theorem encode_eq {σ : Type} (dev : Device) (time : Option Nat) (i : Info) (e : Encoder σ) :
    encode dev time i e = callAll e (calls dev time i) := by
  unfold calls
  rw [← encodeEvent_eq, infoVal_calls]
  have hassoc : ∀ (a b c : Encoder σ → Bool × Encoder σ) (e : Encoder σ),
      andThen (fun e => andThen a b e) c e = andThen a (fun e => andThen b c e) e := by
    intro a b c e
    unfold andThen
    cases hr : a e with
    | mk ok e' => cases ok <;> simp [hr]
  unfold encode encodeTraceEvent
  simp only [callAll_append]
  exact hassoc _ _ _ e

theorem decode_calls {dev : Device} (hd : Spec.Event.DeviceOk dev) {i : Info} (h : InfoOk i)
    (time : Option Nat) :
    Spec.Cbor.decode (emitAll (calls dev time i)) = some (traceEvent dev time i) := by
  unfold calls
  rw [decode_event hd (by decide) time (infoVal i) (infoVal_ok h), infoVal_item h]

theorem calls_pos (dev : Device) (time : Option Nat) (i : Info) :
    1 ≤ (emitAll (calls dev time i)).length := by
  unfold calls eventCalls
  rw [List.cons_append, emitAll_cons, List.length_append]
  have : (emit (.dictionaryBegin (topLevelPairs dev time))).length =
      Metrics.headLen (BitVec.ofNat 32 (topLevelPairs dev time)).toNat := by
    simp [emit, pieces, Metrics.headBytes_length]
  have := (Metrics.headLen_le (BitVec.ofNat 32 (topLevelPairs dev time)).toNat).1
  omega

/-- Storing one trace event. -/
theorem store_eq {b : Option Nat} {dev : Device} {sys : Sys} {q : Spec.EventQueue.State}
    (h : Holds b sys.storage q) (hp : q.pending = none) (time : Option Nat) (i : Info)
    (hl : (emitAll (calls dev time i)).length ≤ 65532) :
    ∃ s' d', (Spec.EventQueue.used q + 2 + (emitAll (calls dev time i)).length ≤ q.cap →
        store dev time sys i = some (0, { sys with storage := s', drops := d' }) ∧
        Holds b s' { q with committed := q.committed ++ [emitAll (calls dev time i)] }) ∧
      (¬ Spec.EventQueue.used q + 2 + (emitAll (calls dev time i)).length ≤ q.cap →
        store dev time sys i = some (-2, { sys with storage := s', drops := d' }) ∧ Holds b s' q) := by
  have hcb : (encode dev time i : Encoder SerializerHelper.Ctx → _) =
      callback (calls dev time i) false := by
    funext e; rw [encode_eq]; simp [callback]
  obtain ⟨s', f1, f2⟩ := encodeToStorage_eq h hp (calls dev time i) false sys.drops
    (calls_pos dev time i) hl
  by_cases hc : Spec.EventQueue.used q + 2 + (emitAll (calls dev time i)).length ≤ q.cap
  · obtain ⟨e1, e2⟩ := f1 ⟨rfl, hc⟩
    refine ⟨s', if sys.drops.numStorageDrops ≠ 0 then
      ⟨0, add32 sys.drops.lastDropCount sys.drops.numStorageDrops⟩ else sys.drops,
      fun _ => ⟨?_, e2⟩, fun hn => absurd hc hn⟩
    unfold store; rw [hcb, e1]; rfl
  · obtain ⟨e1, e2⟩ := f2 (fun hh => hc hh.2)
    refine ⟨s', { sys.drops with numStorageDrops := add32 sys.drops.numStorageDrops 1 },
      fun hn => absurd hn hc, fun _ => ⟨?_, e2⟩⟩
    unfold store; rw [hcb, e1]; rfl

theorem records_append {dev : Device} {bs bs' : List Bytes} {is is' : List Info}
    (h : Records dev bs is) (h' : Records dev bs' is') : Records dev (bs ++ bs') (is ++ is') := by
  induction bs generalizing is with
  | nil => cases is with
    | nil => exact h'
    | cons i is => exact h.elim
  | cons b bs ih =>
    cases is with
    | nil => exact h.elim
    | cons i is => exact ⟨h.1, ih h.2⟩

theorem accepted_append (a b : List (Info × Int)) : accepted (a ++ b) = accepted a ++ accepted b := by
  simp [accepted]

/-- A capture the storage format has room for. -/
structure Sane (dev : Device) (i : Info) : Prop where
  ok : InfoOk i
  size : ∀ time, (emitAll (calls dev time i)).length ≤ 65532

/-- What holds while a task call runs. `q0` and `w0` are the stored and the waiting events before the
call. -/
structure Inv (b : Option Nat) (dev : Device) (q0 : Spec.EventQueue.State) (w0 : List Info)
    (own : Option Info) (r : Run) (news : List Bytes) (infos A B : List Info) : Prop where
  holds : Holds b r.sys.storage { q0 with committed := q0.committed ++ news }
  recs : Records dev news infos
  acc : A ++ B = accepted r.outs
  slot : r.sys.slot.reason ≠ 0 → Sane dev r.sys.slot.info
  own_ : ∀ i, own = some i → Sane dev i
  events : match r.pc with
    | .flushCheck => B = [] ∧ infos ++ waiting r.sys = w0 ++ A
    | .flushStore => B = [] ∧ r.sys.slot.reason ≠ 0 ∧ infos ++ waiting r.sys = w0 ++ A
    | .flushClear => B = [] ∧ r.sys.slot.reason ≠ 0 ∧ infos = w0 ++ A
    | .ownStore => B = waiting r.sys ∧ own.isSome ∧ infos = w0 ++ A
    | .done rv => infos ++ waiting r.sys = w0 ++ A ++ (if rv = 0 then own.toList else []) ++ B ∧
        (rv = 0 ∨ (rv = -1 ∧ r.sys.booted = false) ∨ (rv = -2 ∧ ∃ i time, (i ∈ own ∨ i ∈ waiting r.sys) ∧
          q0.cap < Spec.EventQueue.used { q0 with committed := q0.committed ++ news } + 2 +
            (emitAll (calls dev time i)).length))

theorem evStep_inv {b : Option Nat} {dev : Device} (hd : Spec.Event.DeviceOk dev)
    {q0 : Spec.EventQueue.State} (hp : q0.pending = none) {w0 : List Info} {own : Option Info} {r : Run}
    {news : List Bytes} {infos A B : List Info} (h : Inv b dev q0 w0 own r news infos A B) (ev : Ev)
    (hev : ∀ i, ev = .isr i → Sane dev i ∧ i.reason ≠ 0) :
    ∃ r' news' infos' A' B', evStep dev own r ev = some r' ∧
      Inv b dev q0 w0 own r' news' infos' A' B' := by
  obtain ⟨sys, pc, outs⟩ := r
  obtain ⟨h1, h2, h3, h4, h5, h6⟩ := h
  simp only at h1 h3 h4 h6
  cases ev with
  | isr i =>
    obtain ⟨hs, hr⟩ := hev i rfl
    by_cases hb : sys.booted = true
    · by_cases hz : sys.slot.reason = 0
      · have hcap : captureFromIsr sys i = (0, { sys with slot := ⟨i.reason, i⟩ }) := by
          simp [captureFromIsr, isrFree, hz, isrWrite]
        have hw : waiting sys = [] := by simp [waiting, hz]
        have hw' : waiting { sys with slot := ⟨i.reason, i⟩ } = [i] := by simp [waiting, hr]
        rw [hw] at h6
        have hacc : accepted (outs ++ [(i, 0)]) = accepted outs ++ [i] := by
          simp [accepted_append, accepted]
        cases pc with
        | flushCheck =>
          obtain ⟨rfl, e⟩ := h6
          refine ⟨⟨{ sys with slot := ⟨i.reason, i⟩ }, .flushCheck, outs ++ [(i, 0)]⟩, news, infos,
            A ++ [i], [], by simp only [evStep, hb, hcap, if_true], ?_⟩
          refine ⟨h1, h2, ?_, fun _ => hs, h5, ?_⟩
          · simp only [List.append_nil] at h3 ⊢; rw [hacc, h3]
          · refine ⟨rfl, ?_⟩
            simp only [hw', List.append_nil] at e ⊢
            rw [e]; simp
        | flushStore => exact absurd hz h6.2.1
        | flushClear => exact absurd hz h6.2.1
        | ownStore =>
          obtain ⟨rfl, eo, e⟩ := h6
          refine ⟨⟨{ sys with slot := ⟨i.reason, i⟩ }, .ownStore, outs ++ [(i, 0)]⟩, news, infos, A, [i],
            by simp only [evStep, hb, hcap, if_true], ?_⟩
          refine ⟨h1, h2, ?_, fun _ => hs, h5, hw'.symm, eo, e⟩
          simp only [List.append_nil] at h3; rw [hacc, h3]
        | done rv =>
          obtain ⟨e, hf⟩ := h6
          refine ⟨⟨{ sys with slot := ⟨i.reason, i⟩ }, .done rv, outs ++ [(i, 0)]⟩, news, infos, A,
            B ++ [i], by simp only [evStep, hb, hcap, if_true], ?_⟩
          refine ⟨h1, h2, ?_, fun _ => hs, h5, ?_⟩
          · rw [hacc, ← h3]; simp
          · refine ⟨?_, ?_⟩
            · simp only [hw', List.append_nil] at e ⊢
              rw [e]; simp
            · rcases hf with hf | hf | ⟨hf, j, t, hj, hlt⟩
              · exact Or.inl hf
              · simp [hf.2] at hb
              · refine Or.inr (Or.inr ⟨hf, j, t, ?_, hlt⟩)
                rcases hj with hj | hj
                · exact Or.inl hj
                · simp at hj
      · have hcap : captureFromIsr sys i = (-2, sys) := by
          simp [captureFromIsr, isrFree, hz]
        refine ⟨⟨sys, pc, outs ++ [(i, -2)]⟩, news, infos, A, B,
          by simp only [evStep, hb, hcap, if_true], ?_⟩
        exact ⟨h1, h2, by rw [accepted_append, h3]; simp [accepted], h4, h5, h6⟩
    · refine ⟨⟨sys, pc, outs ++ [(i, -1)]⟩, news, infos, A, B, by simp [evStep, hb], ?_⟩
      exact ⟨h1, h2, by rw [accepted_append, h3]; simp [accepted], h4, h5, h6⟩
  | task time =>
    have hpend : ({ q0 with committed := q0.committed ++ news } : Spec.EventQueue.State).pending = none := hp
    cases pc with
    | flushCheck =>
      obtain ⟨rfl, e⟩ := h6
      by_cases hz : sys.slot.reason = 0
      · cases own with
        | none =>
          refine ⟨⟨sys, .done 0, outs⟩, news, infos, A, [],
            by simp [evStep, taskStep, hz, afterFlush], h1, h2, h3, h4, h5, ?_⟩
          exact ⟨by simpa using e, Or.inl rfl⟩
        | some i =>
          refine ⟨⟨sys, .ownStore, outs⟩, news, infos, A, [],
            by simp [evStep, taskStep, hz, afterFlush], h1, h2, h3, h4, h5, ?_⟩
          have hw : waiting sys = [] := by simp [waiting, hz]
          exact ⟨hw.symm, rfl, by simpa [hw] using e⟩
      · refine ⟨⟨sys, .flushStore, outs⟩, news, infos, A, [],
            by simp [evStep, taskStep, hz], h1, h2, h3, h4, h5, ?_⟩
        exact ⟨rfl, hz, e⟩
    | flushStore =>
      obtain ⟨rfl, hz, e⟩ := h6
      have hs := h4 hz
      obtain ⟨s', d', f1, f2⟩ := store_eq h1 hpend time sys.slot.info (hs.size time)
      have hw : waiting sys = [sys.slot.info] := by simp [waiting, hz]
      by_cases hc : Spec.EventQueue.used { q0 with committed := q0.committed ++ news } + 2 +
          (emitAll (calls dev time sys.slot.info)).length ≤ q0.cap
      · obtain ⟨e1, e2⟩ := f1 hc
        refine ⟨⟨{ sys with storage := s', drops := d' }, .flushClear, outs⟩,
          news ++ [emitAll (calls dev time sys.slot.info)], infos ++ [sys.slot.info], A, [],
          by simp [evStep, taskStep, e1], ?_, ?_, h3, fun _ => hs, h5, ?_⟩
        · simpa [List.append_assoc] using e2
        · exact records_append h2 ⟨⟨time, decode_calls hd hs.ok time⟩, trivial⟩
        · exact ⟨rfl, hz, by rw [← e, hw]⟩
      · obtain ⟨e1, e2⟩ := f2 hc
        refine ⟨⟨{ sys with storage := s', drops := d' }, .done (-2), outs⟩, news, infos, A, [],
          by simp [evStep, taskStep, e1], e2, h2, h3, fun _ => hs, h5, ?_⟩
        refine ⟨by simpa [waiting] using e, Or.inr (Or.inr ⟨rfl, sys.slot.info, time, Or.inr ?_, by omega⟩)⟩
        simp [waiting, hz]
    | flushClear =>
      obtain ⟨rfl, hz, e⟩ := h6
      have hw : waiting { sys with slot := { sys.slot with reason := 0 } } = [] := by simp [waiting]
      cases own with
      | none =>
        refine ⟨⟨{ sys with slot := { sys.slot with reason := 0 } }, .done 0, outs⟩, news, infos, A, [],
          by simp [evStep, taskStep, afterFlush], h1, h2, h3, fun hn => absurd rfl hn, h5, ?_⟩
        exact ⟨by simp [hw, e], Or.inl rfl⟩
      | some i =>
        refine ⟨⟨{ sys with slot := { sys.slot with reason := 0 } }, .ownStore, outs⟩, news, infos, A, [],
          by simp [evStep, taskStep, afterFlush], h1, h2, h3, fun hn => absurd rfl hn, h5, ?_⟩
        exact ⟨hw.symm, rfl, e⟩
    | ownStore =>
      obtain ⟨rfl, ho, e⟩ := h6
      cases own with
      | none => simp at ho
      | some i =>
        have hs := h5 i rfl
        obtain ⟨s', d', f1, f2⟩ := store_eq h1 hpend time i (hs.size time)
        by_cases hc : Spec.EventQueue.used { q0 with committed := q0.committed ++ news } + 2 +
            (emitAll (calls dev time i)).length ≤ q0.cap
        · obtain ⟨e1, e2⟩ := f1 hc
          refine ⟨⟨{ sys with storage := s', drops := d' }, .done 0, outs⟩,
            news ++ [emitAll (calls dev time i)], infos ++ [i], A, waiting sys,
            by simp [evStep, taskStep, e1], ?_, ?_, h3, h4, h5, ?_⟩
          · simpa [List.append_assoc] using e2
          · exact records_append h2 ⟨⟨time, decode_calls hd hs.ok time⟩, trivial⟩
          · exact ⟨by simp [e, waiting], Or.inl rfl⟩
        · obtain ⟨e1, e2⟩ := f2 hc
          refine ⟨⟨{ sys with storage := s', drops := d' }, .done (-2), outs⟩, news, infos, A, waiting sys,
            by simp [evStep, taskStep, e1], e2, h2, h3, h4, h5, ?_⟩
          exact ⟨by simp [e, waiting], Or.inr (Or.inr ⟨rfl, i, time, Or.inl rfl, by omega⟩)⟩
    | done rv =>
      exact ⟨⟨sys, .done rv, outs⟩, news, infos, A, B, by simp [evStep, taskStep], h1, h2, h3, h4, h5, h6⟩

theorem runEvs_inv {b : Option Nat} {dev : Device} (hd : Spec.Event.DeviceOk dev)
    {q0 : Spec.EventQueue.State} (hp : q0.pending = none) {w0 : List Info} {own : Option Info} (evs : List Ev) :
    ∀ {r : Run} {news : List Bytes} {infos A B : List Info}, Inv b dev q0 w0 own r news infos A B →
    (∀ i, .isr i ∈ evs → Sane dev i ∧ i.reason ≠ 0) →
    ∃ r' news' infos' A' B', runEvs dev own r evs = some r' ∧
      Inv b dev q0 w0 own r' news' infos' A' B' := by
  induction evs with
  | nil => intro r news infos A B h _; exact ⟨r, news, infos, A, B, rfl, h⟩
  | cons ev evs ih =>
    intro r news infos A B h hev
    obtain ⟨r1, n1, i1, A1, B1, e1, H1⟩ := evStep_inv hd hp h ev (fun i hi => hev i (by simp [hi]))
    obtain ⟨r2, n2, i2, A2, B2, e2, H2⟩ := ih H1 (fun i hi => hev i (by simp [hi]))
    exact ⟨r2, n2, i2, A2, B2, by simp [runEvs, e1, e2], H2⟩

theorem computeSize_eq (dev : Device) (time : Option Nat) (i : Info) :
    computeSize (encode dev time i) = (emitAll (calls dev time i)).length := by
  unfold computeSize
  rw [encode_eq, callAll_eq_addAll, addAll_sizeOnly _ rfl, emitAll_eq]
  simp [Encoder.initSizeOnly]

/-- The steps a task still has to make, at most. -/
def left : Pc → Nat
  | .flushCheck => 4
  | .flushStore => 3
  | .flushClear => 2
  | .ownStore => 1
  | .done _ => 0

theorem evStep_left {dev : Device} {own : Option Info} {r r' : Run} {ev : Ev}
    (h : evStep dev own r ev = some r') :
    left r'.pc ≤ left r.pc ∧ ∀ t, ev = .task t → left r'.pc ≤ left r.pc - 1 := by
  have haf : left (afterFlush own) ≤ 1 := by unfold afterFlush; split <;> simp [left]
  obtain ⟨sys, pc, outs⟩ := r
  cases ev with
  | isr i =>
    simp only [evStep] at h
    split at h <;> (injection h with h; subst h; exact ⟨Nat.le_refl _, fun t ht => nomatch ht⟩)
  | task t =>
    suffices left r'.pc ≤ left pc - 1 from ⟨by simp only; omega, fun _ _ => this⟩
    simp only [evStep] at h
    obtain ⟨⟨s1, p1⟩, h1, rfl⟩ := Option.map_eq_some_iff.mp h
    simp only
    cases pc with
    | flushCheck =>
      simp only [taskStep, Option.some.injEq, Prod.mk.injEq] at h1
      rw [← h1.2]
      split
      · exact Nat.le_trans haf (by simp [left])
      · simp [left]
    | flushStore =>
      simp only [taskStep] at h1
      obtain ⟨x, -, hx⟩ := Option.map_eq_some_iff.mp h1
      rw [Prod.mk.injEq] at hx
      rw [← hx.2]
      split <;> simp [left]
    | flushClear =>
      simp only [taskStep, Option.some.injEq, Prod.mk.injEq] at h1
      rw [← h1.2]
      exact Nat.le_trans haf (by simp [left])
    | ownStore =>
      cases own with
      | none =>
        simp only [taskStep, Option.some.injEq, Prod.mk.injEq] at h1
        rw [← h1.2]; simp [left]
      | some i =>
        simp only [taskStep] at h1
        obtain ⟨x, -, hx⟩ := Option.map_eq_some_iff.mp h1
        rw [Prod.mk.injEq] at hx
        rw [← hx.2]; simp [left]
    | done rv =>
      simp only [taskStep, Option.some.injEq, Prod.mk.injEq] at h1
      rw [← h1.2]; simp [left]

theorem runEvs_left {dev : Device} {own : Option Info} (evs : List Ev) : ∀ {r r' : Run},
    runEvs dev own r evs = some r' →
    left r'.pc ≤ left r.pc - taskSteps evs := by
  induction evs with
  | nil => intro r r' h; injection h with h; subst h; simp [taskSteps]
  | cons ev evs ih =>
    intro r r' h
    simp only [runEvs] at h
    unfold taskSteps at ih ⊢
    obtain ⟨r1, h1, h2⟩ := Option.bind_eq_some_iff.mp h
    have a := ih h2
    have ⟨b1, b2⟩ := evStep_left h1
    cases ev with
    | isr i => simp only [List.filter_cons, Bool.false_eq_true, if_false]; omega
    | task t =>
      have := b2 t rfl
      simp only [List.filter_cons, if_true, List.length_cons]; omega

theorem left_zero {pc : Pc} (h : left pc = 0) : ∃ rv, pc = .done rv := by
  cases pc <;> simp_all [left]

end Mflt.TraceEvent
