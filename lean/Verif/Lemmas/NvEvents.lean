import Verif.Props.EventStorage
import Verif.Spec.NvEvents

/-! # Lemmas: the event storage that moves its events refines the two queues -/

namespace Mflt.NvEvents

open Props (Holds)
open Spec.EventQueue (Out message messageOf batchCount)
open Spec.NvEvents (Works fixBatch notice)

variable {ν : Type}

/-- The system `s` holds the two queues `S`. -/
structure Rel (b : Option Nat) (holds : ν → List Bytes → Nat → Prop) (bufLen : Nat) (s : Sys ν)
    (S : Spec.NvEvents.State) : Prop where
  ram : Holds b s.ram S.ram
  cap : S.ram.cap = bufLen
  enabled : s.enabled = S.enabled
  known : s.seenEnabled = S.known
  nv : holds s.nv (S.moved.map messageOf) S.tries
  source : S.source = some true → S.moved ≠ []

section Ram

variable {b : Option Nat} {s : EventStorage.State} {q : Spec.EventQueue.State}

theorem hasData_eq (e : Spec.NvEvents.Env) (h : Holds e.batchMax s q) :
    ∃ s', EventStorage.hasData ⟨e.batchMax⟩ s =
        some (decide ((fixBatch e q).reading ≠ 0), (message (fixBatch e q)).length, s') ∧
      Holds e.batchMax s' (fixBatch e q) := by
  obtain ⟨s', h1, h2⟩ := Props.step_refines (op := .hasData) h rfl
  simp only [EventStorage.step, Option.map_eq_some_iff] at h1
  obtain ⟨⟨x, n, s2⟩, e1, e2⟩ := h1
  simp only [Prod.mk.injEq, Out.avail.injEq] at e2
  obtain ⟨⟨rfl, rfl⟩, rfl⟩ := e2
  exact ⟨_, e1, h2⟩

theorem read_eq (h : Holds b s q) (o l : Nat) :
    EventStorage.read s o l =
      some (if o + l ≤ (message q).length then some (((message q).drop o).take l) else none) := by
  have key : ∀ d, Spec.EventQueue.step b q (.read o l) = some (.data d, q) →
      EventStorage.read s o l = some d := by
    intro d hd
    obtain ⟨s', h1, -⟩ := Props.step_refines h hd
    simp only [EventStorage.step, Option.map_eq_some_iff] at h1
    obtain ⟨d', e1, e2⟩ := h1
    simp only [Prod.mk.injEq, Out.data.injEq] at e2
    rw [e1, e2.1]
  apply key
  simp only [Spec.EventQueue.step]
  split <;> rfl

theorem markRead_eq (h : Holds b s q) :
    ∃ s', EventStorage.markRead s = some s' ∧
      Holds b s' { q with committed := q.committed.drop q.reading, reading := 0 } := by
  obtain ⟨s', h1, h2⟩ := Props.step_refines (op := .markRead) h rfl
  simp only [EventStorage.step, Option.map_eq_some_iff] at h1
  obtain ⟨s2, e1, e2⟩ := h1
  simp only [Prod.mk.injEq] at e2
  obtain ⟨-, rfl⟩ := e2
  exact ⟨_, e1, h2⟩

theorem holds_reset (h : Holds b s q) :
    Holds b { s with rs := ⟨0, 0, []⟩ } { q with reading := 0 } :=
  ⟨h.inv, h.cap, h.small, h.contents, h.ok, h.ws, by
    show (⟨0, 0, []⟩ : EventStorage.ReadState) = EventStorage.readStateOf b q.committed 0
    cases b <;> rfl, Nat.zero_le _, fun _ => Nat.zero_le _⟩

theorem length_le_used (q : Spec.EventQueue.State) : q.committed.length ≤ Spec.EventQueue.used q := by
  have : q.committed.length ≤ (q.committed.map fun e => e.length + 2).sum := by
    induction q.committed with
    | nil => simp
    | cons e es ih => simp only [List.length_cons, List.map_cons, List.sum_cons]; omega
  unfold Spec.EventQueue.used
  omega

end Ram

variable {e : Spec.NvEvents.Env} {impl : Impl ν} {holds : ν → List Bytes → Nat → Prop} {bufLen : Nat}
  {s : Sys ν} {S : Spec.NvEvents.State}

theorem nvEnabled_eq (h : Rel e.batchMax holds bufLen s S) :
    (nvEnabled s).1 = S.enabled ∧ Rel e.batchMax holds bufLen (nvEnabled s).2 (notice S) := by
  unfold nvEnabled notice
  rw [h.known, h.enabled]
  cases S.known && !S.enabled
  · exact ⟨h.enabled, h.ram, h.cap, h.enabled, h.enabled, h.nv, h.source⟩
  · exact ⟨rfl, holds_reset h.ram, h.cap, rfl, rfl, h.nv, h.source⟩

/-- What `saveEvent` does, in terms of the queues. -/
theorem saveEvent_eq (hw : Works impl e.accept holds) (h : Rel e.batchMax holds bufLen s S) :
    ∃ s', saveEvent ⟨⟨e.batchMax⟩, impl, e.auto⟩ s =
        some (decide ((fixBatch e S.ram).reading ≠ 0) && e.accept S.tries, s') ∧
      Rel e.batchMax holds bufLen s'
        (if (fixBatch e S.ram).reading = 0 then { S with ram := fixBatch e S.ram }
        else if e.accept S.tries then { S with
          ram := { fixBatch e S.ram with
            committed := (fixBatch e S.ram).committed.drop (fixBatch e S.ram).reading, reading := 0 }
          moved := S.moved ++ [(fixBatch e S.ram).committed.take (fixBatch e S.ram).reading]
          tries := S.tries + 1 }
        else { S with ram := fixBatch e S.ram, tries := S.tries + 1 }) := by
  obtain ⟨ram, h1, h2⟩ := hasData_eq e h.ram
  have hcap : (fixBatch e S.ram).cap = bufLen := h.cap
  unfold saveEvent
  simp only [h1]
  generalize fixBatch e S.ram = q at h1 h2 hcap ⊢
  by_cases h0 : q.reading = 0
  · simp only [h0, ne_eq, not_true_eq_false, decide_false, Bool.false_and, if_true]
    exact ⟨_, rfl, h2, hcap, h.enabled, h.known, h.nv, h.source⟩
  · simp only [h0, ne_eq, not_false_eq_true, decide_true, Bool.true_and, if_false]
    have hne : message q ≠ [] := by
      intro hm
      exact h0 ((Holds.message_pos h2.reading h2.ok).mp
        (by rw [show messageOf (q.committed.take q.reading) = message q from rfl, hm]; rfl))
    obtain ⟨v', w1, w2⟩ := hw.write s.nv _ _ h.nv (message q) (EventStorage.read ram) hne
      (fun o l hol => by rw [read_eq h2, if_pos hol])
    rw [w1]
    cases ha : e.accept S.tries with
    | false =>
      rw [ha] at w2
      exact ⟨_, rfl, h2, hcap, h.enabled, h.known, w2, h.source⟩
    | true =>
      rw [ha] at w2
      obtain ⟨ram', m1, m2⟩ := markRead_eq h2
      simp only [m1, Option.map_some, if_true]
      refine ⟨_, rfl, m2, hcap, h.enabled, h.known, ?_, fun _ => by simp⟩
      simp only [List.map_append, List.map_cons, List.map_nil]
      exact w2

theorem persistLoop_eq (hw : Works impl e.accept holds) :
    ∀ (n fuel : Nat) (s : Sys ν) (S : Spec.NvEvents.State) (k : Nat),
      Rel e.batchMax holds bufLen s S → S.ram.committed.length ≤ n → n < fuel →
      ∃ s', persistLoop ⟨⟨e.batchMax⟩, impl, e.auto⟩ fuel s k =
          some (k + (Spec.NvEvents.moveAll e n S).1, s') ∧
        Rel e.batchMax holds bufLen s' (Spec.NvEvents.moveAll e n S).2 := by
  intro n
  induction n with
  | zero =>
    intro fuel s S k h hn hf
    obtain ⟨fuel, rfl⟩ : ∃ f, fuel = f + 1 := ⟨fuel - 1, by omega⟩
    obtain ⟨s', e1, e2⟩ := saveEvent_eq hw h
    obtain ⟨ram, -, h2⟩ := hasData_eq e h.ram
    have h0 : (fixBatch e S.ram).reading = 0 := by
      have := h2.reading
      have hl : (fixBatch e S.ram).committed.length = S.ram.committed.length := rfl
      omega
    rw [if_pos h0] at e2
    simp only [h0, ne_eq, not_true_eq_false, decide_false, Bool.false_and] at e1
    unfold persistLoop
    rw [e1]
    exact ⟨s', rfl, e2⟩
  | succ n ih =>
    intro fuel s S k h hn hf
    obtain ⟨fuel, rfl⟩ : ∃ f, fuel = f + 1 := ⟨fuel - 1, by omega⟩
    obtain ⟨s', e1, e2⟩ := saveEvent_eq hw h
    unfold persistLoop Spec.NvEvents.moveAll
    rw [e1]
    by_cases h0 : (fixBatch e S.ram).reading = 0
    · rw [if_pos h0] at e2
      simp only [h0, ne_eq, not_true_eq_false, decide_false, Bool.false_and, if_true]
      exact ⟨s', rfl, e2⟩
    · rw [if_neg h0] at e2
      cases ha : e.accept S.tries with
      | false =>
        rw [ha] at e2
        simp only [Bool.and_false, h0, if_false, Bool.false_eq_true]
        exact ⟨s', rfl, e2⟩
      | true =>
        rw [ha] at e2
        simp only [h0, ne_eq, not_false_eq_true, decide_true, Bool.true_and, if_false, if_true]
        have hlen : (fixBatch e S.ram).committed.length = S.ram.committed.length := rfl
        obtain ⟨s2, i1, i2⟩ := ih fuel s' _ (k + 1) e2
          (by simp only [if_true, List.length_drop]; omega) (by omega)
        simp only [if_true] at i1 i2
        refine ⟨s2, ?_, i2⟩
        rw [i1]; congr 2; omega

theorem persist_eq (hw : Works impl e.accept holds) (h : Rel e.batchMax holds bufLen s S) :
    ∃ s', persist ⟨⟨e.batchMax⟩, impl, e.auto⟩ s = some ((Spec.NvEvents.move e S).1, s') ∧
      Rel e.batchMax holds bufLen s' (Spec.NvEvents.move e S).2 := by
  obtain ⟨n1, n2⟩ := nvEnabled_eq h
  unfold persist Spec.NvEvents.move
  rcases hn : nvEnabled s with ⟨en, s1⟩
  rw [hn] at n1 n2
  simp only at n1 n2 ⊢
  have hen : (notice S).enabled = S.enabled := rfl
  cases en with
  | false => rw [hen, ← n1]; exact ⟨s1, rfl, n2⟩
  | true =>
    rw [hen, ← n1]
    have hl := length_le_used (notice S).ram
    have hr := n2.ram.readSize
    obtain ⟨s', p1, p2⟩ := persistLoop_eq hw _ (s1.ram.cb.readSize + 2) s1 (notice S) 0 n2
      (Nat.le_refl _) (by omega)
    rw [Nat.zero_add] at p1
    exact ⟨s', p1, p2⟩

theorem requestPersist_eq (hw : Works impl e.accept holds) (h : Rel e.batchMax holds bufLen s S) :
    ∃ s', requestPersist ⟨⟨e.batchMax⟩, impl, e.auto⟩ s = some s' ∧
      Rel e.batchMax holds bufLen s' (Spec.NvEvents.maybeMove e S) := by
  unfold requestPersist Spec.NvEvents.maybeMove
  by_cases ha : e.auto = true
  · obtain ⟨s', p1, p2⟩ := persist_eq hw h
    rw [if_pos ha, if_pos ha, p1]
    exact ⟨s', rfl, p2⟩
  · rw [if_neg ha, if_neg ha]
    exact ⟨s, rfl, h⟩

theorem ram_cap {b : Option Nat} {q q' : Spec.EventQueue.State} {op : Spec.EventQueue.Op} {o : Out}
    (h : Spec.EventQueue.step b q op = some (o, q')) : q'.cap = q.cap := by
  cases op <;> simp only [Spec.EventQueue.step] at h <;> (repeat' split at h) <;> simp at h <;>
    (first | rw [← h.2] | rw [h.2])

theorem source_ram (h : Rel e.batchMax holds bufLen s S) {ram : EventStorage.State}
    {q : Spec.EventQueue.State} (hr : Holds e.batchMax ram q) (hc : q.cap = S.ram.cap) :
    Rel e.batchMax holds bufLen { s with ram := ram } { S with ram := q } :=
  ⟨hr, by rw [← h.cap, ← hc], h.enabled, h.known, h.nv, h.source⟩

theorem step_refines (hw : Works impl e.accept holds) (h0 : 0 < bufLen) (h1 : bufLen < 2 ^ 31)
    (h : Rel e.batchMax holds bufLen s S) {op : Op} {o : Out} {S' : Spec.NvEvents.State}
    (hs : Spec.NvEvents.step e S op = some (o, S')) :
    ∃ s', step ⟨⟨e.batchMax⟩, impl, e.auto⟩ bufLen s op = some (o, s') ∧
      Rel e.batchMax holds bufLen s' S' := by
  obtain ⟨n1, n2⟩ := nvEnabled_eq h
  have hen : (notice S).enabled = S.enabled := rfl
  have hmv : (notice S).moved = S.moved := rfl
  cases op with
  | begin =>
    simp only [Spec.NvEvents.step, Option.map_eq_some_iff, Prod.mk.injEq] at hs
    obtain ⟨⟨o', q'⟩, r1, rfl, rfl⟩ := hs
    obtain ⟨s', e1, e2⟩ := Props.step_refines h.ram r1
    simp only [EventStorage.step, Option.map_eq_some_iff, Prod.mk.injEq] at e1
    obtain ⟨⟨n, s2⟩, e1, rfl, rfl⟩ := e1
    simp only [step, e1, Option.map_some]
    exact ⟨_, rfl, source_ram h e2 (ram_cap r1)⟩
  | append d =>
    simp only [Spec.NvEvents.step, Option.map_eq_some_iff, Prod.mk.injEq] at hs
    obtain ⟨⟨o', q'⟩, r1, rfl, rfl⟩ := hs
    obtain ⟨s', e1, e2⟩ := Props.step_refines h.ram r1
    simp only [EventStorage.step, Option.map_eq_some_iff, Prod.mk.injEq] at e1
    obtain ⟨⟨n, s2⟩, e1, rfl, rfl⟩ := e1
    simp only [step, e1, Option.map_some]
    exact ⟨_, rfl, source_ram h e2 (ram_cap r1)⟩
  | finish rb =>
    simp only [Spec.NvEvents.step, Option.map_eq_some_iff, Prod.mk.injEq] at hs
    obtain ⟨⟨o', q'⟩, r1, rfl, rfl⟩ := hs
    obtain ⟨s', e1, e2⟩ := Props.step_refines h.ram r1
    simp only [EventStorage.step, Option.map_eq_some_iff, Prod.mk.injEq] at e1
    obtain ⟨s2, e1, rfl, rfl⟩ := e1
    have hR := source_ram h e2 (ram_cap r1)
    have hp : s.ram.ws.writeInProgress = S.ram.pending.isSome := by
      rw [h.ram.ws]; cases S.ram.pending <;> rfl
    simp only [step, finish, e1, hp]
    cases S.ram.pending.isSome with
    | false => exact ⟨_, rfl, hR⟩
    | true =>
      cases rb with
      | true => exact ⟨_, rfl, hR⟩
      | false =>
        obtain ⟨s3, p1, p2⟩ := requestPersist_eq hw hR
        simp only [Bool.not_true, Bool.false_eq_true, if_false, Bool.not_false, if_true, p1,
          Option.map_some, Bool.and_self]
        exact ⟨_, rfl, p2⟩
  | has =>
    simp only [Spec.NvEvents.step] at hs
    simp only [step, has]
    rcases hn : nvEnabled s with ⟨en, s1⟩
    rw [hn] at n1 n2
    simp only at n1 n2 ⊢
    rw [hen, hmv, ← n1] at hs
    cases en with
    | true =>
      have hh := hw.has _ _ _ n2.nv
      rw [hmv] at hh
      cases hm : S.moved with
      | nil =>
        rw [hm] at hh
        simp only [hm, if_true, Option.some.injEq, Prod.mk.injEq] at hs
        obtain ⟨rfl, rfl⟩ := hs
        simp only [hh, List.map_nil, List.head?_nil, Option.map_none, Option.map_some]
        have hnv := n2.nv
        rw [hmv, hm] at hnv
        exact ⟨_, rfl, n2.ram, n2.cap, n2.enabled.trans n1.symm, n2.known, hnv, by simp⟩
      | cons m ms =>
        rw [hm] at hh
        simp only [hm, if_true, Option.some.injEq, Prod.mk.injEq] at hs
        obtain ⟨rfl, rfl⟩ := hs
        simp only [hh, List.map_cons, List.head?_cons, Option.map_some]
        have hnv := n2.nv
        rw [hmv, hm] at hnv
        exact ⟨_, rfl, n2.ram, n2.cap, n2.enabled.trans n1.symm, n2.known, hnv, by simp⟩
    | false =>
      simp only [Bool.false_eq_true, if_false, Option.some.injEq, Prod.mk.injEq] at hs
      obtain ⟨rfl, rfl⟩ := hs
      obtain ⟨ram, d1, d2⟩ := hasData_eq e n2.ram
      simp only [d1, Option.map_some]
      refine ⟨_, rfl, d2, n2.cap, n2.enabled.trans n1.symm, n2.known, n2.nv, ?_⟩
      simp only
      split <;> simp
  | read off len =>
    simp only [Spec.NvEvents.step] at hs
    split at hs
    · simp at hs
    · rename_i hsrc
      have hsrc : S.source = some S.enabled := by
        rcases Classical.em (S.source = some S.enabled) with h | h
        · exact h
        · exact absurd h hsrc
      simp only [step, readEvent]
      rcases hn : nvEnabled s with ⟨en, s1⟩
      rw [hn] at n1 n2
      simp only at n1 n2 ⊢
      rw [hen, hmv, ← n1] at hs
      cases en with
      | true =>
        obtain ⟨m, ms, hm⟩ := List.exists_cons_of_ne_nil (h.source (by rw [hsrc, ← n1]))
        have hnv := n2.nv
        rw [hmv, hm, List.map_cons] at hnv
        simp only [hm, if_true, List.headD_cons, Option.some.injEq, Prod.mk.injEq] at hs
        obtain ⟨rfl, rfl⟩ := hs
        simp only [hw.read _ _ _ _ hnv off len, Option.map_some]
        exact ⟨_, rfl, n2⟩
      | false =>
        simp only [Bool.false_eq_true, if_false, Option.some.injEq, Prod.mk.injEq] at hs
        obtain ⟨rfl, rfl⟩ := hs
        simp only [read_eq n2.ram, Option.map_some]
        exact ⟨_, rfl, n2⟩
  | mark =>
    simp only [Spec.NvEvents.step] at hs
    split at hs
    · simp at hs
    · simp only [step, mark]
      rcases hn : nvEnabled s with ⟨en, s1⟩
      rw [hn] at n1 n2
      simp only at n1 n2 ⊢
      rw [hen, ← n1] at hs
      cases en with
      | true =>
        simp only [if_true, Option.some.injEq, Prod.mk.injEq] at hs
        obtain ⟨rfl, rfl⟩ := hs
        obtain ⟨ram, d1, d2⟩ := hasData_eq e n2.ram
        have hnv := hw.consume _ _ _ n2.nv
        rw [← List.map_tail] at hnv
        have hR : Rel e.batchMax holds bufLen { s1 with ram := ram, nv := impl.consume s1.nv }
            { notice S with
              enabled := true
              source := none
              ram := fixBatch e (notice S).ram
              moved := (notice S).moved.tail } :=
          ⟨d2, n2.cap, n2.enabled.trans n1.symm, n2.known, hnv, by simp⟩
        simp only [nvMarkRead, d1]
        by_cases hz : (fixBatch e (notice S).ram).reading = 0
        · simp only [hz, ne_eq, not_true_eq_false, decide_false, if_false, Option.map_some]
          exact ⟨_, rfl, hR⟩
        · obtain ⟨s3, p1, p2⟩ := requestPersist_eq hw hR
          simp only [hz, ne_eq, not_false_eq_true, decide_true, if_true, p1, Option.map_some]
          exact ⟨_, rfl, p2⟩
      | false =>
        simp only [Bool.false_eq_true, if_false, Option.some.injEq, Prod.mk.injEq] at hs
        obtain ⟨rfl, rfl⟩ := hs
        obtain ⟨ram, m1, m2⟩ := markRead_eq n2.ram
        simp only [m1, Option.map_some]
        exact ⟨_, rfl, m2, n2.cap, n2.enabled.trans n1.symm, n2.known, n2.nv, by simp⟩
  | persist =>
    simp only [Spec.NvEvents.step, Option.some.injEq, Prod.mk.injEq] at hs
    obtain ⟨rfl, rfl⟩ := hs
    obtain ⟨s', p1, p2⟩ := persist_eq hw h
    simp only [step, p1, Option.map_some]
    exact ⟨_, rfl, p2⟩
  | enable b =>
    simp only [Spec.NvEvents.step, Option.some.injEq, Prod.mk.injEq] at hs
    obtain ⟨rfl, rfl⟩ := hs
    refine ⟨_, rfl, h.ram, h.cap, rfl, h.known, h.nv, ?_⟩
    simp only
    split
    · exact h.source
    · simp
  | reset =>
    simp only [Spec.NvEvents.step, Option.some.injEq, Prod.mk.injEq] at hs
    obtain ⟨rfl, rfl⟩ := hs
    obtain ⟨ram, b1, b2⟩ := Props.boot_holds (b := e.batchMax) h0 h1
    simp only [step, b1, Option.map_some]
    exact ⟨_, rfl, by rw [h.cap]; exact b2, h.cap, h.enabled, rfl, h.nv, by simp⟩

theorem run_refines (hw : Works impl e.accept holds) (h0 : 0 < bufLen) (h1 : bufLen < 2 ^ 31)
    (ops : List Op) : ∀ {s : Sys ν} {S : Spec.NvEvents.State}, Rel e.batchMax holds bufLen s S →
    ∀ {outs : List Out} {S' : Spec.NvEvents.State}, Spec.NvEvents.run e S ops = some (outs, S') →
    ∃ s', run ⟨⟨e.batchMax⟩, impl, e.auto⟩ bufLen s ops = some (outs, s') ∧
      Rel e.batchMax holds bufLen s' S' := by
  induction ops with
  | nil =>
    intro s S h outs S' hs
    simp only [Spec.NvEvents.run, Option.some.injEq, Prod.mk.injEq] at hs
    obtain ⟨rfl, rfl⟩ := hs
    exact ⟨s, rfl, h⟩
  | cons op ops ih =>
    intro s S h outs S' hs
    simp only [Spec.NvEvents.run, Option.bind_eq_some_iff, Option.map_eq_some_iff,
      Prod.mk.injEq] at hs
    obtain ⟨⟨o, S1⟩, r1, ⟨os, S2⟩, r2, rfl, rfl⟩ := hs
    obtain ⟨s1, e1, e2⟩ := step_refines hw h0 h1 h r1
    obtain ⟨s2, e3, e4⟩ := ih e2 r2
    refine ⟨s2, ?_, e4⟩
    simp only [run, e1, Option.bind_some, e3, Option.map_some]

end Mflt.NvEvents
