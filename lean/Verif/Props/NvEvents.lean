import Verif.Lemmas.NvEvents

/-! # C69: events moved to a storage that survives resets -/

namespace Mflt.Props

open NvEvents (Op Sys Impl Env Rel)
open Spec.NvEvents
open Spec.EventQueue (Out messageOf message batchCount)

section Accounts

variable {e : Spec.NvEvents.Env}

theorem present_fixBatch (S : State) : present { S with ram := fixBatch e S.ram } = present S := rfl

/-- Moving events changes neither which events there are nor their order. -/
theorem moveAll_spec (n : Nat) (S : State) :
    present (moveAll e n S).2 = present S ∧ (moveAll e n S).2.enabled = S.enabled ∧
    (moveAll e n S).2.source = S.source ∧ (moveAll e n S).2.known = S.known ∧
    ∃ new, (moveAll e n S).2.moved = S.moved ++ new ∧ new.length = (moveAll e n S).1 := by
  induction n generalizing S with
  | zero => exact ⟨rfl, rfl, rfl, rfl, [], by simp [moveAll], rfl⟩
  | succ n ih =>
    unfold moveAll
    simp only
    split
    · exact ⟨rfl, rfl, rfl, rfl, [], by simp, rfl⟩
    · split
      · obtain ⟨i1, i2, i3, i4, new, i5, i6⟩ := ih { S with
          ram := { fixBatch e S.ram with
            committed := (fixBatch e S.ram).committed.drop (fixBatch e S.ram).reading, reading := 0 }
          moved := S.moved ++ [(fixBatch e S.ram).committed.take (fixBatch e S.ram).reading]
          tries := S.tries + 1 }
        refine ⟨?_, i2, i3, i4, (fixBatch e S.ram).committed.take (fixBatch e S.ram).reading :: new,
          ?_, ?_⟩
        · rw [i1]
          simp only [present, List.flatten_append, List.flatten_cons, List.flatten_nil,
            List.append_nil, List.append_assoc, List.take_append_drop]
          rfl
        · rw [i5]; simp
        · simp [i6]
      · exact ⟨rfl, rfl, rfl, rfl, [], by simp, rfl⟩

theorem present_notice (S : State) : present (notice S) = present S := by
  unfold notice present
  simp only
  split <;> rfl

theorem move_spec (S : State) :
    present (move e S).2 = present S ∧ (move e S).2.enabled = S.enabled ∧
    (move e S).2.source = S.source ∧ (move e S).2.known = S.enabled ∧
    ∃ new, (move e S).2.moved = S.moved ++ new ∧ new.length = (move e S).1 := by
  unfold move
  simp only
  split
  · obtain ⟨i1, i2, i3, i4, i5⟩ := moveAll_spec (e := e) (notice S).ram.committed.length (notice S)
    exact ⟨i1.trans (present_notice S), i2, i3, i4, i5⟩
  · exact ⟨present_notice S, rfl, rfl, rfl, [], by simp [notice], rfl⟩

theorem present_maybeMove (S : State) : present (maybeMove e S) = present S := by
  unfold maybeMove; split
  · exact move_spec S |>.1
  · rfl

theorem enabled_maybeMove (S : State) : (maybeMove e S).enabled = S.enabled := by
  unfold maybeMove; split
  · exact move_spec S |>.2.1
  · rfl

/-- One call: what it does to the events that are there. -/
theorem step_account {S S' : State} {op : Op} {o : Out} (h : step e S op = some (o, S')) :
    (deliveredBy S op ++ lostBy S op ++ present S').Perm (present S ++ finishedBy S op) ∧
    (S.enabled = true → op ≠ .enable false → S'.enabled = true ∧
      (deliveredBy S op ++ present S').Sublist (present S ++ finishedBy S op) ∧
      (op ≠ .reset → deliveredBy S op ++ present S' = present S ++ finishedBy S op)) := by
  have key : ∀ {d l p f : List Bytes}, l = [] → d ++ p = f → S'.enabled = S.enabled →
      (d ++ l ++ p).Perm f ∧ (S.enabled = true → op ≠ .enable false → S'.enabled = true ∧
        (d ++ p).Sublist f ∧ (op ≠ .reset → d ++ p = f)) := by
    intro d l p f hl hd he
    subst hl hd
    exact ⟨by simp, fun ht _ => ⟨he.trans ht, List.Sublist.refl _, fun _ => rfl⟩⟩
  cases op with
  | begin =>
    simp only [step, Option.map_eq_some_iff, Prod.mk.injEq] at h
    obtain ⟨⟨o', q'⟩, r1, rfl, rfl⟩ := h
    refine key rfl ?_ rfl
    simp only [Spec.EventQueue.step] at r1
    split at r1 <;> simp only [Option.some.injEq, Prod.mk.injEq] at r1 <;> obtain ⟨-, rfl⟩ := r1 <;>
      simp [present, deliveredBy, finishedBy]
  | append d =>
    simp only [step, Option.map_eq_some_iff, Prod.mk.injEq] at h
    obtain ⟨⟨o', q'⟩, r1, rfl, rfl⟩ := h
    refine key rfl ?_ rfl
    simp only [Spec.EventQueue.step] at r1
    split at r1
    · simp at r1
    · split at r1 <;> simp only [Option.some.injEq, Prod.mk.injEq] at r1 <;> obtain ⟨-, rfl⟩ := r1 <;>
        simp [present, deliveredBy, finishedBy]
  | finish rb =>
    simp only [step, Option.map_eq_some_iff, Prod.mk.injEq] at h
    obtain ⟨⟨o', q'⟩, r1, rfl, rfl⟩ := h
    refine key rfl ?_ ?_
    · have hp : present { S with ram := q' } = present S ++ finishedBy S (.finish rb) := by
        simp only [Spec.EventQueue.step] at r1
        cases hp : S.ram.pending with
        | none =>
          simp only [hp, Option.some.injEq, Prod.mk.injEq] at r1
          obtain ⟨-, rfl⟩ := r1
          cases rb <;> simp [present, finishedBy, hp]
        | some p =>
          simp only [hp] at r1
          cases rb with
          | true =>
            simp only [if_true, Option.some.injEq, Prod.mk.injEq] at r1
            obtain ⟨-, rfl⟩ := r1
            simp [present, finishedBy]
          | false =>
            simp only [Bool.false_eq_true, if_false] at r1
            split at r1
            · simp only [Option.some.injEq, Prod.mk.injEq] at r1
              obtain ⟨-, rfl⟩ := r1
              simp [present, finishedBy, hp]
            · simp at r1
      simp only [deliveredBy, List.nil_append]
      split
      · rw [present_maybeMove]; exact hp
      · exact hp
    · split
      · rw [enabled_maybeMove]
      · rfl
  | has =>
    simp only [step] at h
    split at h
    · split at h <;> simp only [Option.some.injEq, Prod.mk.injEq] at h <;> obtain ⟨-, rfl⟩ := h <;>
        exact key rfl (by
          simp only [deliveredBy, finishedBy, List.append_nil, List.nil_append]
          exact present_notice S) rfl
    · simp only [Option.some.injEq, Prod.mk.injEq] at h
      obtain ⟨-, rfl⟩ := h
      exact key rfl (by
        simp only [deliveredBy, finishedBy, List.append_nil, List.nil_append]
        exact present_notice S) rfl
  | read off len =>
    simp only [step] at h
    split at h
    · simp at h
    · simp only [Option.some.injEq, Prod.mk.injEq] at h
      obtain ⟨-, rfl⟩ := h
      exact key rfl (by
        simp only [deliveredBy, finishedBy, List.append_nil, List.nil_append]
        exact present_notice S) rfl
  | mark =>
    simp only [step] at h
    split at h
    · simp at h
    · split at h
      · rename_i hen
        have hen : S.enabled = true := hen
        simp only [Option.some.injEq, Prod.mk.injEq] at h
        obtain ⟨-, rfl⟩ := h
        have hp : current (notice S) ++ present { notice S with
              source := none, ram := fixBatch e (notice S).ram, moved := (notice S).moved.tail } =
            present S := by
          rw [← present_notice S]
          have : (notice S).enabled = true := hen
          simp only [current, this, if_true, present, fixBatch]
          cases (notice S).moved <;> simp
        refine key rfl ?_ ?_
        · simp only [deliveredBy, finishedBy, List.append_nil]
          split
          · rw [present_maybeMove]; exact hp
          · exact hp
        · split
          · rw [enabled_maybeMove]; rfl
          · rfl
      · rename_i hen
        have hen : ¬ S.enabled = true := hen
        have hen : S.enabled = false := by simpa using hen
        simp only [Option.some.injEq, Prod.mk.injEq] at h
        obtain ⟨-, rfl⟩ := h
        refine ⟨?_, fun ht => by simp [hen] at ht⟩
        have hcur : (notice S).enabled = false := hen
        simp only [deliveredBy, lostBy, finishedBy, current, hcur, Bool.false_eq_true, if_false,
          List.append_nil]
        rw [← present_notice S]
        simp only [present]
        refine (List.perm_append_comm_assoc _ _ _).trans ?_
        rw [List.take_append_drop]
  | persist =>
    simp only [step, Option.some.injEq, Prod.mk.injEq] at h
    obtain ⟨-, rfl⟩ := h
    obtain ⟨m1, m2, -⟩ := move_spec (e := e) S
    exact key rfl (by simp only [deliveredBy, finishedBy, List.append_nil, List.nil_append]; exact m1)
      m2
  | enable b =>
    simp only [step, Option.some.injEq, Prod.mk.injEq] at h
    obtain ⟨-, rfl⟩ := h
    refine ⟨by simp [deliveredBy, lostBy, finishedBy, present], fun _ hb => ⟨?_, ?_, ?_⟩⟩
    · cases b <;> simp at hb ⊢
    · simp [deliveredBy, finishedBy, present]
    · simp [deliveredBy, finishedBy, present]
  | reset =>
    simp only [step, Option.some.injEq, Prod.mk.injEq] at h
    obtain ⟨-, rfl⟩ := h
    refine ⟨?_, fun ht _ => ⟨ht, ?_, by simp⟩⟩
    · simp only [deliveredBy, lostBy, finishedBy, present, Spec.EventQueue.empty, List.append_nil,
        List.nil_append]
      exact List.perm_append_comm
    · simp [deliveredBy, finishedBy, present, Spec.EventQueue.empty]

/-- Nothing is lost except by a reset, and nothing is delivered twice. -/
theorem run_perm (ops : List Op) : ∀ {S S' : State} {outs : List Out},
    run e S ops = some (outs, S') →
    (collect deliveredBy e S ops ++ collect lostBy e S ops ++ present S').Perm
      (present S ++ collect finishedBy e S ops) := by
  induction ops with
  | nil =>
    intro S S' outs h
    simp only [run, Option.some.injEq, Prod.mk.injEq] at h
    obtain ⟨-, rfl⟩ := h
    simp [collect]
  | cons op ops ih =>
    intro S S' outs h
    simp only [run, Option.bind_eq_some_iff, Option.map_eq_some_iff, Prod.mk.injEq] at h
    obtain ⟨⟨o, S1⟩, r1, ⟨os, S2⟩, r2, -, rfl⟩ := h
    have a := (step_account r1).1
    have b := ih r2
    simp only [collect, r1]
    generalize deliveredBy S op = d1 at a ⊢
    generalize lostBy S op = l1 at a ⊢
    generalize finishedBy S op = f1 at a ⊢
    generalize collect deliveredBy e S1 ops = d2 at b ⊢
    generalize collect lostBy e S1 ops = l2 at b ⊢
    generalize collect finishedBy e S1 ops = f2 at b ⊢
    rw [← List.append_assoc (present S)]
    refine List.Perm.trans ?_ (a.append_right f2)
    rw [List.append_assoc (d1 ++ l1)]
    refine List.Perm.trans ?_ (b.append_left (d1 ++ l1))
    rw [List.perm_iff_count]
    intro x
    simp only [List.count_append]
    omega

/-- With the storage in use all along the order is kept. -/
theorem run_order (ops : List Op) (hen : ∀ op ∈ ops, op ≠ .enable false) :
    ∀ {S S' : State} {outs : List Out}, S.enabled = true → run e S ops = some (outs, S') →
    (collect deliveredBy e S ops ++ present S').Sublist
      (present S ++ collect finishedBy e S ops) ∧
    ((∀ op ∈ ops, op ≠ .reset) → collect deliveredBy e S ops ++ present S' =
      present S ++ collect finishedBy e S ops) := by
  induction ops with
  | nil =>
    intro S S' outs _ h
    simp only [run, Option.some.injEq, Prod.mk.injEq] at h
    obtain ⟨-, rfl⟩ := h
    simp [collect]
  | cons op ops ih =>
    intro S S' outs hS h
    simp only [run, Option.bind_eq_some_iff, Option.map_eq_some_iff, Prod.mk.injEq] at h
    obtain ⟨⟨o, S1⟩, r1, ⟨os, S2⟩, r2, -, rfl⟩ := h
    obtain ⟨a1, a2, a3⟩ := (step_account r1).2 hS (hen op (by simp))
    obtain ⟨b1, b2⟩ := ih (fun op' h' => hen op' (by simp [h'])) a1 r2
    simp only [collect, r1]
    constructor
    · rw [List.append_assoc, ← List.append_assoc (present S)]
      refine List.Sublist.trans (b1.append_left _) ?_
      rw [← List.append_assoc]
      exact a2.append_right _
    · intro hr
      rw [List.append_assoc, b2 (fun op' h' => hr op' (by simp [h'])), ← List.append_assoc,
        a3 (hr op (by simp)), List.append_assoc]

end Accounts

/-- **C69.** Whatever a program does with the event storage, with a storage for moved events that works
but may refuse to take a message at any time, and across resets: the calls answer as the two queues do;
and each event that was there or was finished is, once, among the events delivered, the events
lost from RAM in a reset, and those still there. Missing: a storage that is enabled while an event is being read
(`C69_false_enabled_while_reading`). -/
theorem C69_exactly_once_partial {ν : Type} {e : Spec.NvEvents.Env} {impl : Impl ν}
    {holds : ν → List Bytes → Nat → Prop} (hw : Works impl e.accept holds) {bufLen : Nat}
    (h0 : 0 < bufLen) (h1 : bufLen < 2 ^ 31) {nv : ν} {moved : List (List Bytes)} {tries : Nat}
    (hnv : holds nv (moved.map messageOf) tries) (enabled : Bool) {ops : List Op} {outs : List Out}
    {S' : State} (hs : Spec.NvEvents.run e (start bufLen moved tries enabled) ops = some (outs, S')) :
    ∃ ram s', EventStorage.boot bufLen = some ram ∧
      NvEvents.run ⟨⟨e.batchMax⟩, impl, e.auto⟩ bufLen ⟨ram, false, enabled, nv⟩ ops =
        some (outs, s') ∧
      holds s'.nv (S'.moved.map messageOf) S'.tries ∧
      (collect deliveredBy e (start bufLen moved tries enabled) ops ++
          collect lostBy e (start bufLen moved tries enabled) ops ++
          (S'.moved.flatten ++ S'.ram.committed)).Perm
        (moved.flatten ++ collect finishedBy e (start bufLen moved tries enabled) ops) := by
  obtain ⟨ram, b1, b2⟩ := boot_holds (b := e.batchMax) h0 h1
  have hR : Rel e.batchMax holds bufLen ⟨ram, false, enabled, nv⟩ (start bufLen moved tries enabled) :=
    ⟨b2, rfl, rfl, rfl, hnv, by simp [start]⟩
  obtain ⟨s', r1, r2⟩ := NvEvents.run_refines hw h0 h1 ops hR hs
  refine ⟨ram, s', b1, r1, r2.nv, ?_⟩
  have := run_perm ops hs
  simpa [present, start, Spec.EventQueue.empty] using this

/-- **C69.** While the storage stays in use events are delivered in the order in which they were finished;
a reset only leaves some out. -/
theorem C69_in_order {e : Spec.NvEvents.Env} {bufLen : Nat} {moved : List (List Bytes)} {tries : Nat}
    {ops : List Op} (hen : ∀ op ∈ ops, op ≠ .enable false) {outs : List Out} {S' : State}
    (hs : Spec.NvEvents.run e (start bufLen moved tries true) ops = some (outs, S')) :
    (collect deliveredBy e (start bufLen moved tries true) ops ++
        (S'.moved.flatten ++ S'.ram.committed)).Sublist
      (moved.flatten ++ collect finishedBy e (start bufLen moved tries true) ops) ∧
    ((∀ op ∈ ops, op ≠ .reset) →
      collect deliveredBy e (start bufLen moved tries true) ops ++
        (S'.moved.flatten ++ S'.ram.committed) =
      moved.flatten ++ collect finishedBy e (start bufLen moved tries true) ops) := by
  have := run_order ops hen (S := start bufLen moved tries true) rfl hs
  simpa [present, start, Spec.EventQueue.empty] using this

/-- **C69.** A call that moves events tells how many messages it moved; they are appended to those moved
before. The events and their order stay what they were. If every message is taken none stay in RAM. -/
theorem C69_persist {e : Spec.NvEvents.Env} {S S' : State} {n : Nat} (hen : S.enabled = true)
    (hs : step e S .persist = some (.size n, S')) :
    (∃ new, S'.moved = S.moved ++ new ∧ new.length = n) ∧
    S'.moved.flatten ++ S'.ram.committed = S.moved.flatten ++ S.ram.committed ∧
    ((∀ k, e.accept k = true) → S'.ram.committed = []) := by
  simp only [step, Option.some.injEq, Prod.mk.injEq, Out.size.injEq] at hs
  obtain ⟨rfl, rfl⟩ := hs
  obtain ⟨m1, -, -, -, m5⟩ := move_spec (e := e) S
  refine ⟨m5, m1, fun ha => ?_⟩
  have key : ∀ (n : Nat) (S : State), S.ram.committed.length ≤ n →
      (moveAll e n S).2.ram.committed = [] := by
    intro n
    induction n with
    | zero =>
      intro S hl
      simp only [moveAll, fixBatch]
      exact List.eq_nil_of_length_eq_zero (by omega)
    | succ n ih =>
      intro S hl
      unfold moveAll
      simp only [ha, if_true]
      split
      · rename_i hz
        simp only [fixBatch] at hz ⊢
        split at hz
        · cases hc : S.ram.committed with
          | nil => rfl
          | cons x xs =>
            rw [hc] at hz
            cases hb : e.batchMax <;> rw [hb] at hz <;> simp [batchCount] at hz
        · exact absurd hz (by assumption)
      · rename_i hz
        apply ih
        simp only [List.length_drop]
        have : (fixBatch e S.ram).committed.length = S.ram.committed.length := rfl
        omega
  unfold move
  have hn : (notice S).enabled = true := hen
  simp only [hn, if_true]
  exact key _ _ (Nat.le_refl _)

/-- A message is being read: it stays what it is. -/
structure Reading (S : State) : Prop where
  source : S.source = some S.enabled
  known : S.known = S.enabled
  moved : S.enabled = true → S.moved ≠ []
  ram : S.enabled = false → S.ram.reading ≠ 0 ∧ S.ram.reading ≤ S.ram.committed.length

theorem notice_of_known {S : State} (h : S.known = S.enabled) : notice S = S := by
  obtain ⟨ram, moved, tries, enabled, known, source⟩ := S
  simp only at h
  subst h
  cases known <;> rfl

theorem reading_move {e : Spec.NvEvents.Env} {S : State} (h : Reading S) :
    Reading (move e S).2 ∧ current (move e S).2 = current S := by
  obtain ⟨-, m2, m3, m4, new, m5, -⟩ := move_spec (e := e) S
  cases he : S.enabled with
  | true =>
    obtain ⟨x, xs, hx⟩ := List.exists_cons_of_ne_nil (h.moved he)
    refine ⟨⟨by rw [m3, m2, h.source], by rw [m4, m2], fun _ => by rw [m5, hx]; simp,
      fun hf => by rw [m2, he] at hf; simp at hf⟩, ?_⟩
    simp only [current, m2, he, if_true, m5, hx, List.cons_append, List.headD_cons]
  | false =>
    have : (move e S).2 = S := by
      unfold move
      rw [notice_of_known h.known]
      simp [he]
    rw [this]
    exact ⟨h, rfl⟩

theorem reading_maybeMove {e : Spec.NvEvents.Env} {S : State} (h : Reading S) :
    Reading (maybeMove e S) ∧ current (maybeMove e S) = current S := by
  unfold maybeMove
  split
  · exact reading_move h
  · exact ⟨h, rfl⟩

/-- Calls that end the reading of a message. -/
def ends : Op → Bool
  | .mark => true
  | .enable _ => true
  | .reset => true
  | _ => false

theorem step_reading {e : Spec.NvEvents.Env} {S S' : State} {op : Op} {o : Out} (h : Reading S)
    (ho : ends op = false) (hs : step e S op = some (o, S')) :
    Reading S' ∧ current S' = current S ∧
    (∀ off len, op = .read off len → o = .data
      (if off + len ≤ (messageOf (current S)).length then
        some (((messageOf (current S)).drop off).take len) else none)) := by
  have hn := notice_of_known h.known
  have keep : ∀ q : Spec.EventQueue.State, q.reading = S.ram.reading →
      (∃ more, q.committed = S.ram.committed ++ more) →
      Reading { S with ram := q } ∧ current { S with ram := q } = current S := by
    rintro q h1 ⟨more, h2⟩
    refine ⟨⟨h.source, h.known, h.moved, fun hf => ?_⟩, ?_⟩
    · obtain ⟨r1, r2⟩ := h.ram hf
      simp only [h1, h2, List.length_append]
      exact ⟨r1, by omega⟩
    · simp only [current]
      cases he : S.enabled with
      | true => rfl
      | false =>
        simp only [Bool.false_eq_true, if_false, h1, h2]
        exact List.take_append_of_le_length (h.ram he).2
  cases op with
  | begin =>
    simp only [step, Option.map_eq_some_iff, Prod.mk.injEq] at hs
    obtain ⟨⟨o', q'⟩, r1, rfl, rfl⟩ := hs
    have hq : q'.reading = S.ram.reading ∧ q'.committed = S.ram.committed := by
      simp only [Spec.EventQueue.step] at r1
      split at r1 <;> simp only [Option.some.injEq, Prod.mk.injEq] at r1 <;> obtain ⟨-, rfl⟩ := r1 <;>
        exact ⟨rfl, rfl⟩
    obtain ⟨k1, k2⟩ := keep q' hq.1 ⟨[], by simp [hq.2]⟩
    exact ⟨k1, k2, by simp⟩
  | append d =>
    simp only [step, Option.map_eq_some_iff, Prod.mk.injEq] at hs
    obtain ⟨⟨o', q'⟩, r1, rfl, rfl⟩ := hs
    have hq : q'.reading = S.ram.reading ∧ q'.committed = S.ram.committed := by
      simp only [Spec.EventQueue.step] at r1
      split at r1
      · simp at r1
      · split at r1 <;> simp only [Option.some.injEq, Prod.mk.injEq] at r1 <;>
          obtain ⟨-, rfl⟩ := r1 <;> exact ⟨rfl, rfl⟩
    obtain ⟨k1, k2⟩ := keep q' hq.1 ⟨[], by simp [hq.2]⟩
    exact ⟨k1, k2, by simp⟩
  | finish rb =>
    simp only [step, Option.map_eq_some_iff, Prod.mk.injEq] at hs
    obtain ⟨⟨o', q'⟩, r1, rfl, rfl⟩ := hs
    have hq : q'.reading = S.ram.reading ∧ ∃ more, q'.committed = S.ram.committed ++ more := by
      simp only [Spec.EventQueue.step] at r1
      repeat' split at r1
      all_goals first
        | (simp at r1; done)
        | (simp only [Option.some.injEq, Prod.mk.injEq] at r1
           obtain ⟨-, rfl⟩ := r1
           first
             | exact ⟨rfl, [], (List.append_nil _).symm⟩
             | exact ⟨rfl, _, rfl⟩)
    obtain ⟨k1, k2⟩ := keep q' hq.1 hq.2
    split
    · obtain ⟨m1, m2⟩ := reading_maybeMove (e := e) k1
      exact ⟨m1, m2.trans k2, by simp⟩
    · exact ⟨k1, k2, by simp⟩
  | has =>
    simp only [step, hn] at hs
    cases he : S.enabled with
    | true =>
      obtain ⟨x, xs, hx⟩ := List.exists_cons_of_ne_nil (h.moved he)
      have hsrc := h.source
      rw [he] at hsrc
      simp only [he, if_true, hx, Option.some.injEq, Prod.mk.injEq] at hs
      obtain ⟨-, rfl⟩ := hs
      refine ⟨⟨rfl, by simp only; rw [h.known, he], by simp, by simp⟩, ?_, by simp⟩
      simp [current, he, hx]
    | false =>
      obtain ⟨r1, r2⟩ := h.ram he
      have hf : fixBatch e S.ram = S.ram := by
        unfold fixBatch; rw [if_neg r1]
      simp only [he, Bool.false_eq_true, if_false, hf, Option.some.injEq, Prod.mk.injEq] at hs
      obtain ⟨-, rfl⟩ := hs
      refine ⟨⟨by simp only; rw [if_pos r1], by simp only; rw [h.known, he], by simp,
        fun _ => ⟨r1, r2⟩⟩, ?_, by simp⟩
      simp [current, he]
  | read off len =>
    simp only [step, hn] at hs
    rw [if_neg (by simp [h.source])] at hs
    simp only [Option.some.injEq, Prod.mk.injEq] at hs
    obtain ⟨rfl, rfl⟩ := hs
    refine ⟨h, rfl, ?_⟩
    intro off' len' heq
    simp only [Op.read.injEq] at heq
    obtain ⟨rfl, rfl⟩ := heq
    simp only [current, message]
    by_cases he : S.enabled = true <;> simp [he]
  | persist =>
    simp only [step, Option.some.injEq, Prod.mk.injEq] at hs
    obtain ⟨-, rfl⟩ := hs
    obtain ⟨m1, m2⟩ := reading_move (e := e) h
    exact ⟨m1, m2, by simp⟩
  | mark => simp [ends] at ho
  | enable b => simp [ends] at ho
  | reset => simp [ends] at ho

theorem run_reading {e : Spec.NvEvents.Env} (ops : List Op) (ho : ∀ op ∈ ops, ends op = false) :
    ∀ {S S' : State} {outs : List Out}, Reading S → run e S ops = some (outs, S') →
    Reading S' ∧ current S' = current S ∧
    ∀ off len o, (Op.read off len, o) ∈ ops.zip outs → o = .data
      (if off + len ≤ (messageOf (current S)).length then
        some (((messageOf (current S)).drop off).take len) else none) := by
  induction ops with
  | nil =>
    intro S S' outs h hs
    simp only [run, Option.some.injEq, Prod.mk.injEq] at hs
    obtain ⟨-, rfl⟩ := hs
    exact ⟨h, rfl, by simp⟩
  | cons op ops ih =>
    intro S S' outs h hs
    simp only [run, Option.bind_eq_some_iff, Option.map_eq_some_iff, Prod.mk.injEq] at hs
    obtain ⟨⟨o, S1⟩, r1, ⟨os, S2⟩, r2, rfl, rfl⟩ := hs
    obtain ⟨a1, a2, a3⟩ := step_reading h (ho op (by simp)) r1
    obtain ⟨b1, b2, b3⟩ := ih (fun op' h' => ho op' (by simp [h'])) a1 r2
    refine ⟨b1, b2.trans a2, ?_⟩
    intro off len o' hm
    simp only [List.zip_cons_cons, List.mem_cons, Prod.mk.injEq] at hm
    rcases hm with ⟨hm1, rfl⟩ | hm
    · exact a3 off len hm1.symm
    · rw [← a2]; exact b3 off len o' hm

theorem moveAll_reading {e : Spec.NvEvents.Env} (n : Nat) : ∀ S : State,
    S.ram.reading ≤ S.ram.committed.length →
    (moveAll e n S).2.ram.reading ≤ (moveAll e n S).2.ram.committed.length := by
  have hfix : ∀ q : Spec.EventQueue.State, q.reading ≤ q.committed.length →
      (fixBatch e q).reading ≤ (fixBatch e q).committed.length := by
    intro q hq
    simp only [fixBatch]
    split
    · exact EventStorage.batchCount_le _ _
    · exact hq
  induction n with
  | zero => intro S h; exact hfix _ h
  | succ n ih =>
    intro S h
    unfold moveAll
    simp only
    split
    · exact hfix _ h
    · split
      · exact ih _ (Nat.zero_le _)
      · exact hfix _ h

theorem ram_reading {b : Option Nat} {q q' : Spec.EventQueue.State} {op : Spec.EventQueue.Op} {o : Out}
    (hq : q.reading ≤ q.committed.length) (h : Spec.EventQueue.step b q op = some (o, q')) :
    q'.reading ≤ q'.committed.length := by
  cases op <;> simp only [Spec.EventQueue.step] at h <;> (repeat' split at h) <;>
    simp only [Option.some.injEq, Prod.mk.injEq, reduceCtorEq] at h <;> obtain ⟨-, rfl⟩ := h <;>
    first
      | exact hq
      | exact EventStorage.batchCount_le _ _
      | exact Nat.zero_le _
      | (simp only [List.length_append]; omega)

/-- What is asked of the state in `C69_reads_what_is_delivered` is so after a boot and stays so. -/
theorem reading_le {e : Spec.NvEvents.Env} (ops : List Op) : ∀ {S S' : State} {outs : List Out},
    S.ram.reading ≤ S.ram.committed.length → run e S ops = some (outs, S') →
    S'.ram.reading ≤ S'.ram.committed.length := by
  have hnotice : ∀ S : State, S.ram.reading ≤ S.ram.committed.length →
      (notice S).ram.reading ≤ (notice S).ram.committed.length := by
    intro S h
    simp only [notice]
    split
    · exact Nat.zero_le _
    · exact h
  have hfix : ∀ q : Spec.EventQueue.State, q.reading ≤ q.committed.length →
      (fixBatch e q).reading ≤ (fixBatch e q).committed.length := by
    intro q hq
    simp only [fixBatch]
    split
    · exact EventStorage.batchCount_le _ _
    · exact hq
  have hmove : ∀ S : State, S.ram.reading ≤ S.ram.committed.length →
      (move e S).2.ram.reading ≤ (move e S).2.ram.committed.length := by
    intro S h
    unfold move
    simp only
    split
    · exact moveAll_reading _ _ (hnotice S h)
    · exact hnotice S h
  have hmaybe : ∀ S : State, S.ram.reading ≤ S.ram.committed.length →
      (maybeMove e S).ram.reading ≤ (maybeMove e S).ram.committed.length := by
    intro S h
    unfold maybeMove
    split
    · exact hmove S h
    · exact h
  induction ops with
  | nil =>
    intro S S' outs h hs
    simp only [run, Option.some.injEq, Prod.mk.injEq] at hs
    obtain ⟨-, rfl⟩ := hs
    exact h
  | cons op ops ih =>
    intro S S' outs h hs
    simp only [run, Option.bind_eq_some_iff, Option.map_eq_some_iff, Prod.mk.injEq] at hs
    obtain ⟨⟨o, S1⟩, r1, ⟨os, S2⟩, r2, -, rfl⟩ := hs
    refine ih ?_ r2
    cases op with
    | begin =>
      simp only [step, Option.map_eq_some_iff, Prod.mk.injEq] at r1
      obtain ⟨⟨o', q'⟩, r1, -, rfl⟩ := r1
      exact ram_reading h r1
    | append d =>
      simp only [step, Option.map_eq_some_iff, Prod.mk.injEq] at r1
      obtain ⟨⟨o', q'⟩, r1, -, rfl⟩ := r1
      exact ram_reading h r1
    | finish rb =>
      simp only [step, Option.map_eq_some_iff, Prod.mk.injEq] at r1
      obtain ⟨⟨o', q'⟩, r1, -, rfl⟩ := r1
      have := ram_reading h r1
      simp only
      split
      · exact hmaybe _ this
      · exact this
    | has =>
      simp only [step] at r1
      split at r1
      · split at r1 <;> simp only [Option.some.injEq, Prod.mk.injEq] at r1 <;>
          obtain ⟨-, rfl⟩ := r1 <;> exact hnotice S h
      · simp only [Option.some.injEq, Prod.mk.injEq] at r1
        obtain ⟨-, rfl⟩ := r1
        exact hfix _ (hnotice S h)
    | read off len =>
      simp only [step] at r1
      split at r1
      · simp at r1
      · simp only [Option.some.injEq, Prod.mk.injEq] at r1
        obtain ⟨-, rfl⟩ := r1
        exact hnotice S h
    | mark =>
      simp only [step] at r1
      split at r1
      · simp at r1
      · split at r1
        · simp only [Option.some.injEq, Prod.mk.injEq] at r1
          obtain ⟨-, rfl⟩ := r1
          have := hfix _ (hnotice S h)
          simp only
          split
          · exact hmaybe _ this
          · exact this
        · simp only [Option.some.injEq, Prod.mk.injEq] at r1
          obtain ⟨-, rfl⟩ := r1
          exact Nat.zero_le _
    | persist =>
      simp only [step, Option.some.injEq, Prod.mk.injEq] at r1
      obtain ⟨-, rfl⟩ := r1
      exact hmove S h
    | enable b =>
      simp only [step, Option.some.injEq, Prod.mk.injEq] at r1
      obtain ⟨-, rfl⟩ := r1
      exact h
    | reset =>
      simp only [step, Option.some.injEq, Prod.mk.injEq] at r1
      obtain ⟨-, rfl⟩ := r1
      exact Nat.zero_le _

/-- **C69.** The message a program is told about is the message it reads, and the message that is
removed when it says that it has read it, whatever is written or moved in between. -/
theorem C69_reads_what_is_delivered {e : Spec.NvEvents.Env} {S S' : State} {ops : List Op}
    {outs : List Out} {n : Nat} (hr : S.ram.reading ≤ S.ram.committed.length)
    (ho : ∀ op ∈ ops, op ≠ .mark ∧ op ≠ .reset ∧ ∀ b, op ≠ .enable b)
    (hs : run e S (.has :: ops) = some (.avail true n :: outs, S')) :
    (messageOf (deliveredBy S' .mark)).length = n ∧
    ∀ off len o, (Op.read off len, o) ∈ ops.zip outs → o = .data
      (if off + len ≤ n then some (((messageOf (deliveredBy S' .mark)).drop off).take len)
      else none) := by
  have ho' : ∀ op ∈ ops, ends op = false := by
    intro op hop
    obtain ⟨a, b, c⟩ := ho op hop
    cases op <;> simp_all [ends]
  simp only [run, Option.bind_eq_some_iff, Option.map_eq_some_iff, Prod.mk.injEq,
    List.cons.injEq] at hs
  obtain ⟨⟨o, S1⟩, r1, ⟨os, S2⟩, r2, ⟨h1, rfl⟩, rfl⟩ := hs
  simp only at h1
  subst h1
  have hR : Reading S1 ∧ (messageOf (current S1)).length = n := by
    simp only [step] at r1
    have hen : (notice S).enabled = S.enabled := rfl
    have hkn : (notice S).known = S.enabled := rfl
    cases he : S.enabled with
    | true =>
      rw [hen, he] at r1
      simp only [if_true] at r1
      split at r1
      · simp at r1
      · rename_i m ms hm
        simp only [Option.some.injEq, Prod.mk.injEq, Out.avail.injEq, true_and] at r1
        obtain ⟨rfl, rfl⟩ := r1
        refine ⟨⟨rfl, by simp only; rw [hkn, he], by simp [hm], by simp⟩, ?_⟩
        simp [current, hm]
    | false =>
      rw [hen, he] at r1
      simp only [Bool.false_eq_true, if_false, Option.some.injEq, Prod.mk.injEq, Out.avail.injEq,
        decide_eq_true_eq] at r1
      obtain ⟨⟨hz, rfl⟩, rfl⟩ := r1
      have hle : (fixBatch e (notice S).ram).reading ≤ (fixBatch e (notice S).ram).committed.length := by
        simp only [fixBatch]
        split
        · exact EventStorage.batchCount_le _ _
        · simp only [notice]
          split
          · exact Nat.zero_le _
          · exact hr
      refine ⟨⟨by simp only; rw [if_pos hz], by simp only; rw [hkn, he], by simp,
        fun _ => ⟨hz, hle⟩⟩, ?_⟩
      simp [current, message]
  obtain ⟨g1, g2⟩ := hR
  obtain ⟨b1, b2, b3⟩ := run_reading ops ho' g1 r2
  have hd : deliveredBy S2 .mark = current S1 := by
    simp only [deliveredBy]
    rw [notice_of_known b1.known, b2]
  rw [hd]
  refine ⟨g2, fun off len o hm => ?_⟩
  rw [b3 off len o hm, g2]

/-- Reads a message in pieces of at most three bytes. -/
def readPieces (rd : NvEvents.Reader) : Nat → Nat → Nat → Option (Option Bytes)
  | 0, _, _ => none
  | fuel + 1, off, left =>
    if left = 0 then some (some [])
    else
      match rd off (min 3 left) with
      | none => none
      | some none => some none
      | some (some d) => (readPieces rd fuel (off + min 3 left) (left - min 3 left)).map
          fun r => r.map fun t => d ++ t

theorem readPieces_eq {rd : NvEvents.Reader} {m : Bytes}
    (h : ∀ o l, o + l ≤ m.length → rd o l = some (some ((m.drop o).take l))) :
    ∀ fuel off left, off + left = m.length → left < fuel →
      readPieces rd fuel off left = some (some (m.drop off)) := by
  intro fuel
  induction fuel with
  | zero => intro off left _ hf; omega
  | succ fuel ih =>
    intro off left hl hf
    unfold readPieces
    by_cases h0 : left = 0
    · rw [if_pos h0, List.drop_of_length_le (by omega)]
    · rw [if_neg h0, h off (min 3 left) (by omega)]
      simp only
      rw [ih (off + min 3 left) (left - min 3 left) (by omega) (by omega)]
      simp only [Option.map_some]
      rw [← List.drop_drop, List.take_append_drop]

/-- A storage that keeps the messages in a list, and refuses them as `accept` says. -/
def listImpl (accept : Nat → Bool) : Impl (List Bytes × Nat) where
  has v := v.1.head?.map List.length
  read v o l := match v.1 with
    | [] => none
    | m :: _ => if o + l ≤ m.length then some ((m.drop o).take l) else none
  consume v := (v.1.tail, v.2)
  write v rd n := match readPieces rd (n + 1) 0 n with
    | none => none
    | some none => some (false, v.1, v.2 + 1)
    | some (some m) => some (accept v.2, if accept v.2 then v.1 ++ [m] else v.1, v.2 + 1)

/-- It works. -/
theorem listImpl_works (accept : Nat → Bool) :
    Works (listImpl accept) accept (fun v q n => v = (q, n)) where
  has := by rintro v q n rfl; rfl
  read := by rintro v m q n rfl o l; rfl
  consume := by rintro v q n rfl; rfl
  write := by
    rintro v q n rfl m rd - h
    simp only [listImpl]
    rw [readPieces_eq h (m.length + 1) 0 m.length (by omega) (by omega)]
    exact ⟨_, rfl, rfl⟩

/-- Two events are moved, the third is refused, a fourth comes, a reset takes the two in RAM, a fifth event
comes and is moved when the first has been read. -/
def nvExample : List Op :=
  [.begin, .append [1, 2, 3, 4], .finish false, .begin, .append [5], .finish false, .has,
    .read 1 2, .begin, .append [6], .finish false, .begin, .append [7], .finish false, .reset,
    .begin, .append [8], .finish false, .has, .read 0 4, .mark, .has, .read 0 1, .mark]

example : (Spec.NvEvents.run ⟨none, fun n => n % 4 < 2, true⟩ (start 32 [] 0 true) nvExample).map
      (fun r => (r.2.moved, r.2.ram.committed, r.2.tries)) = some ([[[8]]], [], 5) ∧
    collect deliveredBy ⟨none, fun n => n % 4 < 2, true⟩ (start 32 [] 0 true) nvExample =
      [[1, 2, 3, 4], [5]] ∧
    collect lostBy ⟨none, fun n => n % 4 < 2, true⟩ (start 32 [] 0 true) nvExample = [[6], [7]] := by
  decide +kernel

/-- A batch of two is found in RAM, then the storage is put into use and the batch is moved as one
message. -/
example : Spec.NvEvents.run ⟨some 10, fun _ => true, false⟩ (start 32 [] 0 false)
      [.begin, .append [1], .finish false, .begin, .append [2], .finish false, .has, .enable true,
        .persist, .has, .read 0 3] =
    some ([.size 30, .ok true, .unit, .size 27, .ok true, .unit, .avail true 3, .unit, .size 1,
        .avail true 3, .data (some [0x82, 1, 2])],
      ⟨⟨32, [], none, 0⟩, [[[1], [2]]], 1, true, true, some true⟩) := by
  decide +kernel

/-- What goes wrong without the contract: event 1 is moved, and while event 2 is being read from RAM the
storage is put into use again. -/
def nvToggle : List Op :=
  [.begin, .append [1], .finish false, .enable true, .persist, .enable false,
    .begin, .append [2], .finish false, .has, .read 0 1, .enable true, .mark,
    .persist, .has, .read 0 1, .mark, .has]

/-- **C69 is false** if the platform puts the storage into use while a message is being read: event 1 is
never read, but removed in place of event 2, which is read twice. -/
theorem C69_false_enabled_while_reading :
    ((EventStorage.boot 32).bind fun ram =>
      (NvEvents.run ⟨⟨none⟩, listImpl fun _ => true, false⟩ 32 ⟨ram, false, false, ([], 0)⟩
        nvToggle).map fun r => (r.1, r.2.nv.1, EventStorage.bytesUsed r.2.ram)) =
    some ([.size 30, .ok true, .unit, .unit, .size 1, .unit, .size 30, .ok true, .unit,
      .avail true 1, .data (some [2]), .unit, .unit, .size 1, .avail true 1, .data (some [2]), .unit,
      .avail false 0], [], 0) := by
  decide +kernel

end Mflt.Props
