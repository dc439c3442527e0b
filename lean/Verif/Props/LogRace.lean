import Verif.Spec.LogRace
import Verif.Props.LogUpload

/-! # C105: log uploads under preemption -/

namespace Mflt.Props

open Log (Config Trigger ConfigOk Rel TrigRel hasLogs logsRead boot)
open LogRace Spec.LogRace
open Spec.Log (Op Out unsent Entry)
open SerializerHelper (Device)

namespace LRace

def writing : TrigPc → Bool
  | .time _ => true
  | .num _ => true
  | _ => false

/-- The log without an incomplete context. -/
def base (s : Sys) : Log.State := if s.lock then { s.log with trigger := ⟨false, 0, none⟩ } else s.log

def TrigOk (s : Sys) (c : Nat) : TrigPc → Prop
  | .set n => 0 < n ∧ n = c
  | .time n => s.lock = true ∧ 0 < n ∧ n = c ∧ s.log.trigger = ⟨true, 0, none⟩
  | .num n => s.lock = true ∧ 0 < n ∧ n = c ∧ ∃ now, s.log.trigger = ⟨true, 0, now⟩
  | _ => True

def UpOk (s : Sys) (S : Spec.LogRace.State) : UpPc → Prop
  | .has => S.log.frozen.isSome = true
  | .size t => S.log.frozen.isSome = true ∧ t = s.log.trigger
  | .read t _ _ => S.log.frozen.isSome = true ∧ t = s.log.trigger
  | .mark t => S.log.frozen.isSome = true ∧ t = s.log.trigger
  | _ => True

structure Inv (cfg : Config) (s : Sys) (S : Spec.LogRace.State) : Prop where
  rel : Rel cfg (base s) S.log
  trig : ∀ i, TrigOk s (S.counted i) (s.trig i)
  one : ∀ i j, writing (s.trig i) = true → writing (s.trig j) = true → i = j
  up : UpOk s S s.up

theorem writing_lock {s : Sys} {c : Nat} {p : TrigPc} (h : TrigOk s c p) (hw : writing p = true) :
    s.lock = true := by
  cases p with
  | time n => exact h.1
  | num n => exact h.1
  | _ => cases hw

theorem not_writing {s s' : Sys} {c : Nat} {p : TrigPc} (h : TrigOk s c p) (hw : writing p = false) :
    TrigOk s' c p := by
  cases p with
  | time n => cases hw
  | num n => cases hw
  | set n => exact h
  | _ => trivial

theorem rel_trigger {cfg : Config} {s : Log.State} {S : Spec.Log.State} (h : Rel cfg s S) (t : Trigger)
    (f : Option (Nat × Option Nat)) (ht : TrigRel cfg t S.entries f) :
    Rel cfg { s with trigger := t } { S with frozen := f } :=
  ⟨h.cap, ⟨h.core.ring, h.core.ok, h.core.drop, h.core.pos⟩, h.minLevel, h.recorded, h.last, ht⟩

theorem lock_frozen {cfg : Config} {s : Sys} {S : Spec.LogRace.State} (h : Inv cfg s S) (hl : s.lock = true) :
    S.log.frozen = none := by
  have := h.rel.trig
  unfold base at this
  rw [if_pos hl] at this
  cases hf : S.log.frozen with
  | none => rfl
  | some p =>
    obtain ⟨n, now⟩ := p
    rw [hf] at this
    have := this.2.1
    simp at this

theorem frozen_lock {cfg : Config} {s : Sys} {S : Spec.LogRace.State} (h : Inv cfg s S)
    (hf : S.log.frozen.isSome = true) : s.lock = false ∧ Rel cfg s.log S.log := by
  have hl : s.lock = false := by
    cases hl : s.lock with
    | false => rfl
    | true => rw [lock_frozen h hl] at hf; cases hf
  have := h.rel
  unfold base at this
  rw [hl] at this
  exact ⟨hl, by simpa using this⟩

theorem free_rel {cfg : Config} {s : Sys} {S : Spec.LogRace.State} (h : Inv cfg s S)
    (hl : s.lock = false) : Rel cfg s.log S.log := by
  have := h.rel
  unfold base at this
  rw [hl] at this
  simpa using this

theorem triggered_frozen {cfg : Config} {s : Sys} {S : Spec.LogRace.State} (h : Inv cfg s S)
    (hl : s.lock = false) : s.log.trigger.triggered = S.log.frozen.isSome :=
  (free_rel h hl).trig.triggered.1

/-- Without the lock nobody is writing. -/
theorem free_trig {cfg : Config} {s : Sys} {S : Spec.LogRace.State} (h : Inv cfg s S)
    (hl : s.lock = false) (i : Nat) : writing (s.trig i) = false := by
  cases hw : writing (s.trig i) with
  | false => rfl
  | true => rw [writing_lock (h.trig i) hw] at hl; cases hl

theorem step_trigger_same {cfg : Config} {s s' : Log.State} {S T : Spec.Log.State} {o : Op} {out : Out}
    (h : Rel cfg s S) (h' : Rel cfg s' T) (hs : Spec.Log.step cfg S o = some (out, T))
    (hp : plain o = true) (hf : S.frozen.isSome = true) : s'.trigger = s.trigger ∧ T.frozen = S.frozen := by
  obtain ⟨⟨n, now⟩, hn⟩ := Option.isSome_iff_exists.mp hf
  have hfr := (Log.frozen_step hn (by intro hx; subst hx; cases hp) hs).1
  have t1 := h.trig
  have t2 := h'.trig
  rw [hn] at t1
  rw [hfr] at t2
  exact ⟨by rw [t1.2.1, t2.2.1], by rw [hfr, hn]⟩

theorem plain_frozen {cfg : Config} {S T : Spec.Log.State} {o : Op} {out : Out}
    (hs : Spec.Log.step cfg S o = some (out, T)) (hp : plain o = true) : T.frozen = S.frozen := by
  cases o with
  | save level type text now =>
    simp only [Spec.Log.step] at hs
    split at hs
    · simp only [Option.some.injEq, Prod.mk.injEq] at hs
      rw [← hs.2]
      unfold Spec.Log.save
      dsimp only
      split
      · rfl
      · split
        · rfl
        · split <;> rfl
    · cases hs
  | read =>
    simp only [Spec.Log.step] at hs
    split at hs
    · cases hs
    · split at hs
      · simp only [Option.some.injEq, Prod.mk.injEq] at hs
        rw [← hs.2]
      · simp only [Option.some.injEq] at hs
        rw [show T = (Spec.Log.readLine { S with reported := Spec.Log.dropped S }).2 by rw [hs]]
        unfold Spec.Log.readLine
        split <;> rfl
  | trigger now => cases hp
  | markSent => cases hp
  | _ =>
    simp only [Spec.Log.step, Option.some.injEq, Prod.mk.injEq] at hs
    rw [← hs.2]

/-- What a step does. -/
def Fine (cfg : Config) (dev : Device) (s : Sys) (S : Spec.LogRace.State) (r : Sys × List Ev) : Prop :=
  (r.2 = [] ∧ Inv cfg r.1 S ∧ r.1.log.cb = s.log.cb) ∨
  ∃ e, r.2 = [e] ∧ agrees cfg S e ∧
    (∀ T, next cfg S e = some T → Inv cfg r.1 T ∧
      (S.log.frozen.isSome = true → (∀ ok, e ≠ .marked ok) → r.1.log.cb.readOffset = s.log.cb.readOffset)) ∧
    (∀ x, e = .size x → S.log.frozen.isSome = true → x = hasLogs cfg dev s.log) ∧
    (∀ off buf x, e = .data off buf x → x = logsRead cfg dev s.log off buf)

/-- Nothing but where calls are has changed. -/
theorem inv_trig {cfg : Config} {s : Sys} {S : Spec.LogRace.State} (h : Inv cfg s S) {i : Nat} {p : TrigPc}
    (hp : TrigOk s (S.counted i) p) (hw : writing p = false) :
    Inv cfg { s with trig := put s.trig i p } S := by
  refine ⟨h.rel, ?_, ?_, h.up⟩
  · intro j
    by_cases hj : j = i
    · subst hj
      simp only [put, if_true]
      exact not_writing hp hw
    · simp only [put, if_neg hj]
      have := h.trig j
      cases hq : s.trig j <;> rw [hq] at this <;> exact this
  · intro j k
    simp only [put]
    by_cases hj : j = i
    · rw [if_pos hj, hw]; intro hx; cases hx
    · rw [if_neg hj]
      by_cases hk : k = i
      · rw [if_pos hk, hw]; intro _ hx; cases hx
      · rw [if_neg hk]; exact h.one j k

theorem inv_up {cfg : Config} {s : Sys} {S : Spec.LogRace.State} (h : Inv cfg s S) {u : UpPc}
    (hu : UpOk s S u) : Inv cfg { s with up := u } S := by
  refine ⟨h.rel, ?_, h.one, ?_⟩
  · intro j
    have := h.trig j
    cases hq : s.trig j <;> rw [hq] at this <;> simpa [TrigOk, hq] using this
  · cases u <;> exact hu

theorem fine_op {cfg : Config} (hc : ConfigOk cfg) (dev : Device) {s : Sys} {S : Spec.LogRace.State}
    (h : Inv cfg s S) (o : Op) : Fine cfg dev s S (step cfg dev s (.op o)) := by
  unfold step
  dsimp only
  by_cases hl : s.lock = true
  · rw [if_pos hl]
    exact .inl ⟨rfl, h, rfl⟩
  · rw [if_neg hl]
    have hl' : s.lock = false := by simpa using hl
    have hrel := free_rel h hl'
    by_cases hd : plain o = true ∧ (Spec.Log.step cfg S.log o).isSome = true
    · obtain ⟨hp, hd⟩ := hd
      obtain ⟨⟨out, T⟩, hT⟩ := Option.isSome_iff_exists.mp hd
      obtain ⟨log, q1, q2, q3⟩ := Log.step_rel hc hrel hT
      rw [q1]
      refine .inr ⟨_, rfl, ?_, ?_, ?_, ?_⟩
      · intro _ out' T' h'
        rw [hT] at h'
        cases h'
        rfl
      · intro T' hn
        simp only [next, hp, if_true, hT, Option.map_some, Option.some.injEq] at hn
        subst hn
        refine ⟨⟨?_, ?_, h.one, ?_⟩, ?_⟩
        · unfold base
          simp only [hl', Bool.false_eq_true, if_false]
          exact q2
        · intro i
          exact not_writing (h.trig i) (free_trig h hl' i)
        · have hu := h.up
          have hfr := plain_frozen hT hp
          cases hq : s.up with
          | idle => trivial
          | readCtx off buf => trivial
          | markCtx => trivial
          | has =>
            rw [hq] at hu
            simp only [UpOk] at hu ⊢
            rw [hfr]; exact hu
          | size t =>
            rw [hq] at hu
            simp only [UpOk] at hu ⊢
            rw [hfr, (step_trigger_same hrel q2 hT hp hu.1).1]; exact hu
          | read t off buf =>
            rw [hq] at hu
            simp only [UpOk] at hu ⊢
            rw [hfr, (step_trigger_same hrel q2 hT hp hu.1).1]; exact hu
          | mark t =>
            rw [hq] at hu
            simp only [UpOk] at hu ⊢
            rw [hfr, (step_trigger_same hrel q2 hT hp hu.1).1]; exact hu
        · intro hf _
          exact q3 hf (by intro hx; subst hx; cases hp)
      · intro x hx; cases hx
      · intro _ _ x hx; cases hx
    · have hout : ∀ r, agrees cfg S (.op o r) := by
        intro r hp out T hT
        exact absurd ⟨hp, by rw [hT]; rfl⟩ hd
      have hnext : ∀ r, next cfg S (.op o r) = none := by
        intro r
        simp only [next]
        by_cases hp : plain o = true
        · rw [if_pos hp]
          cases hx : Spec.Log.step cfg S.log o with
          | none => rfl
          | some q => exact absurd ⟨hp, by rw [hx]; rfl⟩ hd
        · rw [if_neg hp]
      cases Log.step cfg s.log o with
      | none =>
        exact .inr ⟨_, rfl, hout _, fun T hT => (by rw [hnext] at hT; cases hT), fun x hx => (by cases hx),
          fun _ _ x hx => (by cases hx)⟩
      | some q =>
        exact .inr ⟨_, rfl, hout _, fun T hT => (by rw [hnext] at hT; cases hT), fun x hx => (by cases hx),
          fun _ _ x hx => (by cases hx)⟩

theorem fine_trig {cfg : Config} (hc : ConfigOk cfg) (hds : cfg.dataSource = true) (dev : Device) {s : Sys}
    {S : Spec.LogRace.State} (h : Inv cfg s S) (i : Nat) (now : Option Nat) :
    Fine cfg dev s S (trigStep s i now (s.trig i)) := by
  have hi := h.trig i
  cases hp : s.trig i with
  | idle => exact .inl ⟨rfl, h, rfl⟩
  | count =>
    unfold trigStep
    dsimp only
    by_cases hl : s.lock = true
    · rw [if_pos hl]
      exact .inl ⟨rfl, h, rfl⟩
    · rw [if_neg hl]
      have hl' : s.lock = false := by simpa using hl
      rw [Log.countUnsent_eq hc (free_rel h hl')]
      refine .inr ⟨_, rfl, rfl, ?_, fun x hx => (by cases hx), fun _ _ x hx => (by cases hx)⟩
      intro T hT
      simp only [next, Option.some.injEq] at hT
      subst hT
      refine ⟨?_, fun _ _ => rfl⟩
      have hbase : Inv cfg s { S with counted := fun j => if j = i then unsent S.log.entries else S.counted j } := by
        refine ⟨h.rel, ?_, h.one, ?_⟩
        · intro j
          by_cases hj : j = i
          · subst hj; rw [hp]; trivial
          · dsimp only; rw [if_neg hj]; exact h.trig j
        · have := h.up
          cases hq : s.up <;> rw [hq] at this <;> exact this
      apply inv_trig hbase
      · dsimp only
        rw [if_pos rfl]
        split
        · trivial
        · exact ⟨by omega, rfl⟩
      · split <;> rfl
  | set n =>
    rw [hp] at hi
    unfold trigStep
    dsimp only
    by_cases hl : s.lock = true
    · rw [if_pos hl]
      exact .inl ⟨rfl, h, rfl⟩
    · rw [if_neg hl]
      have hl' : s.lock = false := by simpa using hl
      by_cases ht : s.log.trigger.triggered = true
      · rw [if_pos ht]
        exact .inl ⟨rfl, inv_trig h trivial rfl, rfl⟩
      · rw [if_neg ht]
        have hfr : S.log.frozen = none := by
          have := triggered_frozen h hl'
          cases hf : S.log.frozen with
          | none => rfl
          | some f => rw [hf] at this; exact absurd this ht
        have htr : s.log.trigger = ⟨false, 0, none⟩ := by
          have := (free_rel h hl').trig
          rw [hfr] at this
          exact this
        refine .inl ⟨rfl, ⟨?_, ?_, ?_, ?_⟩, rfl⟩
        · have := free_rel h hl'
          unfold base
          simp only [if_true]
          have e : ({ s.log with trigger := ⟨false, 0, none⟩ } : Log.State) = s.log := by rw [← htr]
          rw [e]; exact this
        · intro j
          dsimp only [put]
          by_cases hj : j = i
          · subst hj
            rw [if_pos rfl]
            exact ⟨rfl, hi.1, hi.2, by rw [htr]⟩
          · rw [if_neg hj]
            exact not_writing (h.trig j) (free_trig h hl' j)
        · intro j k
          dsimp only [put]
          by_cases hj : j = i
          · by_cases hk : k = i
            · intro _ _; rw [hj, hk]
            · rw [if_neg hk, free_trig h hl' k]; intro _ hx; cases hx
          · rw [if_neg hj, free_trig h hl' j]; intro hx; cases hx
        · have hu := h.up
          dsimp only
          cases hq : s.up <;> rw [hq] at hu <;> simp only [UpOk, hfr] at hu ⊢ <;> simp at hu
  | time n =>
    rw [hp] at hi
    obtain ⟨i1, i2, i3, i4⟩ := hi
    have hfr := lock_frozen h i1
    unfold trigStep
    refine .inl ⟨rfl, ⟨?_, ?_, ?_, ?_⟩, rfl⟩
    · have := h.rel
      unfold base at this ⊢
      simp only [i1, if_true] at this ⊢
      exact this
    · intro j
      dsimp only [put]
      by_cases hj : j = i
      · subst hj
        rw [if_pos rfl]
        exact ⟨i1, i2, i3, now, by rw [i4]⟩
      · rw [if_neg hj]
        apply not_writing (h.trig j)
        cases hw : writing (s.trig j) with
        | false => rfl
        | true => exact absurd (h.one j i hw (by rw [hp]; rfl)) hj
    · intro j k
      have hjk := h.one j k
      dsimp only [put]
      by_cases hj : j = i
      · subst hj
        by_cases hk : k = j
        · intro _ _; rw [hk]
        · rw [if_neg hk]; rw [hp] at hjk; intro _; exact hjk rfl
      · rw [if_neg hj]
        by_cases hk : k = i
        · subst hk; rw [hp] at hjk; intro hx _; exact hjk hx rfl
        · rw [if_neg hk]; exact hjk
    · have hu := h.up
      dsimp only
      cases hq : s.up <;> rw [hq] at hu <;> simp only [UpOk, hfr] at hu ⊢ <;> simp at hu
  | num n =>
    rw [hp] at hi
    obtain ⟨i1, i2, i3, nw, i4⟩ := hi
    have hfr := lock_frozen h i1
    unfold trigStep
    refine .inr ⟨_, rfl, ⟨hfr, i2, i3⟩, ?_, fun x hx => (by cases hx), fun _ _ x hx => (by cases hx)⟩
    intro T hT
    simp only [next] at hT
    split at hT
    · rename_i hle
      simp only [Option.some.injEq] at hT
      subst hT
      refine ⟨⟨?_, ?_, ?_, ?_⟩, fun _ _ => rfl⟩
      · have hr := h.rel
        unfold base at hr ⊢
        simp only [i1, if_true, Bool.false_eq_true, if_false] at hr ⊢
        have := rel_trigger hr { s.log.trigger with numLogs := n } (some (n, s.log.trigger.time))
          ⟨hds, by rw [i4], i2, hle⟩
        exact this
      · intro j
        dsimp only [put]
        by_cases hj : j = i
        · rw [if_pos hj]; trivial
        · rw [if_neg hj]
          apply not_writing (h.trig j)
          cases hw : writing (s.trig j) with
          | false => rfl
          | true => exact absurd (h.one j i hw (by rw [hp]; rfl)) hj
      · intro j k
        have hjk := h.one j k
        dsimp only [put]
        by_cases hj : j = i
        · rw [if_pos hj]; intro hx; cases hx
        · rw [if_neg hj]
          by_cases hk : k = i
          · rw [if_pos hk]; intro _ hx; cases hx
          · rw [if_neg hk]; exact hjk
      · have hu := h.up
        dsimp only
        cases hq : s.up <;> rw [hq] at hu <;> simp only [UpOk, hfr] at hu ⊢ <;> simp at hu
    · cases hT

theorem complete_frozen {cfg : Config} {s : Sys} {S : Spec.LogRace.State} (h : Inv cfg s S)
    (hcm : complete s = true) : S.log.frozen.isSome = true := by
  unfold complete at hcm
  simp only [Bool.and_eq_true, Bool.not_eq_true'] at hcm
  rw [← triggered_frozen h hcm.2]; exact hcm.1

theorem fine_copy {cfg : Config} (dev : Device) {s : Sys} {S : Spec.LogRace.State} (h : Inv cfg s S)
    (k : Trigger → UpPc) (hk : S.log.frozen.isSome = true → UpOk s S (k s.log.trigger)) :
    Fine cfg dev s S (copyCtx s k) := by
  unfold copyCtx
  by_cases hcm : complete s = true
  · rw [if_pos hcm]
    exact .inl ⟨rfl, inv_up h (hk (complete_frozen h hcm)), rfl⟩
  · rw [if_neg hcm]
    exact .inr ⟨_, rfl, trivial, fun T hT => (by cases hT), fun x hx => (by cases hx),
      fun _ _ x hx => (by cases hx)⟩

theorem fine_up {cfg : Config} (hc : ConfigOk cfg) (dev : Device) {s : Sys} {S : Spec.LogRace.State}
    (h : Inv cfg s S) : Fine cfg dev s S (upStep cfg dev s) := by
  have hu := h.up
  unfold upStep
  cases hq : s.up with
  | idle => exact .inl ⟨rfl, h, rfl⟩
  | has => exact fine_copy dev h _ fun hf => ⟨hf, rfl⟩
  | readCtx off buf => exact fine_copy dev h _ fun hf => ⟨hf, rfl⟩
  | markCtx => exact fine_copy dev h _ fun hf => ⟨hf, rfl⟩
  | size t =>
    rw [hq] at hu
    obtain ⟨u1, rfl⟩ := hu
    dsimp only
    rw [(frozen_lock h u1).1, if_neg (by simp)]
    refine .inr ⟨_, rfl, ?_, ?_, fun x hx _ => (by cases hx; rfl), fun _ _ x hx => (by cases hx)⟩
    · intro hf; rw [hf] at u1; cases u1
    · intro T hT
      simp only [next, Option.some.injEq] at hT
      subst hT
      have := inv_up h (u := .idle) trivial
      rw [(frozen_lock h u1).1] at this
      exact ⟨this, fun _ _ => rfl⟩
  | read t off buf =>
    rw [hq] at hu
    obtain ⟨u1, rfl⟩ := hu
    dsimp only
    rw [(frozen_lock h u1).1, if_neg (by simp)]
    refine .inr ⟨_, rfl, u1, ?_, fun x hx _ => (by cases hx), fun _ _ x hx => (by cases hx; rfl)⟩
    intro T hT
    simp only [next, Option.some.injEq] at hT
    subst hT
    have := inv_up h (u := .idle) trivial
    rw [(frozen_lock h u1).1] at this
    exact ⟨this, fun _ _ => rfl⟩
  | mark t =>
    rw [hq] at hu
    obtain ⟨u1, rfl⟩ := hu
    obtain ⟨hl, hrel⟩ := frozen_lock h u1
    obtain ⟨⟨n, now⟩, hf⟩ := Option.isSome_iff_exists.mp u1
    obtain ⟨log, m1, m2, m3⟩ := Log.markSent_rel hc hrel hf
    dsimp only
    rw [hl, if_neg (by simp)]
    rw [m1]
    refine .inr ⟨_, rfl, ⟨rfl, u1⟩, ?_, fun x hx _ => (by cases hx), fun _ _ x hx => (by cases hx)⟩
    intro T hT
    simp only [next, hf, Option.map_some, Option.some.injEq] at hT
    subst hT
    refine ⟨⟨?_, ?_, h.one, trivial⟩, fun _ hm => absurd rfl (hm true)⟩
    · unfold base
      simp only [Bool.false_eq_true, if_false]
      exact m2
    · intro j
      exact not_writing (h.trig j) (free_trig h hl j)

theorem fine_step {cfg : Config} (hc : ConfigOk cfg) (hds : cfg.dataSource = true) (dev : Device) {s : Sys}
    {S : Spec.LogRace.State} (h : Inv cfg s S) (a : Act) : Fine cfg dev s S (step cfg dev s a) := by
  cases a with
  | op o => exact fine_op hc dev h o
  | trigger i =>
    unfold step
    dsimp only
    split
    · exact .inl ⟨rfl, inv_trig h trivial rfl, rfl⟩
    · exact .inl ⟨rfl, h, rfl⟩
  | trigStep i now => exact fine_trig hc hds dev h i now
  | has =>
    unfold step
    dsimp only
    split
    · by_cases ht : s.log.trigger.triggered = true
      · rw [if_pos ht]
        cases hl : s.lock with
        | true =>
          exact .inr ⟨_, rfl, trivial, fun T hT => (by cases hT), fun x hx => (by cases hx),
            fun _ _ x hx => (by cases hx)⟩
        | false =>
          have := triggered_frozen h hl
          have hi := inv_up h (u := .has) (by rw [ht] at this; exact this.symm)
          rw [hl] at hi
          exact .inl ⟨rfl, hi, rfl⟩
      · rw [if_neg ht]
        refine .inr ⟨_, rfl, fun _ => rfl, ?_, ?_, fun _ _ x hx => (by cases hx)⟩
        · intro T hT
          simp only [next, Option.some.injEq] at hT
          subst hT
          exact ⟨h, fun _ _ => rfl⟩
        · intro x _ hf
          obtain ⟨hl, hrel⟩ := frozen_lock h hf
          rw [← triggered_frozen h hl] at hf
          exact absurd hf ht
    · exact .inl ⟨rfl, h, rfl⟩
  | read off buf =>
    unfold step
    dsimp only
    split
    · exact .inl ⟨rfl, inv_up h trivial, rfl⟩
    · exact .inl ⟨rfl, h, rfl⟩
  | mark =>
    unfold step
    dsimp only
    split
    · exact .inl ⟨rfl, inv_up h trivial, rfl⟩
    · exact .inl ⟨rfl, h, rfl⟩
  | upStep => exact fine_up hc dev h

theorem keep_next {cfg : Config} {S T : Spec.LogRace.State} {e : Ev} {f : Nat × Option Nat}
    (ha : agrees cfg S e) (hn : next cfg S e = some T) (hf : S.log.frozen = some f)
    (hm : ∀ ok, e ≠ .marked ok) :
    T.log.frozen = some f ∧ Log.Grown S.log.entries T.log.entries ∧ T.log.cap = S.log.cap := by
  cases e with
  | op o r =>
    simp only [next] at hn
    split at hn
    · rename_i hp
      obtain ⟨⟨out, T'⟩, hT, rfl⟩ := Option.map_eq_some_iff.mp hn
      have := Log.frozen_step hf (by intro hx; subst hx; cases hp) hT
      refine ⟨this.1, this.2, ?_⟩
      have hr : Spec.Log.run cfg S.log [o] = some ([out], T') := by
        simp [Spec.Log.run, hT]
      exact Spec.Log.run_cap' hr
    · cases hn
  | counted i r =>
    simp only [next, Option.some.injEq] at hn
    subst hn
    exact ⟨hf, Log.Grown.refl _, rfl⟩
  | triggered i n now =>
    have := ha.1
    rw [hf] at this
    cases this
  | size r =>
    simp only [next, Option.some.injEq] at hn
    subst hn
    exact ⟨hf, Log.Grown.refl _, rfl⟩
  | data off buf r =>
    simp only [next, Option.some.injEq] at hn
    subst hn
    exact ⟨hf, Log.Grown.refl _, rfl⟩
  | marked ok => exact absurd rfl (hm ok)
  | peek => cases hn

theorem run_inv {cfg : Config} (hc : ConfigOk cfg) (hds : cfg.dataSource = true) (dev : Device) :
    ∀ (acts : List Act) {s : Sys} {S T : Spec.LogRace.State}, Inv cfg s S →
      follow cfg S (run cfg dev s acts).2 = some T → Inv cfg (run cfg dev s acts).1 T := by
  intro acts
  induction acts with
  | nil =>
    intro s S T h hf
    simp only [run, follow, Option.some.injEq] at hf
    subst hf
    exact h
  | cons a as ih =>
    intro s S T h hf
    simp only [run] at hf ⊢
    rcases fine_step hc hds dev h a with ⟨e1, e2, -⟩ | ⟨e, e1, -, e3, -⟩
    · rw [e1, List.nil_append] at hf
      exact ih e2 hf
    · rw [e1] at hf
      simp only [List.cons_append, List.nil_append, follow, Option.bind_eq_some_iff] at hf
      obtain ⟨S', hn, hf⟩ := hf
      exact ih (e3 S' hn).1 hf

theorem run_at {cfg : Config} (hc : ConfigOk cfg) (hds : cfg.dataSource = true) (dev : Device) :
    ∀ (acts : List Act) {s : Sys} {S T : Spec.LogRace.State} {pre post : List Ev} {e : Ev}, Inv cfg s S →
      (run cfg dev s acts).2 = pre ++ e :: post → follow cfg S pre = some T →
      ∃ s', Inv cfg s' T ∧ agrees cfg T e ∧
        (∀ x, e = .size x → T.log.frozen.isSome = true → x = hasLogs cfg dev s'.log) ∧
        (∀ off buf x, e = .data off buf x → x = logsRead cfg dev s'.log off buf) ∧
        (∀ f, S.log.frozen = some f → (∀ ok, Ev.marked ok ∉ pre) → T.log.frozen = some f ∧
          Log.Grown S.log.entries T.log.entries ∧ T.log.cap = S.log.cap ∧
          s'.log.cb.readOffset = s.log.cb.readOffset) := by
  intro acts
  induction acts with
  | nil => intro s S T pre post e h hev; simp [run] at hev
  | cons a as ih =>
    intro s S T pre post e h hev hf
    simp only [run] at hev
    rcases fine_step hc hds dev h a with ⟨e1, e2, e3⟩ | ⟨e', e1, e2, e3, e4, e5⟩
    · rw [e1, List.nil_append] at hev
      rw [← e3]
      exact ih e2 hev hf
    · rw [e1] at hev
      cases pre with
      | nil =>
        simp only [List.cons_append, List.nil_append, List.cons.injEq] at hev
        obtain ⟨rfl, -⟩ := hev
        simp only [follow, Option.some.injEq] at hf
        subst hf
        exact ⟨s, h, e2, e4, e5, fun f hf _ => ⟨hf, Log.Grown.refl _, rfl, rfl⟩⟩
      | cons p pre =>
        simp only [List.cons_append, List.nil_append, List.cons.injEq] at hev
        obtain ⟨rfl, hev⟩ := hev
        simp only [follow, Option.bind_eq_some_iff] at hf
        obtain ⟨S', hn, hf⟩ := hf
        obtain ⟨i1, i2⟩ := e3 S' hn
        obtain ⟨s', a1, a2, a3, a4, a5⟩ := ih i1 hev hf
        refine ⟨s', a1, a2, a3, a4, ?_⟩
        intro f hfr hm
        have hm' : ∀ ok, e' ≠ .marked ok := fun ok hx => hm ok (by rw [hx]; exact List.mem_cons_self)
        obtain ⟨k1, k2, k3⟩ := keep_next e2 hn hfr hm'
        obtain ⟨b1, b2, b3, b4⟩ := a5 f k1 fun ok hx => hm ok (List.mem_cons_of_mem _ hx)
        exact ⟨b1, k2.trans b2, b3.trans k3, b4.trans (i2 (by rw [hfr]; rfl) hm')⟩

theorem follow_cap {cfg : Config} : ∀ (evs : List Ev) {S T : Spec.LogRace.State},
    follow cfg S evs = some T → T.log.cap = S.log.cap := by
  intro evs
  induction evs with
  | nil => intro S T h; simp only [follow, Option.some.injEq] at h; rw [h]
  | cons e es ih =>
    intro S T h
    simp only [follow, Option.bind_eq_some_iff] at h
    obtain ⟨S', hn, h⟩ := h
    rw [ih h]
    cases e with
    | op o r =>
      simp only [next] at hn
      split at hn
      · obtain ⟨⟨out, T'⟩, hT, rfl⟩ := Option.map_eq_some_iff.mp hn
        have hr : Spec.Log.run cfg S.log [o] = some ([out], T') := by simp [Spec.Log.run, hT]
        exact Spec.Log.run_cap' hr
      · cases hn
    | triggered i n now =>
      simp only [next] at hn
      split at hn
      · simp only [Option.some.injEq] at hn; subst hn; rfl
      · cases hn
    | marked ok =>
      obtain ⟨f, -, rfl⟩ := Option.map_eq_some_iff.mp hn
      rfl
    | peek => cases hn
    | _ =>
      simp only [next, Option.some.injEq] at hn
      subst hn
      rfl

theorem init_inv (cfg : Config) {minLevel cap : Nat} {log : Log.State}
    (h : Rel cfg log (Spec.Log.init minLevel cap)) :
    Inv cfg (Sys.init log) (Spec.LogRace.init minLevel cap) := by
  refine ⟨?_, fun i => trivial, fun i j hw => (by cases hw), trivial⟩
  unfold base Sys.init
  exact h

end LRace

open LRace

/-- C105, as long as no collection is triggered for more logs than there are unsent ones by then, and the uploader does
not look at a context that is being written: for every schedule, every call has the result it has if
calls are made one after the other; each collection that is triggered was counted by its own task, is for at least one log,
and none is triggered while there is another; and no call leaves the ring buffer. Missing: collections of logs
that were sent meanwhile and contexts that are read while they are written (`C105_false_stale`,
`C105_false_twice`, `C105_false_peek`). -/
theorem C105_calls_partial {cfg : Config} (hmin : 4 ≤ cfg.maxLine) (hmax : cfg.maxLine ≤ 255)
    (hds : cfg.dataSource = true) {minLevel cap : Nat} (h0 : 0 < cap) (hcap : cap < 2 ^ 31 - 8) (dev : Device)
    {log : Log.State} (hb : boot minLevel cap = some log) (acts : List Act) {pre post : List Ev} {e : Ev}
    (hev : (run cfg dev (Sys.init log) acts).2 = pre ++ e :: post) {S : Spec.LogRace.State}
    (hs : follow cfg (Spec.LogRace.init minLevel cap) pre = some S) : agrees cfg S e := by
  obtain ⟨log', b1, b2⟩ := Log.boot_rel cfg minLevel h0 hcap
  rw [hb] at b1
  cases b1
  obtain ⟨s', -, h, -⟩ := run_at ⟨hmin, hmax⟩ hds dev acts (init_inv cfg b2) hev hs
  exact h

/-- C105, under the same conditions: from when a collection is triggered until its logs are marked as sent, whatever
other tasks do meanwhile, every announced size is that of one message, and every read returns a part of
this message. If the collected logs are not empty and do not wrap around the end of the buffer, the message
decodes to the collected logs. Missing: as there, and logs that wrap around (C26). -/
theorem C105_upload_partial {cfg : Config} (hmin : 4 ≤ cfg.maxLine) (hmax : cfg.maxLine ≤ 255)
    (hds : cfg.dataSource = true) {minLevel cap : Nat} (h0 : 0 < cap) (hcap : cap < 2 ^ 31 - 8) (dev : Device)
    {log : Log.State} (hb : boot minLevel cap = some log) (acts : List Act) {s : Sys} {evs : List Ev}
    (hr : run cfg dev (Sys.init log) acts = (s, evs)) {S : Spec.LogRace.State}
    (hs : follow cfg (Spec.LogRace.init minLevel cap) evs = some S) {n : Nat} {now : Option Nat}
    (hf : S.log.frozen = some (n, now)) :
    ∃ msg : Bytes,
      (∀ (acts' : List Act) (pre post : List Ev) (e : Ev) (T : Spec.LogRace.State),
        (run cfg dev s acts').2 = pre ++ e :: post → follow cfg S pre = some T →
        (∀ ok, Ev.marked ok ∉ pre) →
        (∀ r, e = .size r → r = some (some msg.length)) ∧
        (msg.length < 2 ^ 32 → ∀ off buf r, e = .data off buf r →
          r = some (decide (off + buf.length ≤ msg.length ∨ buf.length = 0),
            slice msg off buf.length ++ buf.drop (slice msg off buf.length).length))) ∧
      (Spec.Event.DeviceOk dev →
        (∀ pre e post, S.log.entries = pre ++ e :: post → e.sent = false → Log.body e.line ≠ [] ∧
          (s.log.cb.readOffset + Spec.Log.total pre + 2) % cap + (Log.body e.line).length ≤ cap) →
        Spec.Cbor.decode msg = some (Spec.Log.upload cfg dev n now S.log.entries)) := by
  obtain ⟨log', b1, b2⟩ := Log.boot_rel cfg minLevel h0 hcap
  rw [hb] at b1
  cases b1
  have hi : Inv cfg s S := by
    have := run_inv ⟨hmin, hmax⟩ hds dev acts (init_inv cfg b2) (T := S) (by rw [hr]; exact hs)
    rw [hr] at this
    exact this
  have r2 := (frozen_lock hi (by rw [hf]; rfl)).2
  obtain ⟨ro, hr⟩ := r2.core.ring
  have ht := r2.trig
  rw [hf] at ht
  obtain ⟨-, t2, t3, t4⟩ := ht
  refine ⟨_, ?_, fun hd hst => Log.decode_upload ⟨hmin, hmax⟩ hd r2.cap r2.core.ok t4 hr.total_le ?_ (ro := ro)⟩
  · intro acts' pre post e T hev hT hm
    obtain ⟨s', i1, -, i3, i4, i5⟩ := run_at ⟨hmin, hmax⟩ hds dev acts' hi hev hT
    obtain ⟨f1, ⟨a, b, g1, g2, g3⟩, f3, f4⟩ := i5 _ hf hm
    have c2 := (frozen_lock i1 (by rw [f1]; rfl)).2
    obtain ⟨ro', hr'⟩ := c2.core.ring
    have hro : ro' = ro := by rw [← hr.ro, ← hr'.ro, f4]
    subst hro
    have ht' := c2.trig
    rw [f1] at ht'
    obtain ⟨-, u2, u3, u4⟩ := ht'
    have hup : Log.uploadCalls cfg dev s'.log.trigger ro' T.log.cap T.log.entries =
        Log.uploadCalls cfg dev ⟨true, n, now⟩ ro' S.log.cap S.log.entries := by
      unfold Log.uploadCalls
      rw [u2, f3, g1, Log.collect_append, Log.collect_congr _ _ _ _ _ _ _ g2]
      rw [Log.unsent_congr g2]; exact t4
    have hn' : 0 < s'.log.trigger.numLogs := by rw [u2]; exact t3
    constructor
    · intro r hr
      rw [i3 r hr (by rw [f1]; rfl), Log.hasLogs_eq ⟨hmin, hmax⟩ dev c2.cap hr' c2.core.ok hn' (by rw [u2]), hup]
    · intro hlen off buf r hr
      rw [i4 off buf r hr]
      have := Log.logsRead_eq ⟨hmin, hmax⟩ dev c2.cap hr' c2.core.ok hn' (by rw [hup]; exact hlen) off buf
      rw [hup] at this
      generalize Cbor.emitAll _ = msg at this hlen ⊢
      rw [this]
      congr 3
      unfold Log.window
      rw [eq_iff_iff, List.length_take, List.length_drop]
      omega
  · intro pre e post he hse
    have := hst pre e post he hse
    have hcc : S.log.cap = cap := follow_cap _ hs
    rw [← hr.ro, hcc]
    simpa [Nat.add_assoc] using this

/-- What happens in a schedule from boot, for the witnesses below. -/
def eventsOf (cfg : Config) (cap : Nat) (acts : List Act) : Option (List Ev) :=
  (boot 0 cap).map fun log => (run cfg ⟨none, [65], [66], [67], none⟩ (Sys.init log) acts).2

/-- Announced sizes and data read. -/
def uploaded (evs : List Ev) : List (Option (Option Nat)) × List (Option (Bool × Bytes)) :=
  (evs.filterMap fun | .size r => some r | _ => none, evs.filterMap fun | .data _ _ r => some r | _ => none)

/-- C105 is false of the code in general: three logs are counted; before the context is written, another
task saves a log that takes the place of two of them. The upload announces three logs, has two, and is
not CBOR. -/
theorem C105_false_stale :
    (eventsOf ⟨8, false, true⟩ 11
      [.op (.save 1 0 [97] none), .op (.save 1 0 [98] none), .op (.save 1 0 [99] none), .trigger 0,
       .trigStep 0 none, .op (.save 1 0 [100, 101, 102, 103] none), .trigStep 0 none,
       .trigStep 0 none, .trigStep 0 none, .has, .upStep, .upStep, .read 0 (List.replicate 25 0),
       .upStep, .upStep]).map uploaded =
      some ([some (some 25)], [some (true, [166, 2, 4, 3, 1, 10, 97, 65, 9, 97, 66, 6, 97, 67, 4, 134,
        1, 97, 99, 1, 100, 100, 101, 102, 103])]) ∧
    (Spec.Cbor.decode [166, 2, 4, 3, 1, 10, 97, 65, 9, 97, 66, 6, 97, 67, 4, 134, 1, 97, 99,
      1, 100, 100, 101, 102, 103]).isNone = true := by
  decide +kernel

/-- C105: two tasks count the same log. The first one's collection is uploaded and marked as sent; then the second
one writes its context. A message is uploaded that announces a log, has none, and is not CBOR. -/
theorem C105_false_twice :
    (eventsOf ⟨8, false, true⟩ 15
      [.op (.save 1 0 [97] none), .trigger 0, .trigger 1, .trigStep 0 none, .trigStep 1 none,
       .trigStep 0 none, .trigStep 0 none, .trigStep 0 none, .has, .upStep, .upStep, .read 0 (List.replicate 19 0),
       .upStep, .upStep, .mark, .upStep, .upStep, .trigStep 1 none, .trigStep 1 none, .trigStep 1 none, .has,
       .upStep, .upStep, .read 0 (List.replicate 16 0), .upStep, .upStep]).map uploaded =
      some ([some (some 19), some (some 16)],
        [some (true, [166, 2, 4, 3, 1, 10, 97, 65, 9, 97, 66, 6, 97, 67, 4, 130, 1, 97, 97]),
         some (true, [166, 2, 4, 3, 1, 10, 97, 65, 9, 97, 66, 6, 97, 67, 4, 130])]) ∧
    (Spec.Cbor.decode [166, 2, 4, 3, 1, 10, 97, 65, 9, 97, 66, 6, 97, 67, 4, 130]).isNone = true := by
  decide +kernel

/-- C105: the uploader looks at the context after `triggered` was written and before the time was. The
announced size is that of a message without a time, so that the end of the message is cut off. -/
theorem C105_false_peek :
    (eventsOf ⟨8, false, true⟩ 15
      [.op (.save 1 0 [97] none), .trigger 0, .trigStep 0 none, .trigStep 0 none, .has, .upStep,
       .trigStep 0 (some 5), .trigStep 0 none, .upStep, .read 0 (List.replicate 19 0), .upStep,
       .upStep]).map uploaded =
      some ([some (some 19)],
        [some (true, [167, 2, 4, 3, 1, 10, 97, 65, 9, 97, 66, 6, 97, 67, 1, 5, 4, 130, 1])]) ∧
    (Spec.Cbor.decode [167, 2, 4, 3, 1, 10, 97, 65, 9, 97, 66, 6, 97, 67, 1, 5, 4, 130, 1]).isNone =
      true := by
  decide +kernel

/-- A schedule that meets the hypotheses: two tasks trigger, and logs are saved while the context is set up and
while it is uploaded. -/
example :
    let acts : List Act := [.op (.save 1 0 [97] none), .trigger 0, .trigger 1, .trigStep 0 none,
      .op (.save 2 1 [98, 99] none), .trigStep 1 none, .trigStep 1 none, .op (.save 1 0 [100] none),
      .trigStep 0 none, .trigStep 1 (some 7), .trigStep 1 none, .trigStep 0 none, .has,
      .op (.save 1 0 [101] none), .upStep, .upStep, .read 0 (List.replicate 25 0), .upStep,
      .op (.save 1 0 [102] none), .upStep, .mark, .upStep, .upStep, .op .unsentCount]
    let msg : Bytes := [167, 2, 4, 3, 1, 10, 97, 65, 9, 97, 66, 6, 97, 67, 1, 7, 4, 132, 1, 97, 97, 2, 66, 98, 99]
    (eventsOf ⟨8, false, true⟩ 32 acts).map uploaded = some ([some (some 25)], [some (true, msg)]) ∧
    ((eventsOf ⟨8, false, true⟩ 32 acts).bind List.getLast?) = some (.op .unsentCount (some (.count 2))) ∧
    ((eventsOf ⟨8, false, true⟩ 32 acts).bind fun evs =>
      (follow ⟨8, false, true⟩ (Spec.LogRace.init 0 32) evs).map fun S => unsent S.log.entries) = some 2 ∧
    (Spec.Cbor.decode msg).isSome = true := by
  decide +kernel

end Mflt.Props
