import Verif.Lemmas.MetricsGood

/-! # Lemmas: what is reported over time -/

namespace Mflt.Metrics

open Spec.Metrics
open Spec.Cbor (Item)

theorem acts_rel {dev : SerializerHelper.Device} (hd : Spec.Event.DeviceOk dev) {tab : Table}
    (ht : TableOk tab) {session : Nat} : ∀ (as : List Act) {st : State} {s : Spec.Metrics.State}
      {es : List (Option Item)} {s' : Spec.Metrics.State}, Rel tab st s →
      runActs dev (tab.map keyOf) session s as = some (es, s') →
      ∃ st', execActs dev tab session st as = some (es, st') ∧ Rel tab st' s' := by
  intro as
  induction as with
  | nil =>
    intro st s es s' h hs
    obtain ⟨rfl, rfl⟩ : [] = es ∧ s = s' := by simpa [runActs] using hs
    exact ⟨st, rfl, h⟩
  | cons a as ih =>
    intro st s es s' h hs
    cases a with
    | call op =>
      rw [runActs] at hs
      obtain ⟨⟨o, s1⟩, h1, h2⟩ := Option.bind_eq_some_iff.mp hs
      obtain ⟨st1, a1, a2⟩ := step_rel hd ht h h1
      obtain ⟨st2, b1, b2⟩ := ih a2 h2
      exact ⟨st2, by simp [execActs, a1, b1], b2⟩
    | flush time =>
      rw [runActs] at hs
      obtain ⟨⟨o, s1⟩, h1, h2⟩ := Option.bind_eq_some_iff.mp hs
      obtain ⟨⟨o2, s2⟩, h3, h4⟩ := Option.bind_eq_some_iff.mp h2
      obtain ⟨⟨es2, s3⟩, h5, h6⟩ := Option.map_eq_some_iff.mp h4
      obtain ⟨st1, a1, a2⟩ := step_rel hd ht h h1
      obtain ⟨st2, b1, b2⟩ := step_rel hd ht a2 h3
      obtain ⟨st3, c1, c2⟩ := ih b2 h5
      obtain ⟨rfl, rfl⟩ := Prod.mk.injEq .. ▸ h6
      refine ⟨st3, ?_, c2⟩
      simp only [execActs, a1, Option.bind_some, b1, c1, Option.map_some]

theorem filter_get {α} {p : α → Bool} {l : List α} {k : Nat} {a : α} (h : l[k]? = some a)
    (hp : p a = true) : (l.filter p)[((l.take k).filter p).length]? = some a := by
  have h1 : l = l.take (k + 1) ++ l.drop (k + 1) := (List.take_append_drop _ _).symm
  have h2 : l.filter p = (l.take k).filter p ++ a :: (l.drop (k + 1)).filter p := by
    have : (l.take (k + 1) ++ l.drop (k + 1)).filter p = l.filter p := by rw [← h1]
    rw [← this, List.filter_append, take_succ_some h, List.filter_append]
    simp [hp]
  rw [h2, List.getElem?_append_right (Nat.le_refl _)]
  simp

theorem reported_get {keys : List Key} (s : Spec.Metrics.State) {session k : Nat} {key : Key}
    (hk : keys[k]? = some key) (hs : key.session = session) :
    (reported keys s session)[position keys session k]? = some (s k).item := by
  have hlt : k < keys.length := (List.getElem?_eq_some_iff.mp hk).1
  unfold reported position
  rw [List.getElem?_map]
  have hr : (List.range keys.length)[k]? = some k := by simp [hlt]
  have ht : (List.range keys.length).take k = List.range k := by
    rw [List.take_range, Nat.min_eq_left (Nat.le_of_lt hlt)]
  have := filter_get (p := fun i => (keys[i]?.map Key.session) == some session) hr (by simp [hk, hs])
  rw [ht] at this
  rw [this]; rfl

theorem eventMetric_get (dev : SerializerHelper.Device) (time : Option Nat) {keys : List Key}
    (s : Spec.Metrics.State) {session k : Nat} {key : Key} (hk : keys[k]? = some key)
    (hs : key.session = session) :
    eventMetric (sessionEvent dev time keys s session) (position keys session k) = some (s k).item := by
  have h : lookup 4 (Spec.Event.metadata dev 1 time ++ [.uint 4,
      .map [.uint 2, .uint session, .uint 1, .array (reported keys s session)]]) =
      some (.map [.uint 2, .uint session, .uint 1, .array (reported keys s session)]) := by
    unfold Spec.Event.metadata
    cases dev.serial <;> cases dev.buildId <;> cases time <;> simp [lookup]
  unfold eventMetric sessionEvent Spec.Event.event
  simp only [h]
  simp [lookup, reported_get s hk hs]

/-- How one call changes the values. -/
theorem step_other {dev : SerializerHelper.Device} {keys : List Key} {s s' : Spec.Metrics.State} {op : Op}
    {o : Out} {k total : Nat} {since : Option Nat} (hty : keys[k]?.map Key.ty = some .timer)
    (hs : s k = .timer total since) (h : step dev keys s op = some (o, s')) :
    match op with
    | .timerStart k' t => s' k = if k' = k ∧ since = none then .timer total (some t) else s k
    | .timerStop k' t => match since with
        | some u => if k' = k then u ≤ t ∧ s' k = .timer (total + (t - u)) none else s' k = s k
        | none => s' k = s k
    | .timerRead k' t => match since with
        | some u => if k' = k then u ≤ t ∧ s' k = .timer (total + (t - u)) (some t) ∧
            o = .num (total + (t - u) : Nat) else s' k = s k
        | none => s' k = s k ∧ (k' = k → o = .num total)
    | .updateTimers times => match since with
        | some u => u ≤ times k ∧ s' k = .timer (total + (times k - u)) (some (times k))
        | none => s' k = s k
    | .clear session => s' k = if keys[k]?.map Key.session = some session then .timer 0 since else s k
    | .clearAll => True
    | _ => s' k = s k := by
  have htick : ∀ {a b c d}, tick a b c = some d → b ≤ c ∧ d = a + (c - b) := by
    intro a b c d h
    unfold tick at h
    split at h
    · rename_i hc; exact ⟨hc.1, by simpa using h.symm⟩
    · cases h
  have hupd : ∀ k' v, (upd s k' v) k = if k' = k then v else s k := by
    intro k' v
    unfold upd
    by_cases h : k = k'
    · rw [if_pos h, if_pos h.symm]
    · rw [if_neg h, if_neg (Ne.symm h)]
  cases op with
  | setSigned k' v =>
    simp only [step] at h
    split at h
    · cases h
    · split at h <;> simp only [Option.some.injEq, Prod.mk.injEq] at h <;> obtain ⟨-, rfl⟩ := h
      · rfl
      · rename_i hk'
        simp only [hupd]
        rw [if_neg]; rintro rfl; rw [hty] at hk'; cases hk'
      · rfl
  | setUnsigned k' v =>
    simp only [step] at h
    split at h
    · cases h
    · split at h <;> simp only [Option.some.injEq, Prod.mk.injEq] at h <;> obtain ⟨-, rfl⟩ := h
      · rfl
      · rename_i hk'
        simp only [hupd]
        rw [if_neg]; rintro rfl; rw [hty] at hk'; cases hk'
      · rfl
  | setText k' v =>
    simp only [step] at h
    split at h
    · cases h
    · split at h <;> simp only [Option.some.injEq, Prod.mk.injEq] at h <;> obtain ⟨-, rfl⟩ := h
      · rename_i hk'
        simp only [hupd]
        rw [if_neg]; rintro rfl; rw [hk'] at hty; cases hty
      · rfl
  | add k' v =>
    simp only [step] at h
    split at h
    · cases h
    · split at h <;> simp only [Option.some.injEq, Prod.mk.injEq] at h <;> obtain ⟨-, rfl⟩ := h
      · rfl
      · rename_i hk' hv
        simp only [hupd]
        rw [if_neg]; rintro rfl; rw [hty] at hk'; cases hk'
      · rename_i hk' hv
        simp only [hupd]
        rw [if_neg]; rintro rfl; rw [hty] at hk'; cases hk'
      · rfl
  | timerStart k' t =>
    simp only [step] at h
    dsimp only
    by_cases hk' : k' = k
    · subst hk'
      rw [hty, hs] at h
      cases since with
      | none =>
        simp only [Option.some.injEq, Prod.mk.injEq] at h
        obtain ⟨-, rfl⟩ := h
        simp [hupd]
      | some u =>
        simp only [Option.some.injEq, Prod.mk.injEq] at h
        obtain ⟨-, rfl⟩ := h
        simp
    · rw [if_neg (fun hc => hk' hc.1)]
      split at h <;> simp only [Option.some.injEq, Prod.mk.injEq] at h <;> obtain ⟨-, rfl⟩ := h <;>
        simp [hupd, hk']
  | timerStop k' t =>
    simp only [step] at h
    dsimp only
    by_cases hk' : k' = k
    · subst hk'
      rw [hty, hs] at h
      cases since with
      | none =>
        simp only [Option.some.injEq, Prod.mk.injEq] at h
        obtain ⟨-, rfl⟩ := h
        simp
      | some u =>
        obtain ⟨d, h1, h2⟩ := Option.map_eq_some_iff.mp h
        obtain ⟨h3, rfl⟩ := htick h1
        simp only [Prod.mk.injEq] at h2
        obtain ⟨-, rfl⟩ := h2
        simp [hupd, h3]
    · have hr : s' k = s k := by
        split at h
        · simp only [Option.some.injEq, Prod.mk.injEq] at h; obtain ⟨-, rfl⟩ := h; rfl
        · obtain ⟨d, h1, h2⟩ := Option.map_eq_some_iff.mp h
          simp only [Prod.mk.injEq] at h2
          obtain ⟨-, rfl⟩ := h2
          simp [hupd, hk']
        · simp only [Option.some.injEq, Prod.mk.injEq] at h; obtain ⟨-, rfl⟩ := h; rfl
        · simp only [Option.some.injEq, Prod.mk.injEq] at h; obtain ⟨-, rfl⟩ := h; rfl
      cases since with
      | none => exact hr
      | some u => simp only [if_neg hk']; exact hr
  | timerRead k' t =>
    simp only [step] at h
    dsimp only
    by_cases hk' : k' = k
    · subst hk'
      rw [hty, hs] at h
      cases since with
      | none =>
        simp only [Option.some.injEq, Prod.mk.injEq] at h
        obtain ⟨rfl, rfl⟩ := h
        simp
      | some u =>
        obtain ⟨d, h1, h2⟩ := Option.map_eq_some_iff.mp h
        obtain ⟨h3, rfl⟩ := htick h1
        simp only [Prod.mk.injEq] at h2
        obtain ⟨rfl, rfl⟩ := h2
        simp [hupd, h3]
    · have hr : s' k = s k := by
        split at h
        · simp only [Option.some.injEq, Prod.mk.injEq] at h; obtain ⟨-, rfl⟩ := h; rfl
        · obtain ⟨d, h1, h2⟩ := Option.map_eq_some_iff.mp h
          simp only [Prod.mk.injEq] at h2
          obtain ⟨-, rfl⟩ := h2
          simp [hupd, hk']
        · simp only [Option.some.injEq, Prod.mk.injEq] at h; obtain ⟨-, rfl⟩ := h; rfl
        · simp only [Option.some.injEq, Prod.mk.injEq] at h; obtain ⟨-, rfl⟩ := h; rfl
      cases since with
      | none => exact ⟨hr, fun hc => absurd hc hk'⟩
      | some u => simp only [if_neg hk']; exact hr
  | readSigned k' =>
    simp only [step] at h
    split at h <;> simp only [Option.some.injEq, Prod.mk.injEq] at h <;> obtain ⟨-, rfl⟩ := h <;> rfl
  | readUnsigned k' =>
    simp only [step] at h
    split at h <;> simp only [Option.some.injEq, Prod.mk.injEq] at h <;> obtain ⟨-, rfl⟩ := h <;> rfl
  | readText k' n =>
    simp only [step] at h
    split at h
    · simp only [Option.some.injEq, Prod.mk.injEq] at h; obtain ⟨-, rfl⟩ := h; rfl
    · split at h <;> simp only [Option.some.injEq, Prod.mk.injEq] at h <;> obtain ⟨-, rfl⟩ := h <;> rfl
  | updateTimers times =>
    simp only [step] at h
    split at h
    · rename_i hc
      simp only [Option.some.injEq, Prod.mk.injEq] at h
      obtain ⟨-, rfl⟩ := h
      have hlt : k < keys.length := by
        cases hk : keys[k]? with
        | none => rw [hk] at hty; cases hty
        | some key => exact (List.getElem?_eq_some_iff.mp hk).1
      have htk := hc k hlt
      cases since with
      | none => simp [hlt, hs, ticked]
      | some u =>
        simp only [hs, ticked, Option.isSome_map] at htk
        obtain ⟨d, hd⟩ := Option.isSome_iff_exists.mp htk
        obtain ⟨h3, rfl⟩ := htick hd
        exact ⟨h3, by simp [hlt, hs, ticked, hd]⟩
    · cases h
  | report session time =>
    simp only [step] at h
    split at h
    · cases h
    · simp only [Option.some.injEq, Prod.mk.injEq] at h; obtain ⟨-, rfl⟩ := h; rfl
  | clear session =>
    simp only [step, Option.some.injEq, Prod.mk.injEq] at h
    obtain ⟨-, rfl⟩ := h
    simp only [hs, cleared]
  | clearAll => trivial

/-- A stop watch and the state of a timer of which `flushed` was already reported. -/
def Matches (w : Watch) (flushed total : Nat) (since : Option Nat) : Prop :=
  match w.since, since with
  | none, none => flushed + total = w.ran
  | some a, some u => a ≤ u ∧ flushed + total = w.ran + (u - a)
  | _, _ => False

theorem timer_acts {dev : SerializerHelper.Device} {keys : List Key} {session k : Nat} {key : Key}
    (hk : keys[k]? = some key) (hty : key.ty = .timer) (hses : key.session = session) :
    ∀ (as : List Act) {s s' : Spec.Metrics.State} {es : List (Option Item)} {total : Nat}
      {since : Option Nat} {w : Watch} {flushed : Nat}, (∀ a ∈ as, a.ok session) →
      s k = .timer total since → Matches w flushed total since →
      runActs dev keys session s as = some (es, s') →
      ∃ (vals : List Nat) (total' : Nat) (since' : Option Nat), es.map (fun e => e.bind fun e => eventMetric e (position keys session k)) =
          vals.map (fun v => some (Item.uint v)) ∧ s' k = .timer total' since' ∧
        Matches (as.foldl (Watch.act k) w) (flushed + vals.sum) total' since' := by
  have hty' : keys[k]?.map Key.ty = some .timer := by rw [hk]; simp [hty]
  intro as
  induction as with
  | nil =>
    intro s s' es total since w flushed _ hs hm h
    obtain ⟨rfl, rfl⟩ : [] = es ∧ s = s' := by simpa [runActs] using h
    exact ⟨[], total, since, rfl, hs, by simpa using hm⟩
  | cons a as ih =>
    intro s s' es total since w flushed hok hs hm h
    have hok' : ∀ a ∈ as, a.ok session := fun a ha => hok a (by simp [ha])
    have hoka := hok a (by simp)
    cases a with
    | call op =>
      rw [runActs] at h
      obtain ⟨⟨o, s1⟩, h1, h2⟩ := Option.bind_eq_some_iff.mp h
      have hst := step_other hty' hs h1
      simp only [List.foldl_cons]
      have same : s1 k = s k → Watch.act k w (.call op) = w →
          ∃ (vals : List Nat) (total' : Nat) (since' : Option Nat), es.map (fun e => e.bind fun e => eventMetric e (position keys session k)) =
            vals.map (fun v => some (Item.uint v)) ∧ s' k = .timer total' since' ∧
            Matches (as.foldl (Watch.act k) (Watch.act k w (.call op))) (flushed + vals.sum) total' since' := by
        intro e1 e2
        rw [e2]
        exact ih hok' (show s1 k = _ by rw [e1]; exact hs) hm h2
      cases op with
      | setSigned k' v => exact same hst rfl
      | setUnsigned k' v => exact same hst rfl
      | setText k' v => exact same hst rfl
      | add k' v => exact same hst rfl
      | readSigned k' => exact same hst rfl
      | readUnsigned k' => exact same hst rfl
      | readText k' n => exact same hst rfl
      | report s1 t => exact same hst rfl
      | timerStart k' t =>
        simp only at hst
        by_cases hc : k' = k ∧ since = none
        · obtain ⟨rfl, rfl⟩ := hc
          rw [if_pos ⟨rfl, rfl⟩] at hst
          have hw : w.since = none ∧ flushed + total = w.ran := by
            unfold Matches at hm
            cases hw : w.since with
            | none => rw [hw] at hm; exact ⟨rfl, hm⟩
            | some a => rw [hw] at hm; exact hm.elim
          refine ih hok' hst ?_ h2
          simp [Watch.act, hw.1, Matches, hw.2]
        · rw [if_neg hc] at hst
          refine same hst ?_
          simp only [Watch.act]
          rw [if_neg]
          rintro ⟨rfl, hw⟩
          refine hc ⟨rfl, ?_⟩
          unfold Matches at hm
          rw [hw] at hm
          cases since with
          | none => rfl
          | some u => exact hm.elim
      | timerStop k' t =>
        simp only at hst
        cases since with
        | none =>
          refine same hst ?_
          have hw : w.since = none := by
            unfold Matches at hm
            cases hw : w.since with
            | none => rfl
            | some a => rw [hw] at hm; exact hm.elim
          simp [Watch.act, hw]
        | some u =>
          simp only at hst
          have hw : ∃ a, w.since = some a ∧ a ≤ u ∧ flushed + total = w.ran + (u - a) := by
            unfold Matches at hm
            cases hw : w.since with
            | none => rw [hw] at hm; exact hm.elim
            | some a => rw [hw] at hm; exact ⟨a, rfl, hm⟩
          obtain ⟨a, w1, w2, w3⟩ := hw
          by_cases hc : k' = k
          · rw [if_pos hc] at hst
            refine ih hok' hst.2 ?_ h2
            have := hst.1
            simp only [Watch.act, w1, if_pos hc, Matches]
            omega
          · rw [if_neg hc] at hst
            refine same hst ?_
            simp [Watch.act, w1, hc]
      | timerRead k' t =>
        simp only at hst
        cases since with
        | none => exact same hst.1 rfl
        | some u =>
          simp only at hst
          by_cases hc : k' = k
          · rw [if_pos hc] at hst
            refine ih hok' hst.2.1 ?_ h2
            have := hst.1
            unfold Matches at hm ⊢
            simp only [Watch.act]
            cases hw : w.since with
            | none => rw [hw] at hm; exact hm.elim
            | some a => rw [hw] at hm; simp only at hm ⊢; omega
          · rw [if_neg hc] at hst
            exact same hst rfl
      | updateTimers times =>
        simp only at hst
        cases since with
        | none => exact same hst rfl
        | some u =>
          simp only at hst
          refine ih hok' hst.2 ?_ h2
          have := hst.1
          unfold Matches at hm ⊢
          simp only [Watch.act]
          cases hw : w.since with
          | none => rw [hw] at hm; exact hm.elim
          | some a => rw [hw] at hm; simp only at hm ⊢; omega
      | clear s2 =>
        simp only [Act.ok] at hoka
        simp only [hk, Option.map_some, hses] at hst
        rw [if_neg (fun hc => hoka (Option.some.inj hc).symm)] at hst
        exact same hst rfl
      | clearAll => simp only [Act.ok] at hoka
    | flush time =>
      rw [runActs] at h
      obtain ⟨⟨o, s1⟩, h1, h2⟩ := Option.bind_eq_some_iff.mp h
      obtain ⟨⟨o2, s2⟩, h3, h4⟩ := Option.bind_eq_some_iff.mp h2
      obtain ⟨⟨es2, s3⟩, h5, h6⟩ := Option.map_eq_some_iff.mp h4
      obtain ⟨rfl, rfl⟩ := Prod.mk.injEq .. ▸ h6
      simp only [step] at h1
      split at h1
      · cases h1
      simp only [Option.some.injEq, Prod.mk.injEq] at h1
      obtain ⟨rfl, rfl⟩ := h1
      have hst := step_other hty' hs h3
      simp only [hk, Option.map_some, hses, if_true] at hst
      obtain ⟨vals, t', s', a1, a2, a3⟩ := ih (w := w) (flushed := flushed + total) hok' hst (by
        unfold Matches at hm ⊢
        cases hw : w.since with
        | none =>
          rw [hw] at hm
          cases since with
          | none => simpa using hm
          | some u => exact hm.elim
        | some a =>
          rw [hw] at hm
          cases since with
          | none => exact hm.elim
          | some u => simpa using hm) h5
      refine ⟨total :: vals, t', s', ?_, a2, ?_⟩
      · simp only [List.map_cons, Out.event?, Option.bind_some, eventMetric_get dev time s hk hses, hs]
        rw [a1]; rfl
      · simpa [Watch.act, Nat.add_assoc] using a3

/-! ## Counters -/

/-- The range of a counter. -/
def InRange (ty : Ty) (lo hi : Int) : Prop :=
  (ty = .signed ∧ lo = -2147483648 ∧ hi = 2147483647) ∨ (ty = .unsigned ∧ lo = 0 ∧ hi = 4294967295)

/-- How one call changes an integer. -/
theorem step_int {dev : SerializerHelper.Device} {keys : List Key} {s s' : Spec.Metrics.State} {op : Op}
    {o : Out} {k : Nat} {ty : Ty} {lo hi : Int} {v : Option Int} (hty : keys[k]?.map Key.ty = some ty)
    (hr : InRange ty lo hi) (hs : s k = .int v) (h : step dev keys s op = some (o, s')) :
    match op with
    | .setSigned k' _ => k' = k ∨ s' k = s k
    | .setUnsigned k' _ => k' = k ∨ s' k = s k
    | .add k' a => s' k = if k' = k then .int (some (clamp lo hi (v.getD 0 + a))) else s k
    | .clear session => s' k = if keys[k]?.map Key.session = some session then .int none else s k
    | .clearAll => True
    | _ => s' k = s k := by
  have hupd : ∀ k' v, (upd s k' v) k = if k' = k then v else s k := by
    intro k' v
    unfold upd
    by_cases h : k = k'
    · rw [if_pos h, if_pos h.symm]
    · rw [if_neg h, if_neg (Ne.symm h)]
  have hnt : ty ≠ .timer := by rcases hr with ⟨rfl, -⟩ | ⟨rfl, -⟩ <;> simp
  have hnx : ty ≠ .text := by rcases hr with ⟨rfl, -⟩ | ⟨rfl, -⟩ <;> simp
  have hnk : ∀ {k' ty'}, keys[k']?.map Key.ty = some ty' → ty ≠ ty' → k' ≠ k := by
    rintro k' ty' h1 h2 rfl
    rw [hty] at h1
    exact h2 (Option.some.inj h1)
  cases op with
  | setSigned k' v =>
    simp only [step] at h
    by_cases hk : k' = k
    · exact .inl hk
    · right
      split at h
      · cases h
      · split at h <;> simp only [Option.some.injEq, Prod.mk.injEq] at h <;> obtain ⟨-, rfl⟩ := h <;>
          simp [hupd, hk]
  | setUnsigned k' v =>
    simp only [step] at h
    by_cases hk : k' = k
    · exact .inl hk
    · right
      split at h
      · cases h
      · split at h <;> simp only [Option.some.injEq, Prod.mk.injEq] at h <;> obtain ⟨-, rfl⟩ := h <;>
          simp [hupd, hk]
  | setText k' t =>
    simp only [step] at h
    split at h
    · cases h
    · split at h <;> simp only [Option.some.injEq, Prod.mk.injEq] at h <;> obtain ⟨-, rfl⟩ := h
      · rename_i hk'
        simp only [hupd]
        rw [if_neg (hnk (by rw [hk']; rfl) hnx)]
      · rfl
  | add k' a =>
    simp only [step] at h
    split at h
    · cases h
    · dsimp only
      by_cases hk : k' = k
      · subst hk
        rw [hty, hs] at h
        rw [if_pos rfl]
        rcases hr with ⟨rfl, rfl, rfl⟩ | ⟨rfl, rfl, rfl⟩ <;>
          simp only [Option.some.injEq, Prod.mk.injEq] at h <;> obtain ⟨-, rfl⟩ := h <;> simp [hupd]
      · rw [if_neg hk]
        split at h <;> simp only [Option.some.injEq, Prod.mk.injEq] at h <;> obtain ⟨-, rfl⟩ := h <;>
          simp [hupd, hk]
  | timerStart k' t =>
    simp only [step] at h
    split at h <;> simp only [Option.some.injEq, Prod.mk.injEq] at h <;> obtain ⟨-, rfl⟩ := h
    · rfl
    · rename_i hk' _
      simp only [hupd]
      rw [if_neg (hnk hk' hnt)]
    · rfl
    · rfl
  | timerStop k' t =>
    simp only [step] at h
    split at h
    · simp only [Option.some.injEq, Prod.mk.injEq] at h; obtain ⟨-, rfl⟩ := h; rfl
    · rename_i hk' _
      obtain ⟨d, h1, h2⟩ := Option.map_eq_some_iff.mp h
      simp only [Prod.mk.injEq] at h2
      obtain ⟨-, rfl⟩ := h2
      simp only [hupd]
      rw [if_neg (hnk hk' hnt)]
    · simp only [Option.some.injEq, Prod.mk.injEq] at h; obtain ⟨-, rfl⟩ := h; rfl
    · simp only [Option.some.injEq, Prod.mk.injEq] at h; obtain ⟨-, rfl⟩ := h; rfl
  | timerRead k' t =>
    simp only [step] at h
    split at h
    · simp only [Option.some.injEq, Prod.mk.injEq] at h; obtain ⟨-, rfl⟩ := h; rfl
    · rename_i hk' _
      obtain ⟨d, h1, h2⟩ := Option.map_eq_some_iff.mp h
      simp only [Prod.mk.injEq] at h2
      obtain ⟨-, rfl⟩ := h2
      simp only [hupd]
      rw [if_neg (hnk hk' hnt)]
    · simp only [Option.some.injEq, Prod.mk.injEq] at h; obtain ⟨-, rfl⟩ := h; rfl
    · simp only [Option.some.injEq, Prod.mk.injEq] at h; obtain ⟨-, rfl⟩ := h; rfl
  | readSigned k' =>
    simp only [step] at h
    split at h <;> simp only [Option.some.injEq, Prod.mk.injEq] at h <;> obtain ⟨-, rfl⟩ := h <;> rfl
  | readUnsigned k' =>
    simp only [step] at h
    split at h <;> simp only [Option.some.injEq, Prod.mk.injEq] at h <;> obtain ⟨-, rfl⟩ := h <;> rfl
  | readText k' n =>
    simp only [step] at h
    split at h
    · simp only [Option.some.injEq, Prod.mk.injEq] at h; obtain ⟨-, rfl⟩ := h; rfl
    · split at h <;> simp only [Option.some.injEq, Prod.mk.injEq] at h <;> obtain ⟨-, rfl⟩ := h <;> rfl
  | updateTimers times =>
    simp only [step] at h
    split at h
    · simp only [Option.some.injEq, Prod.mk.injEq] at h
      obtain ⟨-, rfl⟩ := h
      simp only [hs, ticked]
      simp
    · cases h
  | report session time =>
    simp only [step] at h
    split at h
    · cases h
    · simp only [Option.some.injEq, Prod.mk.injEq] at h; obtain ⟨-, rfl⟩ := h; rfl
  | clear session =>
    simp only [step, Option.some.injEq, Prod.mk.injEq] at h
    obtain ⟨-, rfl⟩ := h
    simp only [hs, cleared]
  | clearAll => trivial

theorem clamp_id {lo hi v : Int} (h1 : lo ≤ v) (h2 : v ≤ hi) : clamp lo hi v = v := by
  unfold clamp
  rw [if_neg (by omega), if_neg (by omega)]

theorem counter_acts {dev : SerializerHelper.Device} {keys : List Key} {session k : Nat} {key : Key}
    {lo hi : Int} (hk : keys[k]? = some key) (hr : InRange key.ty lo hi) (hses : key.session = session) :
    ∀ (as : List Act) {s s' : Spec.Metrics.State} {es : List (Option Item)} {v : Option Int},
      (∀ a ∈ as, a.ok session) → countable k lo hi (v.getD 0) as → s k = .int v →
      runActs dev keys session s as = some (es, s') →
      ∃ (vals : List (Option Int)) (v' : Option Int),
        es.map (fun e => e.bind fun e => eventMetric e (position keys session k)) =
          vals.map (fun v => some (v.elim Item.null Item.int)) ∧ s' k = .int v' ∧
        (vals.map fun v => v.getD 0).sum + v'.getD 0 = v.getD 0 + added k as := by
  have hty' : keys[k]?.map Key.ty = some key.ty := by rw [hk]; rfl
  intro as
  induction as with
  | nil =>
    intro s s' es v _ _ hs h
    obtain ⟨rfl, rfl⟩ : [] = es ∧ s = s' := by simpa [runActs] using h
    exact ⟨[], v, rfl, hs, by simp [added]⟩
  | cons a as ih =>
    intro s s' es v hok hc hs h
    have hok' : ∀ a ∈ as, a.ok session := fun a ha => hok a (by simp [ha])
    have hoka := hok a (by simp)
    cases a with
    | call op =>
      rw [runActs] at h
      obtain ⟨⟨o, s1⟩, h1, h2⟩ := Option.bind_eq_some_iff.mp h
      have hst := step_int hty' hr hs h1
      have same : s1 k = s k → countable k lo hi (v.getD 0) as → added k (.call op :: as) = added k as →
          ∃ (vals : List (Option Int)) (v' : Option Int),
            es.map (fun e => e.bind fun e => eventMetric e (position keys session k)) =
              vals.map (fun v => some (v.elim Item.null Item.int)) ∧ s' k = .int v' ∧
            (vals.map fun v => v.getD 0).sum + v'.getD 0 = v.getD 0 + added k (.call op :: as) := by
        intro e1 e2 e3
        rw [e3]
        exact ih hok' e2 (show s1 k = _ by rw [e1]; exact hs) h2
      cases op with
      | setSigned k' x =>
        simp only [countable] at hc
        exact same (hst.resolve_left hc.1) hc.2 rfl
      | setUnsigned k' x =>
        simp only [countable] at hc
        exact same (hst.resolve_left hc.1) hc.2 rfl
      | setText k' x => exact same hst hc rfl
      | add k' x =>
        simp only at hst
        simp only [countable] at hc
        by_cases hkk : k' = k
        · rw [if_pos hkk] at hst hc
          rw [clamp_id hc.1 hc.2.1] at hst
          obtain ⟨vals, v', a1, a2, a3⟩ := ih (v := some (v.getD 0 + x)) hok' hc.2.2 hst h2
          refine ⟨vals, v', a1, a2, ?_⟩
          simp only [added, if_pos hkk]
          simp only [Option.getD_some] at a3
          omega
        · rw [if_neg hkk] at hst hc
          exact same hst hc (by simp [added, hkk])
      | timerStart k' t => exact same hst hc rfl
      | timerStop k' t => exact same hst hc rfl
      | timerRead k' t => exact same hst hc rfl
      | readSigned k' => exact same hst hc rfl
      | readUnsigned k' => exact same hst hc rfl
      | readText k' n => exact same hst hc rfl
      | updateTimers times => exact same hst hc rfl
      | report s1 t => exact same hst hc rfl
      | clear s2 =>
        simp only [Act.ok] at hoka
        simp only [hk, Option.map_some, hses] at hst
        rw [if_neg (fun hc => hoka (Option.some.inj hc).symm)] at hst
        exact same hst hc rfl
      | clearAll => simp only [Act.ok] at hoka
    | flush time =>
      rw [runActs] at h
      obtain ⟨⟨o, s1⟩, h1, h2⟩ := Option.bind_eq_some_iff.mp h
      obtain ⟨⟨o2, s2⟩, h3, h4⟩ := Option.bind_eq_some_iff.mp h2
      obtain ⟨⟨es2, s3⟩, h5, h6⟩ := Option.map_eq_some_iff.mp h4
      obtain ⟨rfl, rfl⟩ := Prod.mk.injEq .. ▸ h6
      simp only [step] at h1
      split at h1
      · cases h1
      simp only [Option.some.injEq, Prod.mk.injEq] at h1
      obtain ⟨rfl, rfl⟩ := h1
      have hst := step_int hty' hr hs h3
      simp only [hk, Option.map_some, hses, if_true] at hst
      simp only [countable] at hc
      obtain ⟨vals, v', a1, a2, a3⟩ := ih (v := none) hok' hc hst h5
      refine ⟨v :: vals, v', ?_, a2, ?_⟩
      · simp only [List.map_cons, Out.event?, Option.bind_some, eventMetric_get dev time s hk hses, hs]
        rw [a1]
        cases v <;> rfl
      · simp only [added, List.map_cons, List.sum_cons]
        simp only [Option.getD_none] at a3
        omega

end Mflt.Metrics
