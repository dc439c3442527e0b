import Verif.Lemmas.MetricsActs
import Verif.Lemmas.MetricsGood
import Verif.Lemmas.RebootTracking
import Verif.Spec.MetricsSession

/-! # Lemmas: metrics sessions -/

namespace Mflt.Session

open Spec.Metrics Spec.Session
open Spec.Cbor (Item)

/-- A value of the type. -/
def Shaped : Ty → Val → Prop
  | .unsigned, .int _ => True
  | .signed, .int _ => True
  | .timer, .timer _ _ => True
  | .text, .text _ => True
  | _, _ => False

theorem rel_shaped {tab : Metrics.Table} {st : Metrics.State} {s : Spec.Metrics.State}
    (h : Metrics.Rel tab st s) {k : Nat} {key : Key} (hk : (tab.map Metrics.keyOf)[k]? = some key) :
    Shaped key.ty (s k) := by
  rw [Metrics.keys_get] at hk
  obtain ⟨kv, h1, rfl⟩ := Option.map_eq_some_iff.mp hk
  show Shaped (Metrics.tyOf kv.type) (s k)
  rcases h.cases h1 with ⟨hn, w, f, o, -, h2, -⟩ | ⟨hn, w, m, total, since, -, h2, -⟩ | ⟨hn, buf, t, -, h2, -⟩
  · rw [h2]; rcases hn with hn | hn <;> rw [hn] <;> trivial
  · rw [h2, hn]; trivial
  · rw [h2, hn]; trivial

theorem upd_apply (s : Spec.Metrics.State) (k' k : Nat) (v : Val) :
    (upd s k' v) k = if k' = k then v else s k := by
  unfold upd
  by_cases h : k = k'
  · rw [if_pos h, if_pos h.symm]
  · rw [if_neg h, if_neg (Ne.symm h)]

/-- What a call does to a metric that is not a timer. -/
theorem step_recorded {dev : SerializerHelper.Device} {keys : List Key} {s s' : Spec.Metrics.State} {op : Op}
    {o : Out} {k : Nat} {key : Key} (hk : keys[k]? = some key) (hty : key.ty ≠ .timer)
    (hsh : Shaped key.ty (s k)) {t : Nat} (hq : quiet key.session t op)
    (h : step dev keys s op = some (o, s')) : s' k = recorded key k (s k) op := by
  have hnt : ∀ a b, s k ≠ .timer a b := by
    intro a b he; rw [he] at hsh; cases hx : key.ty <;> simp_all [Shaped]
  cases op with
  | setSigned k' v =>
    simp only [step] at h
    split at h
    · cases h
    by_cases hkk : k' = k
    · subst hkk
      rw [hk] at h
      simp only [recorded, true_and]
      cases hx : key.ty <;> simp [hx] at h <;> obtain ⟨-, rfl⟩ := h <;> simp [upd_apply]
    · simp only [recorded, hkk, false_and, if_false]
      split at h <;> simp only [Option.some.injEq, Prod.mk.injEq] at h <;> obtain ⟨-, rfl⟩ := h <;>
        simp [upd_apply, hkk]
  | setUnsigned k' v =>
    simp only [step] at h
    split at h
    · cases h
    by_cases hkk : k' = k
    · subst hkk
      rw [hk] at h
      simp only [recorded, true_and]
      cases hx : key.ty <;> simp [hx] at h <;> obtain ⟨-, rfl⟩ := h <;> simp [upd_apply]
    · simp only [recorded, hkk, false_and, if_false]
      split at h <;> simp only [Option.some.injEq, Prod.mk.injEq] at h <;> obtain ⟨-, rfl⟩ := h <;>
        simp [upd_apply, hkk]
  | setText k' v =>
    simp only [step] at h
    split at h
    · cases h
    by_cases hkk : k' = k
    · subst hkk
      rw [hk] at h
      simp only [recorded, true_and]
      obtain ⟨ty, ml, ses⟩ := key
      cases ty <;> simp at h <;> obtain ⟨-, rfl⟩ := h <;> simp [upd_apply]
    · simp only [recorded, hkk, false_and, if_false]
      split at h <;> simp only [Option.some.injEq, Prod.mk.injEq] at h <;> obtain ⟨-, rfl⟩ := h <;>
        simp [upd_apply, hkk]
  | add k' a =>
    simp only [step] at h
    split at h
    · cases h
    by_cases hkk : k' = k
    · subst hkk
      rw [hk] at h
      generalize hv : s k' = v at *
      cases hx : key.ty <;> cases v <;> simp_all [Shaped, recorded] <;> obtain ⟨-, rfl⟩ := h <;>
        simp [upd_apply, hv]
    · have e : recorded key k (s k) (.add k' a) = s k := by
        simp only [recorded, hkk, if_false]; split <;> simp_all
      rw [e]
      split at h <;> simp only [Option.some.injEq, Prod.mk.injEq] at h <;> obtain ⟨-, rfl⟩ := h <;>
        simp [upd_apply, hkk]
  | timerStart k' t' =>
    simp only [step] at h
    simp only [recorded]
    split at h <;> simp only [Option.some.injEq, Prod.mk.injEq] at h <;> obtain ⟨-, rfl⟩ := h <;>
      (try rfl)
    rename_i h1 h2
    rw [upd_apply, if_neg]
    rintro rfl; exact hnt _ _ h2
  | timerStop k' t' =>
    simp only [step] at h
    simp only [recorded]
    split at h
    · simp only [Option.some.injEq, Prod.mk.injEq] at h; rw [h.2]
    · rename_i h1 h2
      obtain ⟨d, -, h3⟩ := Option.map_eq_some_iff.mp h
      simp only [Prod.mk.injEq] at h3
      rw [← h3.2, upd_apply, if_neg]
      rintro rfl; exact hnt _ _ h2
    · simp only [Option.some.injEq, Prod.mk.injEq] at h; rw [h.2]
    · simp only [Option.some.injEq, Prod.mk.injEq] at h; rw [h.2]
  | timerRead k' t' =>
    simp only [step] at h
    simp only [recorded]
    split at h
    · simp only [Option.some.injEq, Prod.mk.injEq] at h; rw [h.2]
    · rename_i h1 h2
      obtain ⟨d, -, h3⟩ := Option.map_eq_some_iff.mp h
      simp only [Prod.mk.injEq] at h3
      rw [← h3.2, upd_apply, if_neg]
      rintro rfl; exact hnt _ _ h2
    · simp only [Option.some.injEq, Prod.mk.injEq] at h; rw [h.2]
    · simp only [Option.some.injEq, Prod.mk.injEq] at h; rw [h.2]
  | readSigned k' =>
    simp only [step] at h
    split at h <;> simp only [Option.some.injEq, Prod.mk.injEq] at h <;> obtain ⟨-, rfl⟩ := h <;> rfl
  | readUnsigned k' =>
    simp only [step] at h
    split at h <;> simp only [Option.some.injEq, Prod.mk.injEq] at h <;> obtain ⟨-, rfl⟩ := h <;> rfl
  | readText k' n =>
    simp only [step] at h
    split at h
    · simp only [Option.some.injEq, Prod.mk.injEq] at h; obtain ⟨-, rfl⟩ := h; rfl
    · split at h <;> simp only [Option.some.injEq, Prod.mk.injEq] at h <;> obtain ⟨-, rfl⟩ := h <;> rfl
  | updateTimers times =>
    simp only [step] at h
    split at h
    · simp only [Option.some.injEq, Prod.mk.injEq] at h
      rw [← h.2]
      have e : ticked (s k) (times k) = some (s k) := by
        generalize s k = v at *
        cases v with
        | timer a b => exact absurd rfl (hnt a b)
        | int _ => rfl
        | text _ => rfl
      simp only [e, Option.getD_some, ite_self]; rfl
    · cases h
  | report session time =>
    simp only [step] at h
    split at h
    · cases h
    · simp only [Option.some.injEq, Prod.mk.injEq] at h; rw [h.2]; rfl
  | clear session =>
    simp only [step, Option.some.injEq, Prod.mk.injEq] at h
    rw [← h.2]
    have : key.session ≠ session := fun he => hq he.symm
    simp [hk, this, recorded]
  | clearAll => exact absurd hq (by simp [quiet])

theorem recorded_shaped {key : Key} {k : Nat} {v : Val} {op : Op} (h : Shaped key.ty v) :
    Shaped key.ty (recorded key k v op) := by
  cases op <;> simp only [recorded] <;> (try exact h)
  case add k' a =>
    by_cases hkk : k' = k <;> cases hx : key.ty <;> cases v <;> simp_all [Shaped]
  all_goals (split; rename_i hc; simp [hc.2, Shaped]; exact h)

theorem run_recorded {dev : SerializerHelper.Device} {keys : List Key} {k : Nat} {key : Key}
    (hk : keys[k]? = some key) (hty : key.ty ≠ .timer) {t : Nat} : ∀ (ops : List Op)
    {s s' : Spec.Metrics.State} {os : List Out}, Shaped key.ty (s k) → (∀ op ∈ ops, quiet key.session t op) →
    Spec.Metrics.run dev keys s ops = some (os, s') → s' k = ops.foldl (recorded key k) (s k) := by
  intro ops
  induction ops with
  | nil =>
    intro s s' os _ _ h
    simp only [Spec.Metrics.run, Option.some.injEq, Prod.mk.injEq] at h
    rw [← h.2]; rfl
  | cons op ops ih =>
    intro s s' os hsh hq h
    simp only [Spec.Metrics.run] at h
    obtain ⟨⟨o, s1⟩, h1, h2⟩ := Option.bind_eq_some_iff.mp h
    obtain ⟨⟨os', s2⟩, h3, h4⟩ := Option.map_eq_some_iff.mp h2
    simp only [Prod.mk.injEq] at h4
    have e := step_recorded hk hty hsh (hq op (by simp)) h1
    have := ih (s := s1) (by rw [e]; exact recorded_shaped hsh) (fun op hop => hq op (by simp [hop])) h3
    rw [← h4.2, this, e]; rfl

/-- A running timer of the session keeps the time of its start. -/
theorem run_timer {dev : SerializerHelper.Device} {keys : List Key} {k : Nat} {key : Key}
    (hk : keys[k]? = some key) (hty : key.ty = .timer) (t1 : Nat) : ∀ (ops : List Op)
    {s s' : Spec.Metrics.State} {os : List Out}, (∃ u, t1 ≤ u ∧ s k = .timer (u - t1) (some u)) →
    (∀ op ∈ ops, quiet key.session k op) →
    Spec.Metrics.run dev keys s ops = some (os, s') → ∃ u, t1 ≤ u ∧ s' k = .timer (u - t1) (some u) := by
  intro ops
  induction ops with
  | nil =>
    intro s s' os hs _ h
    simp only [Spec.Metrics.run, Option.some.injEq, Prod.mk.injEq] at h
    rw [← h.2]; exact hs
  | cons op ops ih =>
    intro s s' os hs hq h
    simp only [Spec.Metrics.run] at h
    obtain ⟨⟨o, s1⟩, h1, h2⟩ := Option.bind_eq_some_iff.mp h
    obtain ⟨⟨os', s2⟩, h3, h4⟩ := Option.map_eq_some_iff.mp h2
    simp only [Prod.mk.injEq] at h4
    rw [← h4.2]
    refine ih (s := s1) ?_ (fun op hop => hq op (by simp [hop])) h3
    obtain ⟨u, hu, he⟩ := hs
    have hst := Metrics.step_other (by rw [hk]; simp [hty]) he h1
    have hq1 := hq op (by simp)
    have same : s1 k = s k → ∃ u, t1 ≤ u ∧ s1 k = .timer (u - t1) (some u) := fun e => ⟨u, hu, by rw [e, he]⟩
    cases op with
    | timerStart k' t => simp only [reduceCtorEq, and_false, if_false] at hst; exact same hst
    | timerStop k' t =>
      have hne : k' ≠ k := hq1
      simp only [if_neg hne] at hst; exact same hst
    | timerRead k' t =>
      by_cases hkk : k' = k
      · simp only [if_pos hkk] at hst
        exact ⟨t, by omega, by rw [hst.2.1, show u - t1 + (t - u) = t - t1 by omega]⟩
      · simp only [if_neg hkk] at hst; exact same hst
    | updateTimers times =>
      simp only at hst
      exact ⟨times k, by omega, by rw [hst.2, show u - t1 + (times k - u) = times k - t1 by omega]⟩
    | clear session =>
      have hne : session ≠ key.session := hq1
      simp only [hk, Option.map_some, Option.some.injEq, if_neg (Ne.symm hne)] at hst
      exact same hst
    | clearAll => exact absurd hq1 (by simp [quiet])
    | _ => exact same hst

theorem run_append {dev : SerializerHelper.Device} {keys : List Key} : ∀ (a b : List Op)
    {s s' : Spec.Metrics.State} {os : List Out}, Spec.Metrics.run dev keys s (a ++ b) = some (os, s') →
    ∃ os1 s1 os2, Spec.Metrics.run dev keys s a = some (os1, s1) ∧
      Spec.Metrics.run dev keys s1 b = some (os2, s') := by
  intro a
  induction a with
  | nil => intro b s s' os h; exact ⟨[], s, os, rfl, h⟩
  | cons op a ih =>
    intro b s s' os h
    simp only [List.cons_append, Spec.Metrics.run] at h ⊢
    obtain ⟨⟨o, s1⟩, h1, h2⟩ := Option.bind_eq_some_iff.mp h
    obtain ⟨⟨os', s2⟩, h3, h4⟩ := Option.map_eq_some_iff.mp h2
    simp only [Prod.mk.injEq] at h4
    obtain ⟨os1, s3, os2, h5, h6⟩ := ih b h3
    exact ⟨o :: os1, s3, os2, by rw [h1]; simp [h5], by rw [← h4.2]; exact h6⟩

/-! ## Calls on the whole system -/

theorem clear_rel {dev : SerializerHelper.Device} (hd : Spec.Event.DeviceOk dev) {tab : Metrics.Table}
    (ht : Metrics.TableOk tab) {m : Metrics.State} {s : Spec.Metrics.State} (h : Metrics.Rel tab m s)
    (session : Nat) : ∃ m', Metrics.resetSession tab session m = some m' ∧ Metrics.Rel tab m' fun k =>
      if ((tab.map Metrics.keyOf)[k]?.map Key.session) = some session then cleared (s k) else s k := by
  obtain ⟨m', a, b⟩ := Metrics.step_rel hd ht h (op := .clear session) (o := .done) rfl
  simp only [Metrics.exec] at a
  obtain ⟨x, h1, h2⟩ := Option.map_eq_some_iff.mp a
  simp only [Prod.mk.injEq] at h2
  obtain ⟨-, rfl⟩ := h2
  exact ⟨x, h1, b⟩

theorem report_rel {dev : SerializerHelper.Device} (hd : Spec.Event.DeviceOk dev) {tab : Metrics.Table}
    (ht : Metrics.TableOk tab) {m : Metrics.State} {s : Spec.Metrics.State} (h : Metrics.Rel tab m s)
    {session : Nat} (hs : session < 4294967296) (time : Option Nat) :
    ∃ bytes, Metrics.reportBytes tab m dev time session = some bytes ∧
      Spec.Cbor.decode bytes = some (sessionEvent dev time (tab.map Metrics.keyOf) s session) := by
  obtain ⟨m', a, b⟩ := Metrics.step_rel hd ht h (op := .report session time)
    (o := .event (some (sessionEvent dev time (tab.map Metrics.keyOf) s session))) (s' := s)
    (by simp only [step]; rw [if_neg (by omega)])
  simp only [Metrics.exec] at a
  obtain ⟨x, h1, h2⟩ := Option.map_eq_some_iff.mp a
  simp only [Prod.mk.injEq, Out.event.injEq] at h2
  exact ⟨x, h1, h2.1⟩

theorem session_rel {b : RebootTracking.State} {R : Spec.Reboot.State} (h : RebootTracking.Rel b R)
    (hl : R.live = true) (on : Bool) {i : Nat} (hi : i < 32) :
    ∃ b', RebootTracking.metricsSession b on i = some b' ∧ RebootTracking.Rel b'
      { R with active := fun j => if j = i then on else R.active j } := by
  obtain ⟨b', a, r⟩ := RebootTracking.step_rel h (op := .session on i) (o := .unit)
    (S' := { R with active := fun j => if j = i then on else R.active j })
    (by simp only [Spec.Reboot.step, if_pos hi, hl, if_true])
  simp only [RebootTracking.step] at a
  obtain ⟨x, h1, h2⟩ := Option.map_eq_some_iff.mp a
  simp only [Prod.mk.injEq] at h2
  obtain ⟨-, rfl⟩ := h2
  exact ⟨x, h1, r⟩

theorem wasActive_rel {b : RebootTracking.State} {R : Spec.Reboot.State} (h : RebootTracking.Rel b R)
    (hl : R.live = true) {i : Nat} (hi : i < 32) :
    ∃ b', RebootTracking.sessionWasActive b i = some (R.active i, b') ∧ RebootTracking.Rel b' R := by
  obtain ⟨b', a, r⟩ := RebootTracking.step_rel h (op := .wasActive i) (o := .flag (some (R.active i)))
    (S' := R) (by simp only [Spec.Reboot.step, if_pos hi, hl, Bool.true_and])
  simp only [RebootTracking.step] at a
  obtain ⟨⟨x, y⟩, h1, h2⟩ := Option.map_eq_some_iff.mp a
  simp only [Prod.mk.injEq, Spec.Reboot.Out.flag.injEq, Option.some.injEq] at h2
  obtain ⟨rfl, rfl⟩ := h2
  exact ⟨y, h1, r⟩

/-- The tables of the sessions are those that the macros generate, memfault_metrics.c:84-148 and
207-211: for each session a timer and a counter of crashes. -/
structure Wired (cfg : Cfg) (tab : Metrics.Table) : Prop where
  few : cfg.crashKeys.length ≤ 32
  timers : ∀ i, i < cfg.crashKeys.length → ∃ k kv, cfg.timerKeys[i]? = some k ∧ tab[k]? = some kv ∧
    kv.type = .timer ∧ kv.session = i
  crashes : ∀ i, i < cfg.crashKeys.length → ∃ k kv, cfg.crashKeys[i]? = some k ∧ tab[k]? = some kv ∧
    kv.type = .unsigned ∧ kv.session = i
  interval : ∃ kv, tab[cfg.intervalKey]? = some kv ∧ kv.type = .timer ∧ cfg.crashKeys.length ≤ kv.session
  rebootCount : ∃ kv, tab[cfg.rebootCountKey]? = some kv ∧ kv.type = .unsigned ∧
    cfg.crashKeys.length ≤ kv.session

/-- All metrics of session `i` have no value, and no timer of it runs. -/
def Blank (tab : Metrics.Table) (s : Spec.Metrics.State) (i : Nat) : Prop :=
  ∀ (k : Nat) (key : Key), (tab.map Metrics.keyOf)[k]? = some key → key.session = i → s k = fresh key.ty

theorem reported_congr {keys : List Key} {s s' : Spec.Metrics.State} {i : Nat}
    (h : ∀ (k : Nat) (key : Key), keys[k]? = some key → key.session = i → s k = s' k) :
    reported keys s i = reported keys s' i := by
  unfold reported
  apply List.map_congr_left
  intro k hk
  simp only [List.mem_filter, List.mem_range, beq_iff_eq, Option.map_eq_some_iff] at hk
  obtain ⟨-, key, h1, h2⟩ := hk
  rw [h k key h1 h2]

theorem crashStep_rel {dev : SerializerHelper.Device} (hd : Spec.Event.DeviceOk dev) {tab : Metrics.Table}
    (ht : Metrics.TableOk tab) {cfg : Cfg} (hw : Wired cfg tab) (now : Nat) (times : Nat → Option Nat)
    {m : Metrics.State} {s : Spec.Metrics.State} (h : Metrics.Rel tab m s) {b : RebootTracking.State}
    {R : Spec.Reboot.State} (hb : RebootTracking.Rel b R) (hl : R.live = true) {i ck : Nat}
    (hi : i < cfg.crashKeys.length) (hck : cfg.crashKeys[i]? = some ck) (hbl : Blank tab s i) :
    ∃ reps m' b' s' R', crashStep cfg tab dev now times ⟨m, b⟩ i = some (reps, ⟨m', b'⟩) ∧
      reps.map Spec.Cbor.decode =
        (if R.active i then [some (crashEvent dev (times i) (tab.map Metrics.keyOf) ck i)] else []) ∧
      Metrics.Rel tab m' s' ∧ RebootTracking.Rel b' R' ∧ R'.live = true ∧
      (∀ j, j ≠ i → R'.active j = R.active j) ∧ (∀ j, j ≠ i → Blank tab s j → Blank tab s' j) := by
  have hi32 : i < 32 := Nat.lt_of_lt_of_le hi hw.few
  obtain ⟨b1, w1, w2⟩ := wasActive_rel hb hl hi32
  unfold crashStep
  rw [w1]
  simp only [Option.bind_some]
  cases ha : R.active i with
  | false =>
    exact ⟨[], m, b1, s, R, by simp, by simp, h, w2, hl, fun _ _ => rfl, fun _ _ x => x⟩
  | true =>
    obtain ⟨m1, r1, r2⟩ := clear_rel hd ht h i
    obtain ⟨b2, w3, w4⟩ := session_rel w2 hl true hi32
    obtain ⟨ck', ckv, c1, c2, c3, c4⟩ := hw.crashes i hi
    obtain rfl : ck = ck' := by rw [hck] at c1; exact Option.some.inj c1
    have hkk : (tab.map Metrics.keyOf)[ck]? = some (Metrics.keyOf ckv) := by rw [Metrics.keys_get, c2]; rfl
    have hty : ((tab.map Metrics.keyOf)[ck]?.map Key.ty) = some .unsigned := by
      rw [hkk]; simp [Metrics.keyOf, c3, Metrics.tyOf]
    have hses : ((tab.map Metrics.keyOf)[ck]?.map Key.session) = some i := by
      rw [hkk]; simp [Metrics.keyOf, c4]
    have hs1 : s ck = .int none := by
      rw [hbl ck _ hkk (by simp [Metrics.keyOf, c4])]; simp [Metrics.keyOf, c3, Metrics.tyOf, fresh]
    obtain ⟨m2, a1, a2⟩ := Metrics.step_rel hd ht r2 (op := .add ck 1) (o := .code 0)
      (s' := upd _ ck (.int (some 1)))
      (by simp only [step, hty, hses, if_true, hs1, cleared]
          rw [if_neg (by simp [isInt32])]; rfl)
    simp only [Metrics.exec] at a1
    obtain ⟨⟨rv, m3⟩, a3, a4⟩ := Option.map_eq_some_iff.mp a1
    simp only [Prod.mk.injEq] at a4
    obtain ⟨-, rfl⟩ := a4
    have a3' : Metrics.add tab m1 ck 1 = some (rv, m3) := a3
    obtain ⟨bytes, e1, e2⟩ := report_rel hd ht a2 (session := i) (by omega) (times i)
    obtain ⟨b3, w5, w6⟩ := session_rel w4 hl false hi32
    refine ⟨[bytes], m3, b3, _, _, ?_, ?_, a2, w6, hl, ?_, ?_⟩
    · simp only [if_true, start, r1, Option.bind_some, Bool.false_eq_true, if_false, w3, Option.map_some,
        hck, a3', finish, e1, w5]
      rfl
    · simp only [if_true, List.map_cons, List.map_nil, e2, crashEvent, sessionEvent]
      have hrep : ∀ {l l' : List Item}, l = l' →
        [some (Spec.Event.event dev 1 (times i) (.map [.uint 2, .uint i, .uint 1, .array l]))] =
        [some (Spec.Event.event dev 1 (times i) (.map [.uint 2, .uint i, .uint 1, .array l']))] :=
        fun e => by rw [e]
      apply hrep
      apply reported_congr
      intro k key hk hs
      rw [upd_apply, hk]
      simp only [Option.map_some, Option.getD_some, crashValue, hs, if_true]
      by_cases hkc : ck = k
      · rw [if_pos hkc, if_pos hkc.symm]
      · rw [if_neg hkc, if_neg (Ne.symm hkc), hbl k key hk hs]
        cases key.ty <;> rfl
    · intro j hj; simp [hj]
    · intro j hj hbj k key hk hs
      rw [upd_apply, if_neg, if_neg]
      · exact hbj k key hk hs
      · rw [hk, Option.map_some, hs]; simpa using hj
      · rintro rfl; rw [hkk, Option.some.injEq] at hk; rw [← hk] at hs; exact hj (by rw [← hs, ← c4]; rfl)

theorem crashLoop_rel {dev : SerializerHelper.Device} (hd : Spec.Event.DeviceOk dev) {tab : Metrics.Table}
    (ht : Metrics.TableOk tab) {cfg : Cfg} (hw : Wired cfg tab) (now : Nat) (times : Nat → Option Nat)
    (n : Nat) : ∀ (is : List Nat), is.Nodup → (∀ i ∈ is, i < cfg.crashKeys.length) →
    ∀ {m : Metrics.State} {s : Spec.Metrics.State} (_ : Metrics.Rel tab m s) {b : RebootTracking.State}
    {R : Spec.Reboot.State} (_ : RebootTracking.Rel b R) (_ : R.live = true)
    (_ : ∀ i ∈ is, Blank tab s i),
    ∃ reps m' b' s' R', crashLoop cfg tab dev now times ⟨m, b⟩ is = some (reps, ⟨m', b'⟩) ∧
      reps.map Spec.Cbor.decode = (is.filter R.active).map (fun i =>
        some (crashEvent dev (times i) (tab.map Metrics.keyOf) ((cfg.crashKeys[i]?).getD n) i)) ∧
      Metrics.Rel tab m' s' ∧ RebootTracking.Rel b' R' ∧ R'.live = true := by
  intro is
  induction is with
  | nil =>
    intro _ _ m s h b R hb hl _
    exact ⟨[], m, b, s, R, rfl, by simp, h, hb, hl⟩
  | cons i is ih =>
    intro hnd hlt m s h b R hb hl hbl
    have hi := hlt i (by simp)
    obtain ⟨ck, hck⟩ : ∃ ck, cfg.crashKeys[i]? = some ck := ⟨_, List.getElem?_eq_getElem hi⟩
    obtain ⟨reps, m1, b1, s1, R1, h1, h2, h3, h4, h5, h6, h7⟩ :=
      crashStep_rel hd ht hw now times h hb hl hi hck (hbl i (by simp))
    rw [List.nodup_cons] at hnd
    have hne : ∀ j ∈ is, j ≠ i := fun j hj e => hnd.1 (e ▸ hj)
    obtain ⟨reps', m2, b2, s2, R2, g1, g2, g3, g4, g5⟩ := ih hnd.2 (fun j hj => hlt j (by simp [hj])) h3 h4 h5
      (fun j hj => h7 j (hne j hj) (hbl j (by simp [hj])))
    refine ⟨reps ++ reps', m2, b2, s2, R2, ?_, ?_, g3, g4, g5⟩
    · simp only [crashLoop, h1, Option.bind_some, g1, Option.map_some]
    · have hf : is.filter R1.active = is.filter R.active :=
        List.filter_congr fun j hj => h6 j (hne j hj)
      rw [List.map_append, h2, g2, hf, List.filter_cons]
      cases R.active i <;> simp [hck]

theorem clearSessions_rel {b : RebootTracking.State} {R : Spec.Reboot.State} (h : RebootTracking.Rel b R)
    (hl : R.live = true) : RebootTracking.Rel (RebootTracking.clearSessions b)
      { R with active := fun _ => false } := by
  obtain ⟨b', a, r⟩ := RebootTracking.step_rel h (op := .clearSessions) (o := .unit)
    (S' := { R with active := fun _ => false }) (by simp only [Spec.Reboot.step, hl, if_true])
  simp only [RebootTracking.step, Option.some.injEq, Prod.mk.injEq, true_and] at a
  rw [a]; exact r

theorem unexpected_rel {b : RebootTracking.State} {R : Spec.Reboot.State} (h : RebootTracking.Rel b R) :
    RebootTracking.getUnexpected b = R.latest.map fun r => Spec.Reboot.unexpected r.2 := by
  obtain ⟨b', a, -⟩ := RebootTracking.step_rel h (op := .unexpected) rfl
  simp only [RebootTracking.step, Option.some.injEq, Prod.mk.injEq, Spec.Reboot.Out.flag.injEq] at a
  exact a.1

theorem checkReboot_rel {dev : SerializerHelper.Device} (hd : Spec.Event.DeviceOk dev) {tab : Metrics.Table}
    (ht : Metrics.TableOk tab) {cfg : Cfg} (hw : Wired cfg tab) (now : Nat) (times : Nat → Option Nat)
    {m : Metrics.State} {s : Spec.Metrics.State} (h : Metrics.Rel tab m s) {b : RebootTracking.State}
    {R : Spec.Reboot.State} (hb : RebootTracking.Rel b R) (hl : R.live = true)
    (hbl : ∀ i, i < cfg.crashKeys.length → Blank tab s i) (n : Nat) :
    ∃ reps m' b' R', checkReboot cfg tab dev now times ⟨m, b⟩ = some (reps, ⟨m', b'⟩) ∧
      reps.map Spec.Cbor.decode =
        (if R.latest.map (fun r => Spec.Reboot.unexpected r.2) = some true then
          ((List.range cfg.crashKeys.length).filter R.active).map (fun i =>
            some (crashEvent dev (times i) (tab.map Metrics.keyOf) ((cfg.crashKeys[i]?).getD n) i)) else []) ∧
      Metrics.Good tab m' ∧ RebootTracking.Rel b' R' ∧ R'.live = true ∧ ∀ i, R'.active i = false := by
  unfold checkReboot
  rw [unexpected_rel hb]
  split
  · obtain ⟨reps, m1, b1, s1, R1, h1, h2, h3, h4, h5⟩ := crashLoop_rel hd ht hw now times n
      (List.range cfg.crashKeys.length) List.nodup_range (fun i hi => List.mem_range.mp hi) h hb hl
      (fun i hi => hbl i (List.mem_range.mp hi))
    exact ⟨reps, m1, _, _, by rw [h1]; rfl, h2, ⟨_, h3⟩, clearSessions_rel h4 h5, h5, fun _ => rfl⟩
  · exact ⟨[], m, _, _, rfl, rfl, ⟨_, h⟩, clearSessions_rel hb hl, hl, fun _ => rfl⟩

/-! ## Histories -/

/-- The acts use sessions that exist, texts are C strings, and reboot reasons have 32 bits; sessions
are only started and ended through the metrics. -/
def ActOk (n : Nat) : Spec.Session.Act → Prop
  | .call op => Metrics.OpOk op
  | .start i _ => i < n
  | .finish i _ _ => i < n
  | .reboot (.boot b) => (b.map RebootTracking.Bootup.reason).getD 0 < 2 ^ 32 - 1
  | .reboot (.mark r _) => r < 2 ^ 32 - 1
  | .reboot (.session _ _) => False
  | .reboot .clearSessions => False
  | .reboot (.wasActive _) => False
  | .reboot .reset => False
  | .reboot _ => True

theorem timerOp_good {dev : SerializerHelper.Device} (hd : Spec.Event.DeviceOk dev) {tab : Metrics.Table}
    (ht : Metrics.TableOk tab) {m : Metrics.State} (h : Metrics.Good tab m) (k now : Nat)
    {op : Metrics.TimerOp} (hop : op = .start ∨ op = .stop) :
    ∃ r m', Metrics.timerOp tab m k op now = some (r, m') ∧ Metrics.Good tab m' := by
  rcases hop with rfl | rfl
  · obtain ⟨o, m', a, g⟩ := Metrics.exec_good hd ht h (op := .timerStart k now) trivial
    simp only [Metrics.exec] at a
    obtain ⟨⟨r, x⟩, h1, h2⟩ := Option.map_eq_some_iff.mp a
    simp only [Prod.mk.injEq] at h2
    obtain ⟨-, rfl⟩ := h2
    exact ⟨r, x, h1, g⟩
  · obtain ⟨o, m', a, g⟩ := Metrics.exec_good hd ht h (op := .timerStop k now) trivial
    simp only [Metrics.exec] at a
    obtain ⟨⟨r, x⟩, h1, h2⟩ := Option.map_eq_some_iff.mp a
    simp only [Prod.mk.injEq] at h2
    obtain ⟨-, rfl⟩ := h2
    exact ⟨r, x, h1, g⟩

theorem start_good {dev : SerializerHelper.Device} (hd : Spec.Event.DeviceOk dev) {tab : Metrics.Table}
    (ht : Metrics.TableOk tab) {cfg : Cfg} (hw : Wired cfg tab) {m : Metrics.State}
    (h : Metrics.Good tab m) {b : RebootTracking.State} {R : Spec.Reboot.State}
    (hb : RebootTracking.Rel b R) (hl : R.live = true) {i : Nat} (hi : i < cfg.crashKeys.length) (now : Nat) :
    ∃ r m' b', start cfg tab ⟨m, b⟩ i true now = some (r, ⟨m', b'⟩) ∧ Metrics.Good tab m' ∧
      RebootTracking.Rel b' { R with active := fun j => if j = i then true else R.active j } := by
  obtain ⟨s, h⟩ := h
  obtain ⟨m1, a1, a2⟩ := clear_rel hd ht h i
  obtain ⟨k, kv, k1, -⟩ := hw.timers i hi
  obtain ⟨r, m2, t1, t2⟩ := timerOp_good hd ht ⟨_, a2⟩ k now (op := .start) (.inl rfl)
  obtain ⟨b', w1, w2⟩ := session_rel hb hl true (Nat.lt_of_lt_of_le hi hw.few)
  exact ⟨r, m2, b', by simp [start, a1, k1, t1, w1], t2, w2⟩

theorem finish_good {dev : SerializerHelper.Device} (hd : Spec.Event.DeviceOk dev) {tab : Metrics.Table}
    (ht : Metrics.TableOk tab) {cfg : Cfg} (hw : Wired cfg tab) {m : Metrics.State}
    (h : Metrics.Good tab m) {b : RebootTracking.State} {R : Spec.Reboot.State}
    (hb : RebootTracking.Rel b R) (hl : R.live = true) {i : Nat} (hi : i < cfg.crashKeys.length) (now : Nat)
    (time : Option Nat) :
    ∃ r rep m' b', finish cfg tab dev ⟨m, b⟩ i true now time = some (r, rep, ⟨m', b'⟩) ∧ Metrics.Good tab m' ∧
      RebootTracking.Rel b' { R with active := fun j => if j = i then false else R.active j } := by
  obtain ⟨k, kv, k1, -⟩ := hw.timers i hi
  obtain ⟨r, m2, t1, ⟨s, t2⟩⟩ := timerOp_good hd ht h k now (op := .stop) (.inr rfl)
  have hf := hw.few
  obtain ⟨bytes, e1, -⟩ := report_rel hd ht t2 (session := i) (by omega) time
  obtain ⟨b', w1, w2⟩ := session_rel hb hl false (Nat.lt_of_lt_of_le hi hw.few)
  by_cases hr : r = 0
  · exact ⟨r, some bytes, m2, b', by simp [finish, k1, t1, w1, hr, e1], ⟨s, t2⟩, w2⟩
  · exact ⟨r, none, m2, b', by simp [finish, k1, t1, w1, hr], ⟨s, t2⟩, w2⟩

theorem reboot_step {R : Spec.Reboot.State} (hl : R.live = true) {op : Spec.Reboot.Op} {n : Nat}
    (h : ActOk n (.reboot op)) :
    ∃ o R', Spec.Reboot.step R op = some (o, R') ∧ R'.live = true ∧ R'.active = R.active := by
  cases op with
  | boot b => exact ⟨_, _, if_pos h, rfl, rfl⟩
  | mark r regs => exact ⟨_, _, if_pos h, by simp only [hl, if_true], by simp only [hl, if_true]⟩
  | session on i => exact absurd h (by simp [ActOk])
  | clearSessions => exact absurd h (by simp [ActOk])
  | wasActive i => exact absurd h (by simp [ActOk])
  | reset => exact absurd h (by simp [ActOk])
  | clear => exact ⟨_, _, rfl, by simp only [hl, if_true], by simp only [hl, if_true]⟩
  | coredumpSaved => exact ⟨_, _, rfl, by simp only [hl, if_true], by simp only [hl, if_true]⟩
  | resetCrashCount => exact ⟨_, _, rfl, by simp only [hl, if_true], by simp only [hl, if_true]⟩
  | _ => exact ⟨_, _, rfl, hl, rfl⟩

theorem play_good {dev : SerializerHelper.Device} (hd : Spec.Event.DeviceOk dev) {tab : Metrics.Table}
    (ht : Metrics.TableOk tab) {cfg : Cfg} (hw : Wired cfg tab) : ∀ (acts : List Spec.Session.Act),
    (∀ a ∈ acts, ActOk cfg.crashKeys.length a) → ∀ {m : Metrics.State} (_ : Metrics.Good tab m)
    {b : RebootTracking.State} {R : Spec.Reboot.State} (_ : RebootTracking.Rel b R) (_ : R.live = true),
    ∃ reps m' b' R', play cfg tab dev ⟨m, b⟩ acts = some (reps, ⟨m', b'⟩) ∧ Metrics.Good tab m' ∧
      RebootTracking.Rel b' R' ∧ R'.live = true ∧ ∀ i, R'.active i = running i (R.active i) acts := by
  intro acts
  induction acts with
  | nil =>
    intro _ m h b R hb hl
    exact ⟨[], m, b, R, rfl, h, hb, hl, fun _ => rfl⟩
  | cons a acts ih =>
    intro hok m h b R hb hl
    have ha := hok a (by simp)
    have hok' : ∀ a ∈ acts, ActOk cfg.crashKeys.length a := fun a h => hok a (by simp [h])
    cases a with
    | call op =>
      obtain ⟨o, m1, e, g⟩ := Metrics.exec_good hd ht h ha
      obtain ⟨reps, m', b', R', h1, h2⟩ := ih hok' g hb hl
      exact ⟨reps, m', b', R', by simp [play, e, h1], h2⟩
    | start i now =>
      obtain ⟨r, m1, b1, e, g, hb1⟩ := start_good hd ht hw h hb hl ha now
      obtain ⟨reps, m', b', R', h1, h2, h3, h4, h5⟩ := ih hok' g hb1 hl
      refine ⟨reps, m', b', R', by simp [play, e, h1], h2, h3, h4, fun j => ?_⟩
      rw [h5]; simp only [running, eq_comm]
    | finish i now time =>
      obtain ⟨r, rep, m1, b1, e, g, hb1⟩ := finish_good hd ht hw h hb hl ha now time
      obtain ⟨reps, m', b', R', h1, h2, h3, h4, h5⟩ := ih hok' g hb1 hl
      refine ⟨rep.toList ++ reps, m', b', R', by simp [play, e, h1], h2, h3, h4, fun j => ?_⟩
      rw [h5]; simp only [running, eq_comm]
    | reboot op =>
      obtain ⟨o, R1, s1, s2, s3⟩ := reboot_step hl ha
      obtain ⟨b1, e, hb1⟩ := RebootTracking.step_rel hb s1
      obtain ⟨reps, m', b', R', h1, h2, h3, h4, h5⟩ := ih hok' h hb1 s2
      refine ⟨reps, m', b', R', by simp [play, e, h1], h2, h3, h4, fun j => ?_⟩
      rw [h5, s3]; rfl

theorem boot_rel {dev : SerializerHelper.Device} (hd : Spec.Event.DeviceOk dev) {tab : Metrics.Table}
    (ht : Metrics.TableOk tab) {cfg : Cfg} (hw : Wired cfg tab) {b : RebootTracking.State}
    {R : Spec.Reboot.State} (hb : RebootTracking.Rel b R) (hl : R.live = true) (now : Nat)
    (times : Nat → Option Nat) {count : Nat} (hc : count < 4294967296) (n : Nat) :
    ∃ reps m' b' R', boot cfg tab dev b count now times = some (reps, ⟨m', b'⟩) ∧
      reps.map Spec.Cbor.decode =
        (if R.latest.map (fun r => Spec.Reboot.unexpected r.2) = some true then
          ((List.range cfg.crashKeys.length).filter R.active).map (fun i =>
            some (crashEvent dev (times i) (tab.map Metrics.keyOf) ((cfg.crashKeys[i]?).getD n) i)) else []) ∧
      Metrics.Good tab m' ∧ RebootTracking.Rel b' R' ∧ R'.live = true ∧ ∀ i, R'.active i = false := by
  obtain ⟨kv1, i1, i2, i3⟩ := hw.interval
  obtain ⟨kv2, c1, c2, c3⟩ := hw.rebootCount
  have hk1 : (tab.map Metrics.keyOf)[cfg.intervalKey]? = some (Metrics.keyOf kv1) := by
    rw [Metrics.keys_get, i1]; rfl
  have hk2 : (tab.map Metrics.keyOf)[cfg.rebootCountKey]? = some (Metrics.keyOf kv2) := by
    rw [Metrics.keys_get, c1]; rfl
  have hblank0 : ∀ i, Blank tab (fun k => if k < (tab.map Metrics.keyOf).length then
      cleared (Spec.Metrics.init (tab.map Metrics.keyOf) k) else Spec.Metrics.init (tab.map Metrics.keyOf) k) i := by
    intro i k key hk _
    have hlt : k < (tab.map Metrics.keyOf).length := (List.getElem?_eq_some_iff.mp hk).1
    show (if k < _ then _ else _) = _
    rw [if_pos hlt]
    unfold Spec.Metrics.init
    rw [hk, Option.map_some, Option.getD_some]
    cases key.ty <;> rfl
  obtain ⟨m1, a1, r1⟩ := Metrics.step_rel hd ht (Metrics.init_rel tab) (op := .clearAll) (o := .done) rfl
  simp only [Metrics.exec, Option.some.injEq, Prod.mk.injEq, true_and] at a1
  rw [← a1] at r1
  obtain ⟨s1, hs1⟩ : ∃ s1 : Spec.Metrics.State, s1 = fun k => if k < (tab.map Metrics.keyOf).length then
      cleared (Spec.Metrics.init (tab.map Metrics.keyOf) k) else Spec.Metrics.init (tab.map Metrics.keyOf) k := ⟨_, rfl⟩
  rw [← hs1] at r1 hblank0
  have ht1 : s1 cfg.intervalKey = .timer 0 none := by
    rw [hblank0 _ _ _ hk1 rfl]; simp [Metrics.keyOf, i2, Metrics.tyOf, fresh]
  obtain ⟨m2, a2, r2⟩ := Metrics.step_rel hd ht r1 (op := .timerStart cfg.intervalKey now) (o := .code 0)
    (s' := upd s1 cfg.intervalKey (.timer 0 (some now)))
    (by simp only [step, hk1, ht1, Option.map_some, Metrics.keyOf, i2, Metrics.tyOf])
  simp only [Metrics.exec] at a2
  obtain ⟨⟨rv, x⟩, a3, a4⟩ := Option.map_eq_some_iff.mp a2
  simp only [Prod.mk.injEq] at a4
  obtain ⟨-, rfl⟩ := a4
  obtain ⟨m3, a5, r3⟩ := Metrics.step_rel hd ht r2 (op := .setUnsigned cfg.rebootCountKey count) (o := .code 0)
    (s' := upd (upd s1 cfg.intervalKey (.timer 0 (some now))) cfg.rebootCountKey (.int (some count)))
    (by simp only [step]; rw [if_neg (by omega), hk2]; simp [Metrics.keyOf, c2, Metrics.tyOf])
  simp only [Metrics.exec] at a5
  obtain ⟨⟨rv', y⟩, a6, a7⟩ := Option.map_eq_some_iff.mp a5
  simp only [Prod.mk.injEq] at a7
  obtain ⟨-, rfl⟩ := a7
  have hbl : ∀ i, i < cfg.crashKeys.length → Blank tab (upd (upd s1 cfg.intervalKey (.timer 0 (some now)))
      cfg.rebootCountKey (.int (some count))) i := by
    intro i hi k key hk hs
    rw [upd_apply, if_neg, upd_apply, if_neg]
    · exact hblank0 i k key hk hs
    · rintro rfl
      rw [hk1, Option.some.injEq] at hk
      rw [← hk] at hs
      have : kv1.session = i := hs
      omega
    · rintro rfl
      rw [hk2, Option.some.injEq] at hk
      rw [← hk] at hs
      have : kv2.session = i := hs
      omega
  obtain ⟨reps, m', b', R', h1, h2⟩ := checkReboot_rel hd ht hw now times r3 hb hl hbl n
  exact ⟨reps, m', b', R', by simp only [boot, a3, Option.bind_some, a6, h1], h2⟩

end Mflt.Session
