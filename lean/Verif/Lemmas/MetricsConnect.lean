import Verif.Lemmas.MetricsCollect

/-! # Lemmas: connectivity metrics -/

namespace Mflt.Collect

open Spec.Metrics Spec.Collect
open Spec.Cbor (Item)

/-- What a call does to the timer `k`. -/
def tstep (k : Nat) (v : Nat × Option Nat) : Op → Nat × Option Nat
  | .timerStart k' t => if k' = k ∧ v.2 = none then (v.1, some t) else v
  | .timerStop k' t => match v.2 with
    | some u => if k' = k then (v.1 + (t - u), none) else v
    | none => v
  | .updateTimers times => match v.2 with
    | some u => (v.1 + (times k - u), some (times k))
    | none => v
  | _ => v

/-- The calls that `tstep` covers. -/
def tame (k session : Nat) : Op → Prop
  | .timerRead k' _ => k' ≠ k
  | .clear s => s ≠ session
  | .clearAll => False
  | _ => True

theorem avoids_tame {k session : Nat} {op : Op} (h : avoids k session op) : tame k session op := by
  cases op <;> simp_all [avoids, tame]

theorem tstep_avoids {k session : Nat} {op : Op} (h : avoids k session op) (v : Nat × Option Nat) :
    tstep k v op = v := by
  obtain ⟨a, b⟩ := v
  cases op <;> simp_all [avoids, tstep]
  cases b <;> rfl

theorem tstep_step {dev : SerializerHelper.Device} {keys : List Key} {session k : Nat} {key : Key}
    (hk : keys[k]? = some key) (hty : key.ty = .timer) (hses : key.session = session)
    {s s' : Spec.Metrics.State} {op : Op} {o : Out} {v : Nat × Option Nat} (ht : tame k session op)
    (hs : s k = .timer v.1 v.2) (h : step dev keys s op = some (o, s')) :
    s' k = .timer (tstep k v op).1 (tstep k v op).2 := by
  have hty' : keys[k]?.map Key.ty = some .timer := by rw [hk]; simp [hty]
  have hst := Metrics.step_other hty' hs h
  obtain ⟨a, b⟩ := v
  cases op with
  | timerStart k' t =>
    simp only at hst
    rw [hst]; simp only [tstep]
    split
    · rfl
    · exact hs
  | timerStop k' t =>
    cases b with
    | none => simp only at hst; rw [hst]; exact hs
    | some u =>
      simp only at hst
      simp only [tstep]
      split
      · rename_i hkk; rw [if_pos hkk] at hst; exact hst.2
      · rename_i hkk; rw [if_neg hkk] at hst; rw [hst]; exact hs
  | timerRead k' t =>
    simp only [tame] at ht
    cases b with
    | none => simp only at hst; rw [hst.1]; exact hs
    | some u => simp only at hst; rw [if_neg ht] at hst; rw [hst]; exact hs
  | updateTimers times =>
    cases b with
    | none => simp only at hst; rw [hst]; exact hs
    | some u => simp only at hst; exact hst.2
  | clear s2 =>
    simp only [tame] at ht
    simp only [hk, Option.map_some, hses] at hst
    rw [if_neg (fun hc => ht (Option.some.inj hc).symm)] at hst
    rw [hst]; exact hs
  | clearAll => exact ht.elim
  | _ => simp only at hst; rw [hst]; exact hs

theorem tstep_run {dev : SerializerHelper.Device} {keys : List Key} {session k : Nat} {key : Key}
    (hk : keys[k]? = some key) (hty : key.ty = .timer) (hses : key.session = session) :
    ∀ (ops : List Op), (∀ op ∈ ops, tame k session op) → ∀ {s s' : Spec.Metrics.State}
      {es : List (Option Item)} {v : Nat × Option Nat}, s k = .timer v.1 v.2 →
      runActs dev keys session s (ops.map Act.call) = some (es, s') →
      es = [] ∧ s' k = .timer (ops.foldl (tstep k) v).1 (ops.foldl (tstep k) v).2 := by
  intro ops
  induction ops with
  | nil =>
    intro _ s s' es v hs h
    obtain ⟨rfl, rfl⟩ : [] = es ∧ s = s' := by simpa [runActs] using h
    exact ⟨rfl, hs⟩
  | cons op ops ih =>
    intro hok s s' es v hs h
    simp only [List.map_cons, runActs] at h
    obtain ⟨⟨o, s1⟩, h1, h2⟩ := Option.bind_eq_some_iff.mp h
    exact ih (fun op ho => hok op (by simp [ho])) (tstep_step hk hty hses (hok op (by simp)) hs h1) h2

theorem foldl_avoids {k session : Nat} : ∀ (ops : List Op), (∀ op ∈ ops, avoids k session op) →
    ∀ v, ops.foldl (tstep k) v = v
  | [], _, _ => rfl
  | op :: ops, h, v => by
    rw [List.foldl_cons, tstep_avoids (h op (by simp)), foldl_avoids ops fun o ho => h o (by simp [ho])]

theorem timer_flush {dev : SerializerHelper.Device} {keys : List Key} {session k : Nat} {key : Key}
    (hk : keys[k]? = some key) (hty : key.ty = .timer) (hses : key.session = session) {time : Option Nat}
    {s s' : Spec.Metrics.State} {es : List (Option Item)} {v : Nat × Option Nat} (hs : s k = .timer v.1 v.2)
    (h : runActs dev keys session s [.flush time] = some (es, s')) :
    es.map (fun e => e.bind fun e => eventMetric e (position keys session k)) = [some (.uint v.1)] ∧
      s' k = .timer 0 v.2 := by
  have hty' : keys[k]?.map Key.ty = some .timer := by rw [hk]; simp [hty]
  rw [runActs] at h
  obtain ⟨⟨o, s1⟩, h1, h2⟩ := Option.bind_eq_some_iff.mp h
  obtain ⟨⟨o2, s2⟩, h3, h4⟩ := Option.bind_eq_some_iff.mp h2
  simp only [runActs, Option.map_some, Option.some.injEq, Prod.mk.injEq] at h4
  simp only [step] at h1
  split at h1
  · cases h1
  simp only [Option.some.injEq, Prod.mk.injEq] at h1
  obtain ⟨rfl, rfl⟩ := h1
  have hst := Metrics.step_other hty' hs h3
  simp only [hk, Option.map_some, hses, if_true] at hst
  rw [← h4.1, ← h4.2]
  refine ⟨?_, hst⟩
  simp only [List.map_cons, List.map_nil, Out.event?, Option.bind_some,
    Metrics.eventMetric_get dev time s hk hses, hs]
  rfl

/-- The connected time is covered by the expected time. `c`, `e`: accumulated, `su`, `sv`: running since. -/
def Covered (c e : Nat) (su sv : Option Nat) (now : Nat) : Prop :=
  match su, sv with
  | some u, some v => u ≤ now ∧ v ≤ now ∧ c + v ≤ e + u
  | none, some v => v ≤ now ∧ c + v ≤ e + now
  | none, none => c ≤ e
  | some _, none => False

theorem builtin_avoids (cfg : Config) (K : Keys) (s : State) (b : Beat) (k session : Nat) :
    ∀ op ∈ (builtin cfg K s b).1, avoids k session op := by
  intro op hop
  rw [builtin_ops] at hop
  simp only [List.mem_append] at hop
  rcases hop with ((hop | hop) | hop) | hop
  · rcases reliability_ops K s.reliability b.reliabilityMs b.unexpectedReboot with h | ⟨_, _, h⟩ <;>
      rw [h] at hop <;> simp only [List.mem_cons, List.not_mem_nil, or_false] at hop
    rcases hop with rfl | rfl <;> trivial
  · obtain ⟨x, y, len, h⟩ := battery_ops K s.battery b.soc b.batteryMs
    rw [h] at hop
    split at hop
    · rcases x with _ | x <;> rcases y with _ | y <;> simp at hop
      · subst hop; trivial
      · rcases hop with rfl | rfl <;> trivial
      · rcases hop with rfl | rfl | rfl <;> trivial
    · cases hop
  · split at hop
    · simp only [LogCounts.collect, List.mem_cons, List.not_mem_nil, or_false] at hop
      rcases hop with rfl | rfl <;> trivial
    · cases hop
  · split at hop
    · simp only [List.mem_cons, List.not_mem_nil, or_false] at hop
      subst hop; trivial
    · cases hop

/-- One connectivity state change. -/
theorem connectivity_covered {K : Keys} (hne : K.connected ≠ K.expected) {vc ve : Nat × Option Nat} {fc fe now : Nat}
    (h : Covered (fc + vc.1) (fe + ve.1) vc.2 ve.2 now) {t1 t2 : Nat} (h1 : now ≤ t1) (h2 : t1 ≤ t2)
    (c : ConnState) :
    Covered (fc + ((connectivityChange K t1 t2 c).foldl (tstep K.connected) vc).1)
      (fe + ((connectivityChange K t1 t2 c).foldl (tstep K.expected) ve).1)
      ((connectivityChange K t1 t2 c).foldl (tstep K.connected) vc).2
      ((connectivityChange K t1 t2 c).foldl (tstep K.expected) ve).2 t2 := by
  obtain ⟨a, u⟩ := vc
  obtain ⟨b, v⟩ := ve
  have hne' := Ne.symm hne
  rcases u with _ | u <;> rcases v with _ | v <;> cases c <;>
    simp only [connectivityChange, List.foldl_cons, List.foldl_nil, tstep, hne, hne', false_and, true_and, if_true,
      if_false, Covered, and_true, reduceCtorEq, and_false] at h ⊢ <;> omega

/-- One event. -/
theorem connect_event {dev : SerializerHelper.Device} {keys : List Key} {session : Nat} {K : Keys} {kc ke : Key}
    (hkc : keys[K.connected]? = some kc) (hke : keys[K.expected]? = some ke) (htc : kc.ty = .timer)
    (hte : ke.ty = .timer) (hsc : kc.session = session) (hse : ke.session = session)
    (hne : K.connected ≠ K.expected) (cfg : Config) (e : Event) {evs : List Event} {c : State}
    {s s' : Spec.Metrics.State} {es : List (Option Item)} {vc ve : Nat × Option Nat}
    {fc fe now : Nat} (hc : s K.connected = .timer vc.1 vc.2) (he : s K.expected = .timer ve.1 ve.2)
    (hcov : Covered (fc + vc.1) (fe + ve.1) vc.2 ve.2 now)
    (hcl : clocked K.connected K.expected session now (e :: evs))
    (h : runActs dev keys session s (eventActs cfg K c e).1 = some (es, s')) :
    ∃ (now' : Nat) (vc' ve' : Nat × Option Nat), clocked K.connected K.expected session now' evs ∧
      s' K.connected = .timer vc'.1 vc'.2 ∧ s' K.expected = .timer ve'.1 ve'.2 ∧
      ((beats (e :: evs) = beats evs ∧ es = [] ∧ Covered (fc + vc'.1) (fe + ve'.1) vc'.2 ve'.2 now') ∨
       ∃ (b : Beat) (x y : Nat), beats (e :: evs) = b :: beats evs ∧
        es.map (fun e => e.bind fun e => eventMetric e (position keys session K.connected)) = [some (.uint x)] ∧
        es.map (fun e => e.bind fun e => eventMetric e (position keys session K.expected)) = [some (.uint y)] ∧
        vc'.1 = 0 ∧ ve'.1 = 0 ∧ fc + x ≤ fe + y ∧ Covered (fc + x) (fe + y) vc'.2 ve'.2 now' ∧
        (b.timers K.connected = b.timers K.expected → Covered 0 0 vc'.2 ve'.2 now')) := by
  cases e with
  | call op =>
    rw [clocked] at hcl
    obtain ⟨a1, a2, a3⟩ := hcl
    have m1 : ∀ op' ∈ [op], avoids K.connected session op' := by
      intro op' ho; rw [List.mem_singleton.mp ho]; exact a1
    have m2 : ∀ op' ∈ [op], avoids K.expected session op' := by
      intro op' ho; rw [List.mem_singleton.mp ho]; exact a2
    obtain ⟨rfl, h1⟩ := tstep_run hkc htc hsc [op] (fun o ho => avoids_tame (m1 o ho)) hc h
    obtain ⟨-, h2⟩ := tstep_run hke hte hse [op] (fun o ho => avoids_tame (m2 o ho)) he h
    rw [foldl_avoids _ m1] at h1
    rw [foldl_avoids _ m2] at h2
    exact ⟨now, vc, ve, a3, h1, h2, .inl ⟨rfl, rfl, hcov⟩⟩
  | stoppedDischarging =>
    rw [clocked] at hcl
    simp only [eventActs, runActs, Option.some.injEq, Prod.mk.injEq] at h
    obtain ⟨rfl, rfl⟩ := h
    exact ⟨now, vc, ve, hcl, hc, he, .inl ⟨rfl, rfl, hcov⟩⟩
  | connectivity cs t1 t2 =>
    rw [clocked] at hcl
    obtain ⟨a1, a2, a3⟩ := hcl
    have m : ∀ k, ∀ op ∈ connectivityChange K t1 t2 cs, tame k session op := by
      intro k op hop
      cases cs <;> simp only [connectivityChange, List.mem_cons, List.not_mem_nil, or_false] at hop
      · rcases hop with rfl | rfl <;> trivial
      · subst hop; trivial
      · rcases hop with rfl | rfl <;> trivial
      · rcases hop with rfl | rfl <;> trivial
    obtain ⟨rfl, h1⟩ := tstep_run hkc htc hsc _ (m _) hc h
    obtain ⟨-, h2⟩ := tstep_run hke hte hse _ (m _) he h
    exact ⟨t2, _, _, a3, h1, h2, .inl ⟨rfl, rfl, connectivity_covered hne hcov a1 a2 cs⟩⟩
  | beat b =>
    rw [clocked] at hcl
    obtain ⟨a1, a2, a3, a4, a5⟩ := hcl
    have hlist : (eventActs cfg K c (.beat b)).1 = ([Op.updateTimers b.timers] ++ (b.sdkCalls ++
        (builtin cfg K c b).1 ++ b.userCalls)).map Act.call ++ [Act.flush b.captureTime] := by
      simp [eventActs, heartbeat]
    rw [hlist] at h
    obtain ⟨es3, s3, es4, h3, h4, rfl⟩ := runActs_split _ _ h
    have m1 : ∀ op ∈ b.sdkCalls ++ (builtin cfg K c b).1 ++ b.userCalls, avoids K.connected session op := by
      intro op ho
      simp only [List.mem_append] at ho
      rcases ho with (ho | ho) | ho
      · exact (a3 op ho).1
      · exact builtin_avoids cfg K c b _ session op ho
      · exact (a4 op ho).1
    have m2 : ∀ op ∈ b.sdkCalls ++ (builtin cfg K c b).1 ++ b.userCalls, avoids K.expected session op := by
      intro op ho
      simp only [List.mem_append] at ho
      rcases ho with (ho | ho) | ho
      · exact (a3 op ho).2
      · exact builtin_avoids cfg K c b _ session op ho
      · exact (a4 op ho).2
    have t1 : ∀ {k : Nat} {l : List Op}, (∀ op ∈ l, avoids k session op) →
        ∀ op ∈ [Op.updateTimers b.timers] ++ l, tame k session op := by
      intro k l hl op ho
      rw [List.mem_append, List.mem_singleton] at ho
      rcases ho with rfl | ho
      · trivial
      · exact avoids_tame (hl op ho)
    obtain ⟨rfl, h5⟩ := tstep_run hkc htc hsc _ (t1 m1) hc h3
    obtain ⟨-, h6⟩ := tstep_run hke hte hse _ (t1 m2) he h3
    rw [List.foldl_append, foldl_avoids _ m1] at h5
    rw [List.foldl_append, foldl_avoids _ m2] at h6
    obtain ⟨h7, h8⟩ := timer_flush hkc htc hsc h5 h4
    obtain ⟨h9, h10⟩ := timer_flush hke hte hse h6 h4
    rw [List.nil_append]
    refine ⟨b.timers K.expected, (0, _), (0, _), a5, h8, h10, .inr ⟨b, _, _, rfl, h7, h9, rfl, rfl, ?_⟩⟩
    obtain ⟨x, u⟩ := vc
    obtain ⟨y, v⟩ := ve
    rcases u with _ | u <;> rcases v with _ | v <;>
      simp only [Covered, List.foldl_cons, List.foldl_nil, tstep] at hcov ⊢
    · omega
    · omega
    · omega

/-- The two timers over a history of events: cumulated reports. -/
theorem connect_sums {dev : SerializerHelper.Device} {keys : List Key} {session : Nat} {K : Keys} {kc ke : Key}
    (hkc : keys[K.connected]? = some kc) (hke : keys[K.expected]? = some ke) (htc : kc.ty = .timer)
    (hte : ke.ty = .timer) (hsc : kc.session = session) (hse : ke.session = session)
    (hne : K.connected ≠ K.expected) (cfg : Config) :
    ∀ (evs : List Event) {c : State} {s s' : Spec.Metrics.State} {es : List (Option Item)} {vc ve : Nat × Option Nat}
      {fc fe now : Nat}, s K.connected = .timer vc.1 vc.2 → s K.expected = .timer ve.1 ve.2 →
      Covered (fc + vc.1) (fe + ve.1) vc.2 ve.2 now → clocked K.connected K.expected session now evs →
      runActs dev keys session s (acts cfg K c evs) = some (es, s') →
      ∃ cs vs : List Nat, cs.length = vs.length ∧
        es.map (fun e => e.bind fun e => eventMetric e (position keys session K.connected)) =
          cs.map (fun v => some (Item.uint v)) ∧
        es.map (fun e => e.bind fun e => eventMetric e (position keys session K.expected)) =
          vs.map (fun v => some (Item.uint v)) ∧
        ∀ n, 0 < n → n ≤ cs.length → fc + (cs.take n).sum ≤ fe + (vs.take n).sum := by
  intro evs
  induction evs with
  | nil =>
    intro c s s' es vc ve fc fe now _ _ hcov _ h
    obtain ⟨rfl, rfl⟩ : [] = es ∧ s = s' := by simpa [acts, runActs] using h
    exact ⟨[], [], rfl, rfl, rfl, by intro n h1 h2; simp only [List.length_nil] at h2; omega⟩
  | cons e evs ih =>
    intro c s s' es vc ve fc fe now hc he hcov hcl h
    rw [acts] at h
    obtain ⟨es1, s1, es2, h1, h2, rfl⟩ := runActs_split _ _ h
    obtain ⟨now', vc', ve', b1, b2, b3, b4⟩ := connect_event hkc hke htc hte hsc hse hne cfg e hc he hcov hcl h1
    rcases b4 with ⟨-, rfl, b5⟩ | ⟨b, x, y, -, b5, b6, b7, b8, b9, b10, -⟩
    · exact ih b2 b3 b5 b1 h2
    · rw [b7] at b2
      rw [b8] at b3
      obtain ⟨cs, vs, c1, c2, c3, c4⟩ := ih (vc := (0, vc'.2)) (ve := (0, ve'.2)) b2 b3
        (by simpa using b10) b1 h2
      refine ⟨x :: cs, y :: vs, by simp [c1], by rw [List.map_append, b5, c2]; rfl,
        by rw [List.map_append, b6, c3]; rfl, ?_⟩
      intro n h0 hn
      obtain ⟨m, rfl⟩ : ∃ m, n = m + 1 := ⟨n - 1, by omega⟩
      simp only [List.take_succ_cons, List.sum_cons]
      by_cases hm : m = 0
      · subst hm; simpa using b9
      · have := c4 m (by omega) (by simpa using hn)
        omega

/-- The two timers over a history of events: single reports. -/
theorem connect_each {dev : SerializerHelper.Device} {keys : List Key} {session : Nat} {K : Keys} {kc ke : Key}
    (hkc : keys[K.connected]? = some kc) (hke : keys[K.expected]? = some ke) (htc : kc.ty = .timer)
    (hte : ke.ty = .timer) (hsc : kc.session = session) (hse : ke.session = session)
    (hne : K.connected ≠ K.expected) (cfg : Config) :
    ∀ (evs : List Event) {c : State} {s s' : Spec.Metrics.State} {es : List (Option Item)} {vc ve : Nat × Option Nat}
      {now : Nat}, s K.connected = .timer vc.1 vc.2 → s K.expected = .timer ve.1 ve.2 →
      Covered vc.1 ve.1 vc.2 ve.2 now → clocked K.connected K.expected session now evs →
      sameTime K.connected K.expected (beats evs) →
      runActs dev keys session s (acts cfg K c evs) = some (es, s') →
      ∃ ps : List (Nat × Nat),
        es.map (fun e => e.bind fun e => eventMetric e (position keys session K.connected)) =
          ps.map (fun p => some (Item.uint p.1)) ∧
        es.map (fun e => e.bind fun e => eventMetric e (position keys session K.expected)) =
          ps.map (fun p => some (Item.uint p.2)) ∧ ∀ p ∈ ps, p.1 ≤ p.2 := by
  intro evs
  induction evs with
  | nil =>
    intro c s s' es vc ve now _ _ hcov _ _ h
    obtain ⟨rfl, rfl⟩ : [] = es ∧ s = s' := by simpa [acts, runActs] using h
    exact ⟨[], rfl, rfl, by simp⟩
  | cons e evs ih =>
    intro c s s' es vc ve now hc he hcov hcl hsame h
    rw [acts] at h
    obtain ⟨es1, s1, es2, h1, h2, rfl⟩ := runActs_split _ _ h
    obtain ⟨now', vc', ve', b1, b2, b3, b4⟩ := connect_event (fc := 0) (fe := 0) hkc hke htc hte hsc hse hne cfg e
      hc he (by simpa using hcov) hcl h1
    rcases b4 with ⟨b0, rfl, b5⟩ | ⟨b, x, y, b0, b5, b6, b7, b8, b9, -, b10⟩
    · rw [b0] at hsame
      exact ih b2 b3 (by simpa using b5) b1 hsame h2
    · rw [b7] at b2
      rw [b8] at b3
      rw [b0] at hsame
      obtain ⟨ps, c2, c3, c4⟩ := ih (vc := (0, vc'.2)) (ve := (0, ve'.2)) b2 b3 (b10 (hsame b (by simp))) b1
        (fun b' hb' => hsame b' (by simp [hb'])) h2
      refine ⟨(x, y) :: ps, by rw [List.map_append, b5, c2]; rfl, by rw [List.map_append, b6, c3]; rfl, ?_⟩
      intro p hp
      simp only [List.mem_cons] at hp
      rcases hp with rfl | hp
      · simpa using b9
      · exact c4 p hp

end Mflt.Collect
