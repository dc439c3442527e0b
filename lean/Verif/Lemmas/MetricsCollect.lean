import Verif.Lemmas.MetricsActs
import Verif.Spec.MetricsCollect

/-! # Lemmas: built-in metrics -/

namespace Mflt.Collect

open Spec.Metrics Spec.Collect
open Spec.Cbor (Item)

/-- The effect of calls on an unsigned metric. -/
def eff (k : Nat) : Option Int → List Op → Option Int
  | v, [] => v
  | v, .add k' a :: ops => eff k (if k' = k then some (clamp 0 4294967295 (v.getD 0 + a)) else v) ops
  | v, .setUnsigned k' x :: ops => eff k (if k' = k then some (x : Int) else v) ops
  | v, _ :: ops => eff k v ops

theorem eff_append (k : Nat) (a b : List Op) (v : Option Int) : eff k v (a ++ b) = eff k (eff k v a) b := by
  induction a generalizing v with
  | nil => rfl
  | cons op a ih => cases op <;> simp only [List.cons_append, eff, ih]

theorem eff_leaves {k session : Nat} (a : List Op) (h : ∀ op ∈ a, leaves k session op) (v : Option Int) :
    eff k v a = v := by
  induction a generalizing v with
  | nil => rfl
  | cons op a ih =>
    have h1 := h op (by simp)
    have h2 := ih fun op ho => h op (by simp [ho])
    cases op <;> simp only [eff, leaves] at h1 ⊢ <;> simp [h1, h2]

theorem leaves_ok {k session : Nat} {op : Op} (h : leaves k session op) : (Act.call op).ok session := by
  cases op <;> simp_all [leaves, Act.ok]

theorem eff_step {dev : SerializerHelper.Device} {keys : List Key} {session k : Nat} {key : Key}
    (hk : keys[k]? = some key) (hty : key.ty = .unsigned) (hses : key.session = session) {op : Op}
    (hok : (Act.call op).ok session) {s s' : Spec.Metrics.State} {o : Out} {v : Option Int}
    (hs : s k = .int v) (h : step dev keys s op = some (o, s')) : s' k = .int (eff k v [op]) := by
  have hty' : keys[k]?.map Key.ty = some .unsigned := by rw [hk]; simp [hty]
  have hr : Metrics.InRange .unsigned 0 4294967295 := .inr ⟨rfl, rfl, rfl⟩
  have hst := Metrics.step_int hty' hr hs h
  cases op with
  | setSigned k' x =>
    rcases hst with rfl | hst
    · simp only [step] at h
      rw [hty'] at h
      split at h
      · cases h
      · simp only [Option.some.injEq, Prod.mk.injEq] at h
        rw [← h.2, hs]; rfl
    · rw [hst, hs]; rfl
  | setUnsigned k' x =>
    simp only [eff]
    rcases hst with rfl | hst
    · simp only [step] at h
      rw [hty'] at h
      split at h
      · cases h
      · simp only [Option.some.injEq, Prod.mk.injEq] at h
        rw [← h.2]; simp [upd]
    · by_cases hkk : k' = k
      · subst hkk
        simp only [step] at h
        rw [hty'] at h
        split at h
        · cases h
        · simp only [Option.some.injEq, Prod.mk.injEq] at h
          rw [← h.2]; simp [upd]
      · rw [hst, hs, if_neg hkk]
  | add k' a =>
    simp only at hst
    simp only [eff]
    rw [hst]
    split
    · rfl
    · exact hs
  | clear s2 =>
    simp only [Act.ok] at hok
    simp only [hk, Option.map_some, hses] at hst
    rw [if_neg (fun hc => hok (Option.some.inj hc).symm)] at hst
    rw [hst, hs]; rfl
  | clearAll => simp only [Act.ok] at hok
  | _ => simp only at hst; rw [hst, hs]; rfl

theorem run_calls {dev : SerializerHelper.Device} {keys : List Key} {session k : Nat} {key : Key}
    (hk : keys[k]? = some key) (hty : key.ty = .unsigned) (hses : key.session = session) :
    ∀ (ops : List Op), (∀ op ∈ ops, (Act.call op).ok session) → ∀ {s s' : Spec.Metrics.State}
      {es : List (Option Item)} {v : Option Int}, s k = .int v →
      runActs dev keys session s (ops.map Act.call) = some (es, s') →
      es = [] ∧ s' k = .int (eff k v ops) := by
  intro ops
  induction ops with
  | nil =>
    intro _ s s' es v hs h
    obtain ⟨rfl, rfl⟩ : [] = es ∧ s = s' := by simpa [runActs] using h
    exact ⟨rfl, hs⟩
  | cons op ops ih =>
    intro hok s s' es v hs h
    simp only [List.map_cons, runActs] at h
    obtain ⟨⟨o, s1⟩, h1, h2⟩ := Option.bind_eq_some_iff.mp h
    have h3 := eff_step hk hty hses (hok op (by simp)) hs h1
    obtain ⟨a, b⟩ := ih (fun op ho => hok op (by simp [ho])) h3 h2
    refine ⟨a, ?_⟩
    rw [b, show op :: ops = [op] ++ ops from rfl, eff_append]

theorem runActs_split {dev : SerializerHelper.Device} {keys : List Key} {session : Nat} (as bs : List Act) :
    ∀ {s : Spec.Metrics.State} {es s'}, runActs dev keys session s (as ++ bs) = some (es, s') →
      ∃ es1 s1 es2, runActs dev keys session s as = some (es1, s1) ∧
        runActs dev keys session s1 bs = some (es2, s') ∧ es = es1 ++ es2 := by
  induction as with
  | nil => intro s es s' h; exact ⟨[], s, es, rfl, h, by simp⟩
  | cons a as ih =>
    intro s es s' h
    cases a with
    | call op =>
      simp only [List.cons_append, runActs] at h ⊢
      obtain ⟨⟨o, s1⟩, h1, h2⟩ := Option.bind_eq_some_iff.mp h
      obtain ⟨es1, s2, es2, a1, a2, a3⟩ := ih h2
      exact ⟨es1, s2, es2, by rw [h1]; exact a1, a2, a3⟩
    | flush time =>
      simp only [List.cons_append, runActs] at h ⊢
      obtain ⟨⟨o, s1⟩, h1, h2⟩ := Option.bind_eq_some_iff.mp h
      obtain ⟨⟨o2, s2⟩, h3, h4⟩ := Option.bind_eq_some_iff.mp h2
      obtain ⟨⟨p, s3⟩, h5, h6⟩ := Option.map_eq_some_iff.mp h4
      obtain ⟨es1, s4, es2, a1, a2, a3⟩ := ih h5
      simp only [Prod.mk.injEq] at h6
      refine ⟨o.event? :: es1, s4, es2, ?_, ?_, ?_⟩
      · rw [h1]; simp only [Option.bind_some]; rw [h3]; simp only [Option.bind_some]; rw [a1]; rfl
      · rw [← h6.2]; exact a2
      · rw [← h6.1, a3]; rfl

theorem run_flush {dev : SerializerHelper.Device} {keys : List Key} {session k : Nat} {key : Key}
    (hk : keys[k]? = some key) (hty : key.ty = .unsigned) (hses : key.session = session) {time : Option Nat}
    {s s' : Spec.Metrics.State} {es : List (Option Item)} {v : Option Int} (hs : s k = .int v)
    (h : runActs dev keys session s [.flush time] = some (es, s')) :
    es.map (fun e => e.bind fun e => eventMetric e (position keys session k)) =
      [some (v.elim Item.null Item.int)] ∧ s' k = .int none := by
  have hty' : keys[k]?.map Key.ty = some .unsigned := by rw [hk]; simp [hty]
  have hr : Metrics.InRange .unsigned 0 4294967295 := .inr ⟨rfl, rfl, rfl⟩
  rw [runActs] at h
  obtain ⟨⟨o, s1⟩, h1, h2⟩ := Option.bind_eq_some_iff.mp h
  obtain ⟨⟨o2, s2⟩, h3, h4⟩ := Option.bind_eq_some_iff.mp h2
  simp only [runActs, Option.map_some, Option.some.injEq, Prod.mk.injEq] at h4
  simp only [step] at h1
  split at h1
  · cases h1
  simp only [Option.some.injEq, Prod.mk.injEq] at h1
  obtain ⟨rfl, rfl⟩ := h1
  have hst := Metrics.step_int hty' hr hs h3
  simp only [hk, Option.map_some, hses, if_true] at hst
  rw [← h4.1, ← h4.2]
  refine ⟨?_, hst⟩
  simp only [List.map_cons, List.map_nil, Out.event?, Option.bind_some,
    Metrics.eventMetric_get dev time s hk hses, hs]
  cases v <;> rfl

/-- For each heartbeat of a history, what the built-in calls make of the unsigned metric `k`. -/
def values (cfg : Config) (K : Keys) (k : Nat) : State → List Event → List (Option Int)
  | _, [] => []
  | s, .beat b :: es => eff k none (builtin cfg K s b).1 :: values cfg K k (builtin cfg K s b).2 es
  | s, .stoppedDischarging :: es => values cfg K k { s with battery := s.battery.stoppedDischarging } es
  | s, _ :: es => values cfg K k s es

/-- The calls of the parts, one by one. -/
theorem builtin_ops (cfg : Config) (K : Keys) (s : State) (b : Beat) :
    (builtin cfg K s b).1 = (s.reliability.collect K b.reliabilityMs b.unexpectedReboot).1 ++
      (if cfg.battery then (s.battery.collect K b.soc b.batteryMs).1 else []) ++
      (if cfg.logs then (s.logs.collect K (low32 b.logDropped) (low32 b.logRecorded)).1 else []) ++
      (if cfg.uptime then [Op.setUnsigned K.uptime (Metrics.uptimeSeconds b.uptimeMs)] else []) := by
  unfold builtin
  cases cfg.battery <;> cases cfg.logs <;> simp only [if_true, if_false, Bool.false_eq_true]

theorem builtin_state (cfg : Config) (K : Keys) (s : State) (b : Beat) :
    (builtin cfg K s b).2 = ⟨(s.reliability.collect K b.reliabilityMs b.unexpectedReboot).2,
      (if cfg.battery then (s.battery.collect K b.soc b.batteryMs).2 else s.battery),
      (if cfg.logs then (s.logs.collect K (low32 b.logDropped) (low32 b.logRecorded)).2 else s.logs)⟩ := by
  unfold builtin
  cases cfg.battery <;> cases cfg.logs <;> simp only [if_true, if_false, Bool.false_eq_true]

theorem builtin_reliability (cfg : Config) (K : Keys) (s : State) (b : Beat) :
    (builtin cfg K s b).2.reliability = (s.reliability.collect K b.reliabilityMs b.unexpectedReboot).2 := by
  rw [builtin_state]

theorem reliability_ops (K : Keys) (r : Reliability) (now : Nat) (u : Bool) :
    (r.collect K now u).1 = [] ∨ ∃ a b, (r.collect K now u).1 = [.add K.hours a, .add K.crashfreeHours b] := by
  unfold Reliability.collect
  dsimp only
  split
  · exact .inl rfl
  · exact .inr ⟨_, _, rfl⟩

theorem battery_ops (K : Keys) (b : Battery) (r : SocReading) (now : Nat) :
    ∃ x y : Option Nat, ∃ len, (b.collect K r now).1 =
      x.elim [] (fun d => [.setUnsigned K.socDrop d, .setUnsigned K.dischargeMs len]) ++
      y.elim [] (fun d => [.setUnsigned K.soc d]) := by
  rw [Battery.collect, Battery.accumulate]
  generalize (now + 2 ^ 64 - _) % 2 ^ 64 % 2 ^ 32 = len
  dsimp only
  split <;> split
  · exact ⟨some _, some _, _, rfl⟩
  · exact ⟨some _, none, _, rfl⟩
  · exact ⟨none, some _, 0, rfl⟩
  · exact ⟨none, none, 0, rfl⟩

/-- No built-in call clears anything. -/
theorem builtin_ok (cfg : Config) (K : Keys) (s : State) (b : Beat) (session : Nat) :
    ∀ op ∈ (builtin cfg K s b).1, (Act.call op).ok session := by
  intro op hop
  rw [builtin_ops] at hop
  simp only [List.mem_append] at hop
  rcases hop with ((hop | hop) | hop) | hop
  · rcases reliability_ops K s.reliability b.reliabilityMs b.unexpectedReboot with h | ⟨_, _, h⟩ <;>
      rw [h] at hop <;> simp only [List.mem_cons, List.not_mem_nil, or_false] at hop
    rcases hop with rfl | rfl <;> trivial
  · obtain ⟨x, y, len, h⟩ := battery_ops K s.battery b.soc b.batteryMs
    rw [h] at hop
    split at hop
    · rcases x with _ | x <;> rcases y with _ | y <;> simp at hop
      · subst hop; trivial
      · rcases hop with rfl | rfl <;> trivial
      · rcases hop with rfl | rfl | rfl <;> trivial
    · cases hop
  · split at hop
    · simp only [LogCounts.collect, List.mem_cons, List.not_mem_nil, or_false] at hop
      rcases hop with rfl | rfl <;> trivial
    · cases hop
  · split at hop
    · simp only [List.mem_cons, List.not_mem_nil, or_false] at hop
      subst hop; trivial
    · cases hop

theorem connectivity_ok (K : Keys) (c : ConnState) (t1 t2 : Nat) (k session : Nat) :
    ∀ op ∈ connectivityChange K t1 t2 c, leaves k session op := by
  intro op hop
  cases c <;> simp only [connectivityChange, List.mem_cons, List.not_mem_nil, or_false] at hop
  · rcases hop with rfl | rfl <;> trivial
  · subst hop; trivial
  · rcases hop with rfl | rfl <;> trivial
  · rcases hop with rfl | rfl <;> trivial

/-- The reports of an unsigned metric that only the built-in calls change. -/
theorem reported_values {dev : SerializerHelper.Device} {keys : List Key} {session k : Nat} {key : Key}
    (hk : keys[k]? = some key) (hty : key.ty = .unsigned) (hses : key.session = session) (cfg : Config)
    (K : Keys) : ∀ (evs : List Event), (∀ e ∈ evs, untouched k session e) → ∀ {c : State}
      {s s' : Spec.Metrics.State} {es : List (Option Item)}, s k = .int none →
      runActs dev keys session s (acts cfg K c evs) = some (es, s') →
      es.map (fun e => e.bind fun e => eventMetric e (position keys session k)) =
        (values cfg K k c evs).map (fun v => some (v.elim Item.null Item.int)) ∧ s' k = .int none := by
  intro evs
  induction evs with
  | nil =>
    intro _ c s s' es hs h
    obtain ⟨rfl, rfl⟩ : [] = es ∧ s = s' := by simpa [acts, runActs] using h
    exact ⟨rfl, hs⟩
  | cons e evs ih =>
    intro hu c s s' es hs h
    have hu' : ∀ e ∈ evs, untouched k session e := fun e he => hu e (by simp [he])
    have hue := hu e (by simp)
    rw [acts] at h
    obtain ⟨es1, s1, es2, h1, h2, rfl⟩ := runActs_split _ _ h
    cases e with
    | call op =>
      simp only [untouched] at hue
      obtain ⟨rfl, h3⟩ := run_calls hk hty hses [op] (by
        intro op' ho; simp only [List.mem_singleton] at ho; subst ho; exact leaves_ok hue) hs h1
      rw [eff_leaves (session := session) [op] (by
        intro op' ho; simp only [List.mem_singleton] at ho; subst ho; exact hue)] at h3
      obtain ⟨a, b⟩ := ih hu' h3 h2
      exact ⟨by simpa [values, eventActs] using a, b⟩
    | connectivity cs t1 t2 =>
      obtain ⟨rfl, h3⟩ := run_calls hk hty hses _ (fun op ho => leaves_ok (connectivity_ok K cs t1 t2 k session op ho))
        hs h1
      rw [eff_leaves _ (connectivity_ok K cs t1 t2 k session)] at h3
      obtain ⟨a, b⟩ := ih hu' h3 h2
      exact ⟨by simpa [values, eventActs] using a, b⟩
    | stoppedDischarging =>
      simp only [eventActs, runActs, Option.some.injEq, Prod.mk.injEq] at h1
      obtain ⟨rfl, rfl⟩ := h1
      obtain ⟨a, b⟩ := ih hu' hs h2
      exact ⟨by simpa [values, eventActs] using a, b⟩
    | beat b =>
      simp only [untouched] at hue
      have hlist : (eventActs cfg K c (.beat b)).1 = ([Op.updateTimers b.timers] ++ b.sdkCalls ++
          (builtin cfg K c b).1 ++ b.userCalls).map Act.call ++ [Act.flush b.captureTime] := by
        simp [eventActs, heartbeat]
      rw [hlist] at h1
      obtain ⟨es3, s3, es4, h3, h4, rfl⟩ := runActs_split _ _ h1
      obtain ⟨rfl, h5⟩ := run_calls hk hty hses _ (by
        intro op ho
        simp only [List.mem_append, List.mem_singleton] at ho
        rcases ho with ((rfl | ho) | ho) | ho
        · trivial
        · exact leaves_ok (hue.1 op ho)
        · exact builtin_ok cfg K c b session op ho
        · exact leaves_ok (hue.2 op ho)) hs h3
      obtain ⟨h6, h7⟩ := run_flush hk hty hses h5 h4
      obtain ⟨a, b'⟩ := ih hu' h7 h2
      refine ⟨?_, b'⟩
      rw [List.nil_append, List.map_append, h6, a]
      simp only [values, List.map_cons, eventActs, heartbeat]
      rw [eff_append, eff_append, eff_append, eff_leaves (session := session) _ hue.2,
        eff_leaves (session := session) b.sdkCalls hue.1]
      rfl

/-! ## What the parts do not touch -/

theorem reliability_leaves {K : Keys} {k session : Nat} (h1 : K.hours ≠ k) (h2 : K.crashfreeHours ≠ k)
    (r : Reliability) (now : Nat) (u : Bool) : ∀ op ∈ (r.collect K now u).1, leaves k session op := by
  intro op hop
  rcases reliability_ops K r now u with h | ⟨_, _, h⟩ <;>
    rw [h] at hop <;> simp only [List.mem_cons, List.not_mem_nil, or_false] at hop
  rcases hop with rfl | rfl <;> assumption

theorem battery_leaves {K : Keys} {k session : Nat} (h1 : K.socDrop ≠ k) (h2 : K.dischargeMs ≠ k)
    (h3 : K.soc ≠ k) (on : Bool) (b : Battery) (r : SocReading) (now : Nat) :
    ∀ op ∈ (if on then (b.collect K r now).1 else []), leaves k session op := by
  intro op hop
  obtain ⟨x, y, len, h⟩ := battery_ops K b r now
  rw [h] at hop
  split at hop
  · rcases x with _ | x <;> rcases y with _ | y <;> simp at hop
    · subst hop; exact h3
    · rcases hop with rfl | rfl <;> assumption
    · rcases hop with rfl | rfl | rfl <;> assumption
  · cases hop

theorem logs_leaves {K : Keys} {k session : Nat} (h1 : K.logDropped ≠ k) (h2 : K.logRecorded ≠ k) (on : Bool)
    (l : LogCounts) (d r : Nat) : ∀ op ∈ (if on then (l.collect K d r).1 else []), leaves k session op := by
  intro op hop
  split at hop
  · simp only [LogCounts.collect, List.mem_cons, List.not_mem_nil, or_false] at hop
    rcases hop with rfl | rfl <;> assumption
  · cases hop

theorem uptime_leaves {K : Keys} {k session : Nat} (h1 : K.uptime ≠ k) (on : Bool) (v : Nat) :
    ∀ op ∈ (if on then [Op.setUnsigned K.uptime v] else []), leaves k session op := by
  intro op hop
  split at hop
  · simp only [List.mem_cons, List.not_mem_nil, or_false] at hop
    subst hop; exact h1
  · cases hop

/-! ## Operational hours -/

theorem reliability_eff {cfg : Config} {K : Keys} {k : Nat} (h1 : K.socDrop ≠ k) (h2 : K.dischargeMs ≠ k)
    (h3 : K.soc ≠ k) (h4 : K.logDropped ≠ k) (h5 : K.logRecorded ≠ k) (h6 : K.uptime ≠ k) (s : State)
    (b : Beat) : eff k none (builtin cfg K s b).1 =
      eff k none (s.reliability.collect K b.reliabilityMs b.unexpectedReboot).1 := by
  rw [builtin_ops, eff_append, eff_append, eff_append, eff_leaves (session := 0) _ (uptime_leaves h6 _ _),
    eff_leaves (session := 0) _ (logs_leaves h4 h5 _ _ _ _),
    eff_leaves (session := 0) _ (battery_leaves h1 h2 h3 _ _ _ _)]

/-- The remainder of the hours at time `t`. -/
def Reliability.At (r : Reliability) (t : Nat) : Prop :=
  r.lastHeartbeatMs = t % 4294967296 ∧ r.operationalMs = t % 3600000

theorem asInt32_small {v : Nat} (h : v < 2147483648) : asInt32 v = v := by
  unfold asInt32
  rw [BitVec.toInt_eq_toNat_cond]
  simp only [BitVec.toNat_ofNat]
  have : v % 2 ^ 32 = v := Nat.mod_eq_of_lt (by omega)
  rw [this, if_pos (by omega)]

theorem sub32_def (a b : Nat) : sub32 a b = (a + 4294967296 - b) % 4294967296 := by
  unfold sub32; rw [show (2 : Nat) ^ 32 = 4294967296 from rfl]

theorem reliability_step {K : Keys} {r : Reliability} {t now : Nat} (hr : r.At t) (h1 : t ≤ now)
    (h2 : now - t < 4291367296) (u : Bool) :
    (r.collect K now u).1 = (if hoursIn now - hoursIn t = 0 then [] else
      [.add K.hours ((hoursIn now - hoursIn t : Nat) : Int), .add K.crashfreeHours
        (((hoursIn now - hoursIn t : Nat) : Int) - (if r.counted then 0 else if u then 1 else 0))]) ∧
    (r.collect K now u).2.At now ∧
    ((r.collect K now u).2.counted = (r.counted || decide (hoursIn now - hoursIn t ≠ 0))) := by
  obtain ⟨a, b⟩ := hr
  have e1 : sub32 (now % 4294967296) r.lastHeartbeatMs = now - t := by
    rw [sub32_def, a]; omega
  have e2 : add32 r.operationalMs (now - t) = t % 3600000 + (now - t) := by
    rw [add32_eq, b]; omega
  have e3 : (t % 3600000 + (now - t)) / 1000 / 3600 = now / 3600000 - t / 3600000 := by omega
  have e4 : sub32 (t % 3600000 + (now - t)) ((now / 3600000 - t / 3600000) * 3600 * 1000 % 4294967296) =
      now % 3600000 := by
    rw [sub32_def]; omega
  unfold Reliability.collect hoursIn
  simp only [show (2 : Nat) ^ 32 = 4294967296 from rfl, e1, e2, e3, e4]
  by_cases h0 : now / 3600000 - t / 3600000 = 0
  · rw [if_pos h0, if_pos h0, if_pos h0]
    exact ⟨rfl, ⟨rfl, rfl⟩, by simp [h0]⟩
  · rw [if_neg h0, if_neg h0, if_neg h0]
    refine ⟨?_, ⟨rfl, rfl⟩, ?_⟩
    · rw [asInt32_small (by omega)]
      have e5 : ∀ x, x ≤ 1 → asInt32 (sub32 (now / 3600000 - t / 3600000) x) =
          ((now / 3600000 - t / 3600000 : Nat) : Int) - x := by
        intro x hx
        rw [sub32_eq (by omega) (by omega), asInt32_small (by omega)]
        omega
      cases r.counted <;> cases u <;> simp [e5 0 (by omega), e5 1 (by omega)]
    · simp [h0]

theorem clamp_add {v : Nat} (h : v ≤ 4294967295) : clamp 0 4294967295 ((none : Option Int).getD 0 + (v : Int)) = v := by
  unfold clamp; simp only [Option.getD_none]; split
  · omega
  · split <;> omega

theorem item_int (n : Nat) : Item.int (n : Int) = .uint n := by simp [Item.int]

theorem item_int_sub {n x : Nat} (h : x ≤ n) : Item.int ((n : Int) - (x : Int)) = .uint (n - x) := by
  rw [← Int.ofNat_sub h, item_int]

theorem hours_values {cfg : Config} {K : Keys} (hd : K.crashfreeHours ≠ K.hours) (h1 : K.socDrop ≠ K.hours)
    (h2 : K.dischargeMs ≠ K.hours) (h3 : K.soc ≠ K.hours) (h4 : K.logDropped ≠ K.hours)
    (h5 : K.logRecorded ≠ K.hours) (h6 : K.uptime ≠ K.hours) :
    ∀ (evs : List Event) {s : State} {t : Nat}, s.reliability.At t → steady t (beats evs) →
      (values cfg K K.hours s evs).map (fun v => some (v.elim Item.null Item.int)) =
        (hourReports t (beats evs)).map some := by
  intro evs
  induction evs with
  | nil => intro s t _ _; rfl
  | cons e evs ih =>
    intro s t hs hst
    cases e with
    | beat b =>
      rw [beats, steady] at hst
      obtain ⟨a, c, d⟩ := hst
      obtain ⟨e1, e2, -⟩ := reliability_step (K := K) hs a c b.unexpectedReboot
      simp only [values, beats, hourReports, List.map_cons]
      have hn : (builtin cfg K s b).2.reliability.At b.reliabilityMs := by
        rw [builtin_reliability]; exact e2
      rw [ih (s := (builtin cfg K s b).2) (t := b.reliabilityMs) hn d,
        reliability_eff h1 h2 h3 h4 h5 h6, e1]
      congr 1
      have : hoursIn b.reliabilityMs - hoursIn t ≤ 4294967295 := by unfold hoursIn; omega
      generalize hoursIn b.reliabilityMs - hoursIn t = n at *
      split
      · rfl
      · simp only [eff, if_true, if_neg hd, clamp_add this, numberOrNull, Option.elim, item_int]
    | call op => simpa [values, beats] using ih hs hst
    | connectivity c t1 t2 => simpa [values, beats] using ih hs hst
    | stoppedDischarging =>
      exact ih (s := { s with battery := s.battery.stoppedDischarging }) hs hst

theorem crashfree_values {cfg : Config} {K : Keys} (hd : K.hours ≠ K.crashfreeHours)
    (h1 : K.socDrop ≠ K.crashfreeHours) (h2 : K.dischargeMs ≠ K.crashfreeHours) (h3 : K.soc ≠ K.crashfreeHours)
    (h4 : K.logDropped ≠ K.crashfreeHours) (h5 : K.logRecorded ≠ K.crashfreeHours)
    (h6 : K.uptime ≠ K.crashfreeHours) :
    ∀ (evs : List Event) {s : State} {t : Nat}, s.reliability.At t → steady t (beats evs) →
      (values cfg K K.crashfreeHours s evs).map (fun v => some (v.elim Item.null Item.int)) =
        (if s.reliability.counted then hourReports t (beats evs) else crashfreeReports t (beats evs)).map some := by
  intro evs
  induction evs with
  | nil => intro s t _ _; simp [values, beats, hourReports, crashfreeReports]
  | cons e evs ih =>
    intro s t hs hst
    cases e with
    | beat b =>
      rw [beats, steady] at hst
      obtain ⟨a, c, d⟩ := hst
      obtain ⟨e1, e2, e3⟩ := reliability_step (K := K) hs a c b.unexpectedReboot
      simp only [values, beats, hourReports, crashfreeReports, List.map_cons]
      have hn : (builtin cfg K s b).2.reliability.At b.reliabilityMs := by
        rw [builtin_reliability]; exact e2
      rw [ih (s := (builtin cfg K s b).2) (t := b.reliabilityMs) hn d,
        reliability_eff h1 h2 h3 h4 h5 h6, e1, builtin_state]
      simp only [e3]
      have : hoursIn b.reliabilityMs - hoursIn t ≤ 4294967295 := by unfold hoursIn; omega
      generalize hoursIn b.reliabilityMs - hoursIn t = n at *
      by_cases h0 : n = 0
      · subst h0
        cases s.reliability.counted <;> simp [eff, numberOrNull]
      · have e4 : ∀ x : Int, (x = 0 ∨ x = 1) →
            clamp 0 4294967295 ((none : Option Int).getD 0 + ((n : Int) - x)) = (n : Int) - x := by
          intro x hx; unfold clamp; simp only [Option.getD_none]
          split
          · omega
          · split <;> omega
        have e5 : Item.int ((n : Int) - 1) = .uint (n - 1) := item_int_sub (x := 1) (by omega)
        cases s.reliability.counted <;> cases b.unexpectedReboot <;>
          simp only [eff, h0, hd, if_true, if_false, Bool.false_eq_true, e4 0 (.inl rfl), e4 1 (.inr rfl), Option.elim,
            numberOrNull, Bool.or_true, Bool.true_or, Bool.false_or, ne_eq, not_false_eq_true, decide_true,
            List.map_cons, Int.sub_zero, item_int, e5, Nat.sub_zero, clamp_add this]
    | call op => simpa [values, beats] using ih hs hst
    | connectivity c t1 t2 => simpa [values, beats] using ih hs hst
    | stoppedDischarging =>
      exact ih (s := { s with battery := s.battery.stoppedDischarging }) hs hst

theorem amount_null : amount .null = 0 := rfl
theorem amount_uint (n : Nat) : amount (.uint n) = n := rfl

theorem hours_sum : ∀ (bs : List Beat) (t : Nat), steady t bs →
    ((hourReports t bs).map amount).sum = ((hoursIn (lastBeat t bs) - hoursIn t : Nat) : Int) ∧
      t ≤ lastBeat t bs
  | [], t, _ => by simp [hourReports, lastBeat]
  | b :: bs, t, h => by
    obtain ⟨a, -, d⟩ := h
    obtain ⟨h1, h2⟩ := hours_sum bs b.reliabilityMs d
    simp only [hourReports, lastBeat, List.map_cons, List.sum_cons, h1]
    refine ⟨?_, by omega⟩
    generalize lastBeat b.reliabilityMs bs = l at *
    unfold hoursIn at *
    split
    · simp only [numberOrNull, amount_null, amount_uint]; omega
    · simp only [numberOrNull, amount_null, amount_uint]; omega

theorem crashfree_sum : ∀ (bs : List Beat) (t : Nat), steady t bs →
    ((crashfreeReports t bs).map amount).sum =
      ((hourReports t bs).map amount).sum - (if crashed t bs then 1 else 0)
  | [], t, _ => by simp [hourReports, crashfreeReports, crashed]
  | b :: bs, t, h => by
    obtain ⟨a, -, d⟩ := h
    have h1 := crashfree_sum bs b.reliabilityMs d
    simp only [hourReports, crashfreeReports, crashed]
    split
    · simp only [List.map_cons, List.sum_cons, h1, numberOrNull, amount_null, amount_uint]; omega
    · simp only [List.map_cons, List.sum_cons, numberOrNull, amount_null, amount_uint]
      split <;> omega

theorem crashed_eq (u : Bool) : ∀ (bs : List Beat) (t : Nat), steady t bs → (∀ b ∈ bs, b.unexpectedReboot = u) →
    crashed t bs = (u && decide (0 < ((hourReports t bs).map amount).sum))
  | [], t, _, _ => by simp [hourReports, crashed]
  | b :: bs, t, h, hu => by
    obtain ⟨a, -, d⟩ := h
    have h1 := crashed_eq u bs b.reliabilityMs d fun b' hb' => hu b' (by simp [hb'])
    have h2 := (hours_sum bs b.reliabilityMs d).1
    simp only [hourReports, crashed]
    split
    · rw [h1]; simp only [List.map_cons, List.sum_cons, numberOrNull, amount_null, Int.zero_add]
    · rw [hu b (by simp), List.map_cons, List.sum_cons, numberOrNull, amount_uint, h2]
      rw [decide_eq_true (by omega), Bool.and_true]

/-! ## Battery -/

theorem value_valid (r : SocReading) : (r.value ≥ 0 ↔ validSoc r = true) ∧
    (validSoc r = true → r.value = (r.soc.toNat : Int)) := by
  have h := r.soc.isLt
  unfold SocReading.value validSoc
  rw [BitVec.toInt_eq_toNat_cond]
  by_cases h0 : r.rv = 0
  · rw [if_pos h0]
    simp only [h0, beq_self_eq_true, Bool.true_and, decide_eq_true_eq]
    constructor
    · split <;> omega
    · intro h1; rw [if_pos (by omega)]
  · rw [if_neg h0]
    simp [h0]

/-- The static variables of the battery metrics after a reading. -/
def Battery.At (b : Battery) (seen : Seen) : Prop :=
  b.lastSoc = seen.reading.value ∧ b.startMs = seen.time ∧ b.stopped = (seen.stopped || !seen.reading.discharging)

/-- The calls for a drop. -/
def dropOps (K : Keys) : Option (Nat × Nat) → List Op
  | some (d, l) => [.setUnsigned K.socDrop d, .setUnsigned K.dischargeMs l]
  | none => []

/-- The call for a charge. -/
def chargeOps (K : Keys) : Option Nat → List Op
  | some d => [.setUnsigned K.soc d]
  | none => []

theorem battery_step {K : Keys} {b : Battery} {seen : Seen} (hb : b.At seen) (r : SocReading) {now : Nat}
    (h1 : seen.time ≤ now) (h2 : now < 18446744073709551616) :
    (b.collect K r now).1 = dropOps K (dropOf seen r now) ++
      chargeOps K (if validSoc r then some r.soc.toNat else none) ∧
    (b.collect K r now).2.At ⟨r, now, false⟩ := by
  obtain ⟨a, c, d⟩ := hb
  obtain ⟨v1, v2⟩ := value_valid r
  obtain ⟨w1, w2⟩ := value_valid seen.reading
  have hlen : (now + 2 ^ 64 - b.startMs) % 2 ^ 64 % 2 ^ 32 = (now - seen.time) % 4294967296 := by
    rw [c]; omega
  unfold Battery.collect Battery.accumulate
  dsimp only
  rw [hlen, a, d]
  refine ⟨?_, rfl, rfl, by simp⟩
  congr 1
  · unfold dropOf
    by_cases hv : validSoc r = true
    · by_cases hw : validSoc seen.reading = true
      · rw [v2 hv, w2 hw]
        simp only [hv, hw, true_and]
        cases seen.stopped <;> cases seen.reading.discharging <;> cases r.discharging <;>
          simp [dropOps]
        by_cases hle : r.soc.toNat ≤ seen.reading.soc.toNat
        · rw [if_pos hle, if_pos (by omega)]
        · rw [if_neg hle, if_neg (by omega)]
      · have : ¬ seen.reading.value ≥ 0 := fun h => hw (w1.mp h)
        simp [this, hw, dropOps]
    · have : ¬ r.value ≥ 0 := fun h => hv (v1.mp h)
      simp [this, hv, dropOps]
  · by_cases hv : validSoc r = true
    · rw [if_pos hv, if_pos (v1.mpr hv), v2 hv]; rfl
    · rw [if_neg hv, if_neg (fun h => hv (v1.mp h))]; rfl

theorem ordered_lt : ∀ (bs : List Beat) {t : Nat}, ordered t bs → t < 18446744073709551616
  | [], _, h => h
  | b :: bs, t, h => by
    rw [ordered] at h
    have := ordered_lt bs h.2
    omega

/-- What a built-in key of the battery gets from the calls of one heartbeat. -/
theorem battery_eff {cfg : Config} {K : Keys} {k : Nat} (hon : cfg.battery = true) (h1 : K.hours ≠ k)
    (h2 : K.crashfreeHours ≠ k) (h4 : K.logDropped ≠ k) (h5 : K.logRecorded ≠ k) (h6 : K.uptime ≠ k)
    (s : State) (b : Beat) : eff k none (builtin cfg K s b).1 =
      eff k none (s.battery.collect K b.soc b.batteryMs).1 := by
  rw [builtin_ops, eff_append, eff_append, eff_append, eff_leaves (session := 0) _ (uptime_leaves h6 _ _),
    eff_leaves (session := 0) _ (logs_leaves h4 h5 _ _ _ _),
    eff_leaves (session := 0) _ (reliability_leaves h1 h2 _ _ _), if_pos hon]

theorem battery_values {cfg : Config} {K : Keys} {k : Nat} (hon : cfg.battery = true) (h1 : K.hours ≠ k)
    (h2 : K.crashfreeHours ≠ k) (h4 : K.logDropped ≠ k) (h5 : K.logRecorded ≠ k) (h6 : K.uptime ≠ k) :
    ∀ (evs : List Event) {s : State} {seen : Seen}, s.battery.At seen → ordered seen.time (beats evs) →
      values cfg K k s evs = ((drops seen evs).zip (charges (beats evs))).map
        fun x => eff k none (dropOps K x.1 ++ chargeOps K x.2) := by
  intro evs
  induction evs with
  | nil => intro s seen _ _; rfl
  | cons e evs ih =>
    intro s seen hs hst
    cases e with
    | beat b =>
      rw [beats, ordered] at hst
      obtain ⟨e1, e2⟩ := battery_step (K := K) hs b.soc hst.1 (ordered_lt _ hst.2)
      simp only [values, beats, drops, charges, List.zip_cons_cons, List.map_cons]
      have hn : (builtin cfg K s b).2.battery.At ⟨b.soc, b.batteryMs, false⟩ := by
        rw [builtin_state]; rw [if_pos hon]; exact e2
      rw [ih (s := (builtin cfg K s b).2) hn hst.2, battery_eff hon h1 h2 h4 h5 h6, e1]
    | call op => simpa [values, beats, drops] using ih hs hst
    | connectivity c t1 t2 => simpa [values, beats, drops] using ih hs hst
    | stoppedDischarging =>
      refine ih (s := { s with battery := s.battery.stoppedDischarging })
        (seen := { seen with stopped := true }) ?_ hst
      exact ⟨hs.1, hs.2.1, by simp [Battery.stoppedDischarging]⟩

theorem drops_length : ∀ (evs : List Event) (seen : Seen), (drops seen evs).length = (charges (beats evs)).length
  | [], _ => rfl
  | .beat b :: evs, seen => by simp [drops, beats, charges, drops_length evs]
  | .call _ :: evs, seen => by simpa [drops, beats] using drops_length evs seen
  | .connectivity _ _ _ :: evs, seen => by simpa [drops, beats] using drops_length evs seen
  | .stoppedDischarging :: evs, seen => by simpa [drops, beats] using drops_length evs _

theorem map_zip_fst {α β γ : Type} (f : α → γ) : ∀ (a : List α) (b : List β), a.length = b.length →
    (a.zip b).map (fun x => f x.1) = a.map f
  | [], _, _ => rfl
  | x :: a, [], h => by simp at h
  | x :: a, y :: b, h => by simp only [List.zip_cons_cons, List.map_cons, map_zip_fst f a b (by simpa using h)]

theorem map_zip_snd {α β γ : Type} (f : β → γ) : ∀ (a : List α) (b : List β), a.length = b.length →
    (a.zip b).map (fun x => f x.2) = b.map f
  | [], [], _ => rfl
  | [], y :: b, h => by simp at h
  | x :: a, [], h => by simp at h
  | x :: a, y :: b, h => by simp only [List.zip_cons_cons, List.map_cons, map_zip_snd f a b (by simpa using h)]

/-! ## Log lines -/

theorem logs_eff {cfg : Config} {K : Keys} {k : Nat} (hon : cfg.logs = true) (h1 : K.hours ≠ k)
    (h2 : K.crashfreeHours ≠ k) (h3 : K.socDrop ≠ k) (h4 : K.dischargeMs ≠ k) (h5 : K.soc ≠ k) (h6 : K.uptime ≠ k)
    (s : State) (b : Beat) : eff k none (builtin cfg K s b).1 =
      eff k none (s.logs.collect K (low32 b.logDropped) (low32 b.logRecorded)).1 := by
  rw [builtin_ops, eff_append, eff_append, eff_append, eff_leaves (session := 0) _ (uptime_leaves h6 _ _),
    eff_leaves (session := 0) _ (battery_leaves h3 h4 h5 _ _ _ _),
    eff_leaves (session := 0) _ (reliability_leaves h1 h2 _ _ _), if_pos hon]

theorem low32_def (v : Nat) : low32 v = v % 4294967296 := by
  unfold low32; rw [show (2 : Nat) ^ 32 = 4294967296 from rfl]

theorem growth_amount {n m : Nat} (h1 : n ≤ m) (h2 : m - n < 2147483648) :
    clamp 0 4294967295 ((none : Option Int).getD 0 + asInt32 (sub32 (low32 m) (low32 n))) = ((m - n : Nat) : Int) := by
  rw [show sub32 (low32 m) (low32 n) = m - n by rw [sub32_def, low32_def, low32_def]; omega,
    asInt32_small h2, clamp_add (by omega)]

theorem dropped_values {cfg : Config} {K : Keys} (hon : cfg.logs = true) (h0 : K.logRecorded ≠ K.logDropped)
    (h1 : K.hours ≠ K.logDropped) (h2 : K.crashfreeHours ≠ K.logDropped) (h3 : K.socDrop ≠ K.logDropped)
    (h4 : K.dischargeMs ≠ K.logDropped) (h5 : K.soc ≠ K.logDropped) (h6 : K.uptime ≠ K.logDropped) :
    ∀ (evs : List Event) {s : State} {n : Nat}, s.logs.dropped = low32 n →
      growing Beat.logDropped n (beats evs) →
      values cfg K K.logDropped s evs = (growths Beat.logDropped n (beats evs)).map fun x : Nat => some (x : Int) := by
  intro evs
  induction evs with
  | nil => intro s n _ _; rfl
  | cons e evs ih =>
    intro s n hs hst
    cases e with
    | beat b =>
      rw [beats, growing] at hst
      simp only [values, beats, growths, List.map_cons]
      have hn : (builtin cfg K s b).2.logs.dropped = low32 b.logDropped := by
        rw [builtin_state]; rw [if_pos hon]; rfl
      rw [ih (s := (builtin cfg K s b).2) hn hst.2.2, logs_eff hon h1 h2 h3 h4 h5 h6]
      congr 1
      simp only [LogCounts.collect, eff, if_neg h0, if_true, hs, growth_amount hst.1 hst.2.1]
    | call op => simpa [values, beats] using ih hs hst
    | connectivity c t1 t2 => simpa [values, beats] using ih hs hst
    | stoppedDischarging =>
      exact ih (s := { s with battery := s.battery.stoppedDischarging }) hs hst

theorem recorded_values {cfg : Config} {K : Keys} (hon : cfg.logs = true) (h0 : K.logDropped ≠ K.logRecorded)
    (h1 : K.hours ≠ K.logRecorded) (h2 : K.crashfreeHours ≠ K.logRecorded) (h3 : K.socDrop ≠ K.logRecorded)
    (h4 : K.dischargeMs ≠ K.logRecorded) (h5 : K.soc ≠ K.logRecorded) (h6 : K.uptime ≠ K.logRecorded) :
    ∀ (evs : List Event) {s : State} {n : Nat}, s.logs.recorded = low32 n →
      growing Beat.logRecorded n (beats evs) →
      values cfg K K.logRecorded s evs = (growths Beat.logRecorded n (beats evs)).map fun x : Nat => some (x : Int) := by
  intro evs
  induction evs with
  | nil => intro s n _ _; rfl
  | cons e evs ih =>
    intro s n hs hst
    cases e with
    | beat b =>
      rw [beats, growing] at hst
      simp only [values, beats, growths, List.map_cons]
      have hn : (builtin cfg K s b).2.logs.recorded = low32 b.logRecorded := by
        rw [builtin_state]; rw [if_pos hon]; rfl
      rw [ih (s := (builtin cfg K s b).2) hn hst.2.2, logs_eff hon h1 h2 h3 h4 h5 h6]
      congr 1
      simp only [LogCounts.collect, eff, if_neg h0, if_true, hs, growth_amount hst.1 hst.2.1]
    | call op => simpa [values, beats] using ih hs hst
    | connectivity c t1 t2 => simpa [values, beats] using ih hs hst
    | stoppedDischarging =>
      exact ih (s := { s with battery := s.battery.stoppedDischarging }) hs hst

theorem growths_sum (count : Beat → Nat) : ∀ (bs : List Beat) (n : Nat), growing count n bs →
    n + (growths count n bs).sum = lastCount count n bs
  | [], n, _ => by simp [growths, lastCount]
  | b :: bs, n, h => by
    rw [growing] at h
    have := growths_sum count bs (count b) h.2.2
    simp only [growths, lastCount, List.sum_cons]
    omega

/-! ## Uptime -/

theorem uptime_values {cfg : Config} {K : Keys} (hon : cfg.uptime = true) (h1 : K.hours ≠ K.uptime)
    (h2 : K.crashfreeHours ≠ K.uptime) (h3 : K.socDrop ≠ K.uptime) (h4 : K.dischargeMs ≠ K.uptime)
    (h5 : K.soc ≠ K.uptime) (h6 : K.logDropped ≠ K.uptime) (h7 : K.logRecorded ≠ K.uptime) :
    ∀ (evs : List Event) {s : State},
      values cfg K K.uptime s evs = (beats evs).map fun b => some ((Metrics.uptimeSeconds b.uptimeMs : Nat) : Int) := by
  intro evs
  induction evs with
  | nil => intro s; rfl
  | cons e evs ih =>
    intro s
    cases e with
    | beat b =>
      simp only [values, beats, List.map_cons]
      rw [ih]
      congr 1
      rw [builtin_ops, eff_append, eff_append, eff_append,
        eff_leaves (session := 0) _ (reliability_leaves h1 h2 _ _ _),
        eff_leaves (session := 0) _ (battery_leaves h3 h4 h5 _ _ _ _),
        eff_leaves (session := 0) _ (logs_leaves h6 h7 _ _ _ _), if_pos hon]
      simp only [eff, if_true]
    | call op => simpa [values, beats] using ih
    | connectivity c t1 t2 => simpa [values, beats] using ih
    | stoppedDischarging => exact ih

end Mflt.Collect
