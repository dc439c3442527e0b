import Verif.Lemmas.MetricsActs
import Verif.Lemmas.MetricsGood
import Verif.Lemmas.MetricsSize
import Verif.Props.SerializerHelper

/-! # C34, C35, C36, C37, C53, C54, C55: metrics -/

namespace Mflt.Props

open Metrics Spec.Metrics
open Spec.Cbor (Item)

/-- What a call returns. -/
def answer (dev : SerializerHelper.Device) (tab : Table) (st : Metrics.State) (op : Op) : Option Out :=
  (exec dev tab st op).map Prod.fst

/-- The states that calls with arguments of the right type reach, at any times. -/
def Reached (dev : SerializerHelper.Device) (tab : Table) (st : Metrics.State) : Prop :=
  ∃ ops os, (∀ op ∈ ops, OpOk op) ∧ execAll dev tab (Metrics.State.init tab) ops = some (os, st)

/-- The value of a metric that counts as zero as long as it is not set. -/
def valueOr0 : Option Out → Int
  | some (.num v) => v
  | _ => 0

/-- What is read from an integer. -/
def intOut : Option Int → Out
  | none => .code (-7)
  | some v => .num v

/-- A table for examples: two sessions, all types. Session 1 is the heartbeat. -/
def exTab : Table := [⟨.timer, 0, 1⟩, ⟨.unsigned, 0, 1⟩, ⟨.signed, 0, 0⟩, ⟨.string, 8, 0⟩, ⟨.signed, 0, 1⟩,
  ⟨.timer, 0, 0⟩]

def exDev : SerializerHelper.Device := ⟨some [0x41], [0x42], [0x31], [0x43], none⟩

theorem exTab_ok : TableOk exTab := ⟨by decide, by decide⟩

theorem exDev_ok : Spec.Event.DeviceOk exDev := by
  refine ⟨?_, ?_, ?_, ?_, ?_⟩
  · intro s h; cases h; decide
  · decide
  · decide
  · decide
  · intro b h; cases h

theorem reached_good {dev : SerializerHelper.Device} (hd : Spec.Event.DeviceOk dev) {tab : Table}
    (ht : TableOk tab) {st : Metrics.State} (h : Reached dev tab st) : Good tab st := by
  obtain ⟨ops, os, h1, h2⟩ := h
  obtain ⟨os', st', a, b⟩ := execAll_good hd ht ops ⟨_, init_rel tab⟩ h1
  rw [h2] at a
  obtain ⟨-, rfl⟩ : os = os' ∧ st = st' := by simpa using a
  exact b

/-! ## Histories -/

/-- **Metrics behave as independent variables.** For every table of metrics and every history of
calls that stays within the bounds of the specification (`Spec.Metrics.step`), the results of all
calls, including the decoded events of all reports, are those of the specification. -/
theorem metrics_refine {dev : SerializerHelper.Device} (hd : Spec.Event.DeviceOk dev) {tab : Table}
    (ht : TableOk tab) (ops : List Op) {os : List Out} {s : Spec.Metrics.State}
    (h : Spec.Metrics.run dev (tab.map keyOf) (Spec.Metrics.init (tab.map keyOf)) ops = some (os, s)) :
    ∃ st, execAll dev tab (Metrics.State.init tab) ops = some (os, st) := by
  obtain ⟨st, a, -⟩ := run_rel hd ht ops (init_rel tab) h
  exact ⟨st, a⟩

/-- A saturating counter, a truncated text, a timer across the roll-over, a wrong type. -/
example : ((Spec.Metrics.run exDev (exTab.map keyOf) (Spec.Metrics.init (exTab.map keyOf))
    [.add 1 5, .add 1 (-7), .readUnsigned 1, .setText 3 [1, 2, 3], .readText 3 3, .timerStart 0 4294967290,
     .timerRead 0 4294967299, .setSigned 1 3, .readSigned 2]).map fun r =>
        r.1.map fun | .num v => v | .code c => c | .text l => l.length | _ => 99) =
    some [0, 0, 0, 0, 2, 0, 9, -2, -7] := by
  decide

/-- **C54 (no call leaves the tables).** Whatever metric calls are made, on whatever keys, with
whatever values, at whatever times: no call accesses memory outside of the tables of the metrics, and
every call returns. -/
theorem C54_no_undefined_access {dev : SerializerHelper.Device} (hd : Spec.Event.DeviceOk dev)
    {tab : Table} (ht : TableOk tab) (ops : List Op) (hops : ∀ op ∈ ops, OpOk op) :
    ∃ os st, execAll dev tab (Metrics.State.init tab) ops = some (os, st) ∧ os.length = ops.length := by
  obtain ⟨os, st, a, -⟩ := execAll_good hd ht ops ⟨_, init_rel tab⟩ hops
  refine ⟨os, st, a, ?_⟩
  clear hops
  revert a
  generalize Metrics.State.init tab = s0
  induction ops generalizing s0 os st with
  | nil => intro a; simp only [execAll, Option.some.injEq, Prod.mk.injEq] at a; rw [← a.1]; rfl
  | cons op ops ih =>
    intro a
    simp only [execAll] at a
    obtain ⟨r, h1, h2⟩ := Option.bind_eq_some_iff.mp a
    obtain ⟨q, h3, h4⟩ := Option.map_eq_some_iff.mp h2
    simp only [Prod.mk.injEq] at h4
    rw [← h4.1]
    simp [ih q.1 q.2 r.2 h3]

/-- Keys that do not exist, wrong types, a clock that jumps back. -/
example : ∀ op ∈ [Op.timerStart 0 5, .timerStop 0 1, .add 77 1, .setText 2 [1], .readText 3 1,
    .setSigned 1 (-1), .clear 9], OpOk op := by
  intro op h
  simp only [List.mem_cons, List.not_mem_nil, or_false] at h
  rcases h with h | h | h | h | h | h | h <;> subst h <;> simp [OpOk]

/-! ## C34 -/

theorem add_core {dev : SerializerHelper.Device} (hd : Spec.Event.DeviceOk dev) {tab : Table}
    (ht : TableOk tab) {st : Metrics.State} (hr : Reached dev tab st) {k : Nat} {kv : KV}
    (hk : tab[k]? = some kv) {amount : Int} (ha : isInt32 amount) {ty : Ty} {lo hi : Int} {read : Op}
    (hty : tyOf kv.type = ty) (hrange : InRange ty lo hi)
    (hread : ∀ s v, s k = .int v → step dev (tab.map keyOf) s read =
      some (intOut v, s)) :
    ∃ st', exec dev tab st (.add k amount) = some (.code 0, st') ∧
      answer dev tab st' read =
        some (.num (clamp lo hi (valueOr0 (answer dev tab st read) + amount))) ∧
      ∀ k' op, k' ≠ k → op.asks k' → answer dev tab st' op = answer dev tab st op := by
  obtain ⟨s, h⟩ := reached_good hd ht hr
  have hkt : (tab.map keyOf)[k]?.map Key.ty = some ty := by rw [keys_ty, hk]; simp [hty]
  obtain ⟨v, hv⟩ : ∃ v, s k = .int v := by
    rcases h.cases hk with ⟨hn, w, f, o, h1, h2, h3⟩ | ⟨hn, -⟩ | ⟨hn, -⟩
    · exact ⟨o, h2⟩
    · rw [hn] at hty; rcases hrange with ⟨rfl, -⟩ | ⟨rfl, -⟩ <;> cases hty
    · rw [hn] at hty; rcases hrange with ⟨rfl, -⟩ | ⟨rfl, -⟩ <;> cases hty
  have hst : step dev (tab.map keyOf) s (.add k amount) =
      some (.code 0, upd s k (.int (some (clamp lo hi (v.getD 0 + amount))))) := by
    simp only [step]
    rw [if_neg (by simpa using ha), hkt, hv]
    rcases hrange with ⟨rfl, rfl, rfl⟩ | ⟨rfl, rfl, rfl⟩ <;> rfl
  obtain ⟨st', e1, h'⟩ := step_rel hd ht h hst
  refine ⟨st', e1, ?_, ?_⟩
  · obtain ⟨x, a1, -⟩ := step_rel hd ht h (hread s v hv)
    obtain ⟨y, a2, -⟩ := step_rel hd ht h' (hread _ _ (show upd s k _ k = _ from if_pos rfl))
    unfold answer
    rw [a1, a2]
    cases v <;> simp [valueOr0, intOut]
  · intro k' op hne hop
    exact out_congr hd ht h' h (by simp [upd, hne]) hop

/-- **C34, signed metrics.** In every state that calls can reach, adding any 32-bit amount to a signed
metric succeeds and gives the exact sum, limited to the range of a 32-bit integer; a metric that is
not set counts as zero. Nothing about any other metric changes. -/
theorem C34_add_signed {dev : SerializerHelper.Device} (hd : Spec.Event.DeviceOk dev) {tab : Table}
    (ht : TableOk tab) {st : Metrics.State} (hr : Reached dev tab st) {k : Nat} {kv : KV}
    (hk : tab[k]? = some kv) (hty : kv.type = .signed) {amount : Int} (ha : isInt32 amount) :
    ∃ st', exec dev tab st (.add k amount) = some (.code 0, st') ∧
      answer dev tab st' (.readSigned k) = some (.num (clamp (-2147483648) 2147483647
        (valueOr0 (answer dev tab st (.readSigned k)) + amount))) ∧
      ∀ k' op, k' ≠ k → op.asks k' → answer dev tab st' op = answer dev tab st op := by
  refine add_core hd ht hr hk ha (ty := .signed) (by rw [hty]; rfl) (.inl ⟨rfl, rfl, rfl⟩) ?_
  intro s v hs
  have hkt : (tab.map keyOf)[k]?.map Key.ty = some .signed := by rw [keys_ty, hk]; simp [hty, tyOf]
  simp only [step]
  rw [hkt, hs]
  cases v <;> rfl

/-- **C34, unsigned metrics.** -/
theorem C34_add_unsigned {dev : SerializerHelper.Device} (hd : Spec.Event.DeviceOk dev) {tab : Table}
    (ht : TableOk tab) {st : Metrics.State} (hr : Reached dev tab st) {k : Nat} {kv : KV}
    (hk : tab[k]? = some kv) (hty : kv.type = .unsigned) {amount : Int} (ha : isInt32 amount) :
    ∃ st', exec dev tab st (.add k amount) = some (.code 0, st') ∧
      answer dev tab st' (.readUnsigned k) = some (.num (clamp 0 4294967295
        (valueOr0 (answer dev tab st (.readUnsigned k)) + amount))) ∧
      ∀ k' op, k' ≠ k → op.asks k' → answer dev tab st' op = answer dev tab st op := by
  refine add_core hd ht hr hk ha (ty := .unsigned) (by rw [hty]; rfl) (.inr ⟨rfl, rfl, rfl⟩) ?_
  intro s v hs
  have hkt : (tab.map keyOf)[k]?.map Key.ty = some .unsigned := by rw [keys_ty, hk]; simp [hty, tyOf]
  simp only [step]
  rw [hkt, hs]
  cases v <;> rfl

/-- The bounds are reached. -/
example : ((execAll exDev exTab (Metrics.State.init exTab)
      [.setSigned 2 2147483647, .add 2 1, .readSigned 2, .setSigned 2 (-2), .add 2 (-2147483647), .readSigned 2,
       .add 1 (-5), .readUnsigned 1, .setUnsigned 1 4294967295, .add 1 2, .readUnsigned 1, .add 1 (-1),
       .readUnsigned 1, .readSigned 4]).map fun r => r.1.map fun | .num v => v | .code c => c | _ => 99) =
    some [0, 0, 2147483647, 0, 0, -2147483648, 0, 0, 0, 0, 4294967295, 0, 4294967294, -7] := by
  decide +kernel

/-! ## C36 -/

/-- **C36 (clearing a session).** In every reachable state, clearing a session (after its report, or
when it starts) succeeds; every question about a metric of another session has the same answer as
before; the numbers of the session are unset, its texts are empty, its timers that do not run are at
zero; and all timers, of every session, run exactly if they were running. -/
theorem C36_clear {dev : SerializerHelper.Device} (hd : Spec.Event.DeviceOk dev) {tab : Table}
    (ht : TableOk tab) {st : Metrics.State} (hr : Reached dev tab st) (session : Nat) :
    ∃ st', exec dev tab st (.clear session) = some (.done, st') ∧
      (∀ k op, tab[k]?.map KV.session ≠ some session → op.asks k →
        answer dev tab st' op = answer dev tab st op) ∧
      (∀ k kv, tab[k]? = some kv → kv.session = session →
        (kv.type = .signed → answer dev tab st' (.readSigned k) = some (.code (-7))) ∧
        (kv.type = .unsigned → answer dev tab st' (.readUnsigned k) = some (.code (-7))) ∧
        (kv.type = .string → ∀ n, 0 < n → answer dev tab st' (.readText k n) = some (.text [])) ∧
        (kv.type = .timer → ∀ t t', answer dev tab st (.timerStop k t) = some (.code (-4)) →
          answer dev tab st' (.timerRead k t') = some (.num 0))) ∧
      (∀ k t, answer dev tab st' (.timerStart k t) = answer dev tab st (.timerStart k t) ∧
        answer dev tab st' (.timerStop k t) = answer dev tab st (.timerStop k t)) := by
  obtain ⟨s, h⟩ := reached_good hd ht hr
  obtain ⟨s', hs'⟩ : ∃ s' : Spec.Metrics.State, s' = fun k =>
    if ((tab.map keyOf)[k]?.map Key.session) = some session then cleared (s k) else s k := ⟨_, rfl⟩
  obtain ⟨st', e1, h'⟩ := step_rel hd ht h (op := .clear session) (o := .done) (s' := s') (by rw [hs']; rfl)
  have hsess : ∀ k : Nat, (tab.map keyOf)[k]?.map Key.session = tab[k]?.map KV.session := by
    intro k; rw [keys_get, Option.map_map]; rfl
  have hval : ∀ k kv, tab[k]? = some kv → kv.session = session → s' k = cleared (s k) := by
    intro k kv hk hks
    rw [hs']; dsimp only
    rw [if_pos (by rw [hsess, hk, ← hks]; rfl)]
  have hty : ∀ {k : Nat} {kv : KV}, tab[k]? = some kv → (tab.map keyOf)[k]?.map Key.ty = some (tyOf kv.type) := by
    intro k kv hk; rw [keys_ty, hk]; rfl
  have hans : ∀ {st s}, Rel tab st s → ∀ {op o s1}, step dev (tab.map keyOf) s op = some (o, s1) →
      answer dev tab st op = some o := by
    intro st s h op o s1 hst
    obtain ⟨x, a, -⟩ := step_rel hd ht h hst
    unfold answer; rw [a]; rfl
  refine ⟨st', e1, ?_, ?_, ?_⟩
  · intro k op hne hop
    refine out_congr hd ht h' h ?_ hop
    rw [hs']; dsimp only
    rw [if_neg (by rw [hsess]; exact hne)]
  · intro k kv hk hks
    have hv := hval k kv hk hks
    refine ⟨fun hn => ?_, fun hn => ?_, fun hn n hpos => ?_, fun hn t t' hstop => ?_⟩
    · rcases h.cases hk with ⟨-, w, f, o, h1, h2, h3⟩ | ⟨hn', -⟩ | ⟨hn', -⟩
      · rw [h2] at hv
        refine hans h' (s1 := s') ?_
        simp only [step]
        rw [hty hk, hn, hv]
        rfl
      · rw [hn] at hn'; cases hn'
      · rw [hn] at hn'; cases hn'
    · rcases h.cases hk with ⟨-, w, f, o, h1, h2, h3⟩ | ⟨hn', -⟩ | ⟨hn', -⟩
      · rw [h2] at hv
        refine hans h' (s1 := s') ?_
        simp only [step]
        rw [hty hk, hn, hv]
        rfl
      · rw [hn] at hn'; cases hn'
      · rw [hn] at hn'; cases hn'
    · rcases h.cases hk with ⟨hn', -⟩ | ⟨hn', -⟩ | ⟨-, buf, t, h1, h2, h3⟩
      · rw [hn] at hn'; simp at hn'
      · rw [hn] at hn'; cases hn'
      · rw [h2] at hv
        refine hans h' (s1 := s') ?_
        simp only [step]
        rw [if_neg (by omega), hty hk, hn, hv]
        simp [cleared, tyOf]
    · rcases h.cases hk with ⟨hn', -⟩ | ⟨-, w, m, total, since, h1, h2, h3⟩ | ⟨hn', -⟩
      · rw [hn] at hn'; simp at hn'
      · have hnone : since = none := by
          unfold answer at hstop
          simp only [exec] at hstop
          obtain ⟨x, a, b⟩ := timer_any h hk hn h2 .stop t
          rw [timerOp_timer h hk hn, a] at hstop
          cases since with
          | none => rfl
          | some u => simp at hstop
        subst hnone
        rw [h2] at hv
        refine hans h' (s1 := s') ?_
        simp only [step]
        rw [hty hk, hn, hv]
        rfl
      · rw [hn] at hn'; cases hn'
  · intro k t
    have code : ∀ (top : TimerOp), (timerOp tab st' k top t).map (fun r => r.1) =
        (timerOp tab st k top t).map (fun r => r.1) := by
      intro top
      cases hk : tab[k]? with
      | none => simp [timerOp, findValue_none hk]
      | some kv =>
        by_cases hn : kv.type = .timer
        · rw [timerOp_timer h hk hn, timerOp_timer h' hk hn]
          rcases h.cases hk with ⟨hn', -⟩ | ⟨-, v, m, total, since, h1, h2, h3⟩ | ⟨hn', -⟩
          · rw [hn] at hn'; simp at hn'
          · obtain ⟨x, a, b⟩ := timer_any h hk hn h2 top t
            obtain ⟨total', hv⟩ : ∃ total', s' k = .timer total' since := by
              rw [hs']; dsimp only
              split
              · rw [h2]; exact ⟨0, rfl⟩
              · exact ⟨total, h2⟩
            obtain ⟨y, a', b'⟩ := timer_any h' hk hn hv top t
            rw [a, a']; rfl
          · rw [hn] at hn'; cases hn'
        · rw [timerOp_other h hk hn, timerOp_other h' hk hn]; rfl
    have hfst : ∀ (o : Option (Int × Metrics.State)), (o.map fun r => (Out.code r.1, r.2)).map Prod.fst =
        (o.map fun r => r.1).map Out.code := by
      intro o; cases o <;> rfl
    constructor
    · unfold answer; simp only [exec]; rw [hfst, hfst, code]
    · unfold answer; simp only [exec]; rw [hfst, hfst, code]

/-- A session is cleared while its timer and one of the other session run. -/
example : ((execAll exDev exTab (Metrics.State.init exTab)
      [.setSigned 2 5, .setUnsigned 1 6, .setText 3 [7, 8], .timerStart 0 100, .timerStart 5 100,
       .clear 0, .readSigned 2, .readUnsigned 1, .readText 3 9, .timerStart 0 150, .timerStart 5 150,
       .timerStop 0 200, .timerStop 5 200]).map fun r =>
        r.1.map fun | .num v => v | .code c => c | .text l => l.length | _ => 99) =
    some [0, 0, 0, 0, 0, 99, -7, 6, 0, -4, -4, 0, 0] := by
  decide +kernel

/-! ## C35, C55 -/

theorem runActs_append {dev : SerializerHelper.Device} {keys : List Key} {session : Nat} (as bs : List Act) :
    ∀ {s : Spec.Metrics.State} {r}, runActs dev keys session s (as ++ bs) = some r →
      ∃ p q, runActs dev keys session s as = some p ∧ runActs dev keys session p.2 bs = some q ∧
        r = (p.1 ++ q.1, q.2) := by
  induction as with
  | nil => intro s r h; exact ⟨([], s), r, rfl, h, by simp⟩
  | cons a as ih =>
    intro s r h
    cases a with
    | call op =>
      simp only [List.cons_append, runActs] at h ⊢
      obtain ⟨⟨o, s1⟩, h1, h2⟩ := Option.bind_eq_some_iff.mp h
      obtain ⟨p, q, a1, a2, a3⟩ := ih h2
      exact ⟨p, q, by rw [h1]; exact a1, a2, a3⟩
    | flush time =>
      simp only [List.cons_append, runActs] at h ⊢
      obtain ⟨⟨o, s1⟩, h1, h2⟩ := Option.bind_eq_some_iff.mp h
      obtain ⟨⟨o2, s2⟩, h3, h4⟩ := Option.bind_eq_some_iff.mp h2
      obtain ⟨p1, h5, h6⟩ := Option.map_eq_some_iff.mp h4
      obtain ⟨p, q, a1, a2, a3⟩ := ih h5
      refine ⟨(o.event? :: p.1, p.2), q, ?_, a2, ?_⟩
      · rw [h1]; simp only [Option.bind_some]; rw [h3]; simp only [Option.bind_some]; rw [a1]; rfl
      · rw [← h6, a3]; rfl

/-- **C35 (timers account for all running time).** Take any history of metric calls and of reports of
the timer's session, each followed by clearing it, in which no timer runs for 2^31 ms without being
looked at (`runActs` is defined); the session is not cleared otherwise. Then the values of the timer
in the decoded reports and its value at the end add up to the time for which it ran: from each
effective start to the next stop, or to now. No interval is lost or counted twice, whatever the clock
values are, also across the roll-over of the 32-bit (and the 31-bit) time. -/
theorem C35_timers {dev : SerializerHelper.Device} (hd : Spec.Event.DeviceOk dev) {tab : Table}
    (ht : TableOk tab) {k : Nat} {kv : KV} (hk : tab[k]? = some kv) (hty : kv.type = .timer)
    (acts : List Act) (hok : ∀ a ∈ acts, a.ok kv.session) (now : Nat)
    (h : (runActs dev (tab.map keyOf) kv.session (Spec.Metrics.init (tab.map keyOf))
      (acts ++ [.call (.timerRead k now)])).isSome) :
    ∃ (events : List (Option Item)) (st : Metrics.State) (reported : List Nat) (rest : Nat),
      execActs dev tab kv.session (Metrics.State.init tab) acts = some (events, st) ∧
      events.map (fun e => e.bind fun e => eventMetric e (position (tab.map keyOf) kv.session k)) =
        reported.map (fun v => some (Item.uint v)) ∧
      answer dev tab st (.timerRead k now) = some (.num rest) ∧
      reported.sum + rest = runningTime k acts now := by
  obtain ⟨r, h⟩ := Option.isSome_iff_exists.mp h
  obtain ⟨⟨es, s⟩, q, h1, h2, -⟩ := runActs_append acts _ h
  have hk' : (tab.map keyOf)[k]? = some (keyOf kv) := by rw [keys_get, hk]; rfl
  have hty' : (keyOf kv).ty = .timer := by unfold keyOf; rw [hty]; rfl
  obtain ⟨st, a1, a2⟩ := acts_rel hd ht acts (init_rel tab) h1
  have hinit : Spec.Metrics.init (tab.map keyOf) k = .timer 0 none := by
    unfold Spec.Metrics.init; rw [hk']; simp [hty', fresh]
  obtain ⟨vals, total, since, b1, b2, b3⟩ := timer_acts hk' hty' (show (keyOf kv).session = kv.session from rfl)
    acts (w := ⟨none, 0⟩) (flushed := 0) hok hinit (by simp [Matches]) h1
  simp only [runActs] at h2
  obtain ⟨⟨o, s1⟩, h3, -⟩ := Option.bind_eq_some_iff.mp h2
  obtain ⟨st', c1, -⟩ := step_rel hd ht a2 h3
  have hkt : (tab.map keyOf)[k]?.map Key.ty = some .timer := by rw [hk']; simp [hty']
  simp only [step] at h3
  rw [hkt, b2] at h3
  unfold runningTime
  dsimp only
  generalize hw : acts.foldl (Watch.act k) ⟨none, 0⟩ = w at b3 ⊢
  cases since with
  | none =>
    simp only [Option.some.injEq, Prod.mk.injEq] at h3
    refine ⟨es, st, vals, total, a1, b1, ?_, ?_⟩
    · unfold answer; rw [c1, ← h3.1]; rfl
    · unfold Matches at b3
      cases hws : w.since with
      | none => rw [hws] at b3; simp only at b3 ⊢; omega
      | some u => rw [hws] at b3; exact b3.elim
  | some u =>
    obtain ⟨t, h4, h5⟩ := Option.map_eq_some_iff.mp h3
    simp only [Prod.mk.injEq] at h5
    refine ⟨es, st, vals, t, a1, b1, ?_, ?_⟩
    · unfold answer; rw [c1, ← h5.1]; rfl
    · unfold tick at h4
      split at h4
      · rename_i hc
        simp only [Option.some.injEq] at h4
        unfold Matches at b3
        cases hws : w.since with
        | none => rw [hws] at b3; exact b3.elim
        | some a => rw [hws] at b3; simp only at b3 ⊢; omega
      · cases h4

/-- Two reports while the timer runs across the roll-over of the clock. -/
def exActs : List Act :=
  [.call (.timerStart 0 4294966296), .call (.updateTimers fun _ => 4294967290), .flush none,
   .call (.timerStop 0 4294967400), .call (.timerStart 0 4294968000),
   .call (.updateTimers fun _ => 4294969000), .flush (some 9)]

example : (runActs exDev (exTab.map keyOf) 1 (Spec.Metrics.init (exTab.map keyOf))
    (exActs ++ [.call (.timerRead 0 4294969001)])).isSome ∧ (∀ a ∈ exActs, a.ok 1) ∧
    runningTime 0 exActs 4294969001 = 2105 := by
  refine ⟨by decide +kernel, ?_, by decide +kernel⟩
  intro a ha
  simp only [exActs, List.mem_cons, List.not_mem_nil, or_false] at ha
  rcases ha with h | h | h | h | h | h | h <;> subst h <;> simp [Act.ok]

/-- The bound is needed: a timer that runs for exactly 2^31 ms without a look at it loses them. -/
theorem C35_bound_needed : ∃ st, ((execAll exDev exTab (Metrics.State.init exTab)
      [.timerStart 0 0, .timerStop 0 2147483648]).map fun r => r.2) = some st ∧
    (answer exDev exTab st (.timerRead 0 2147483648)).map (fun | .num v => v | _ => 1) = some 0 ∧
    runningTime 0 [.call (.timerStart 0 0), .call (.timerStop 0 2147483648)] 2147483648 = 2147483648 :=
  ⟨((execAll exDev exTab (Metrics.State.init exTab)
      [.timerStart 0 0, .timerStop 0 2147483648]).map fun r => r.2).getD (Metrics.State.init exTab),
    by decide +kernel, by decide +kernel, by decide +kernel⟩

/-- **C55 (counters report every amount once).** Take any history of metric calls and of reports of a
counter's session, each followed by clearing it, in which the counter is only changed by adding to it
and the amounts added since the last report never leave the range of the counter. Then the values of
the counter in the decoded reports (null counts as zero) and its value at the end add up to all
amounts that were added. -/
theorem C55_counters {dev : SerializerHelper.Device} (hd : Spec.Event.DeviceOk dev) {tab : Table}
    (ht : TableOk tab) {k : Nat} {kv : KV} (hk : tab[k]? = some kv) {read : Op} {lo hi : Int}
    (hty : (kv.type = .signed ∧ read = .readSigned k ∧ lo = -2147483648 ∧ hi = 2147483647) ∨
      (kv.type = .unsigned ∧ read = .readUnsigned k ∧ lo = 0 ∧ hi = 4294967295))
    (acts : List Act) (hok : ∀ a ∈ acts, a.ok kv.session) (hc : countable k lo hi 0 acts)
    (h : (runActs dev (tab.map keyOf) kv.session (Spec.Metrics.init (tab.map keyOf)) acts).isSome) :
    ∃ (events : List (Option Item)) (st : Metrics.State) (reported : List (Option Int)),
      execActs dev tab kv.session (Metrics.State.init tab) acts = some (events, st) ∧
      events.map (fun e => e.bind fun e => eventMetric e (position (tab.map keyOf) kv.session k)) =
        reported.map (fun v => some (v.elim Item.null Item.int)) ∧
      (reported.map fun v => v.getD 0).sum + valueOr0 (answer dev tab st read) = added k acts := by
  obtain ⟨⟨es, s⟩, h1⟩ := Option.isSome_iff_exists.mp h
  have hk' : (tab.map keyOf)[k]? = some (keyOf kv) := by rw [keys_get, hk]; rfl
  have hr : InRange (keyOf kv).ty lo hi := by
    unfold keyOf
    rcases hty with ⟨h1, -, h2, h3⟩ | ⟨h1, -, h2, h3⟩
    · exact .inl ⟨by rw [h1]; rfl, h2, h3⟩
    · exact .inr ⟨by rw [h1]; rfl, h2, h3⟩
  obtain ⟨st, a1, a2⟩ := acts_rel hd ht acts (init_rel tab) h1
  have hinit : Spec.Metrics.init (tab.map keyOf) k = .int none := by
    unfold Spec.Metrics.init; rw [hk']
    rcases hr with ⟨h, -⟩ | ⟨h, -⟩ <;> simp [h, fresh]
  obtain ⟨vals, v, b1, b2, b3⟩ := counter_acts hk' hr (show (keyOf kv).session = kv.session from rfl)
    acts (v := none) hok hc hinit h1
  refine ⟨es, st, vals, a1, b1, ?_⟩
  have hst : step dev (tab.map keyOf) s read =
      some (intOut v, s) := by
    rcases hty with ⟨h1, rfl, -⟩ | ⟨h1, rfl, -⟩
    · have hkt : (tab.map keyOf)[k]?.map Key.ty = some .signed := by rw [keys_ty, hk]; simp [h1, tyOf]
      simp only [step]; rw [hkt, b2]; cases v <;> rfl
    · have hkt : (tab.map keyOf)[k]?.map Key.ty = some .unsigned := by rw [keys_ty, hk]; simp [h1, tyOf]
      simp only [step]; rw [hkt, b2]; cases v <;> rfl
  obtain ⟨st', c1, -⟩ := step_rel hd ht a2 hst
  unfold answer
  rw [c1]
  simp only [Option.getD_none, Int.zero_add] at b3
  rw [← b3]
  cases v <;> rfl

def exCounts : List Act :=
  [.call (.add 1 7), .call (.add 1 4294967), .flush none, .call (.add 4 3), .flush none, .call (.add 1 1)]

example : (runActs exDev (exTab.map keyOf) 1 (Spec.Metrics.init (exTab.map keyOf)) exCounts).isSome ∧
    (∀ a ∈ exCounts, a.ok 1) ∧ countable 1 0 4294967295 0 exCounts ∧ added 1 exCounts = 4294975 := by
  refine ⟨by decide +kernel, ?_, by simp [exCounts, countable], by decide +kernel⟩
  intro a ha
  simp only [exCounts, List.mem_cons, List.not_mem_nil, or_false] at ha
  rcases ha with h | h | h | h | h | h <;> subst h <;> simp [Act.ok]

/-! ## Stored reports -/

/-- **A report reaches the event storage.** After any history of metric calls within the bounds of the
specification and any history of a storage that is within its contract and not being written,
serializing a session stores, if there is room for it, one event that decodes to the specified values
of the session's metrics, behind all events that are already stored; otherwise it fails and the
storage holds the same events as before. -/
theorem C36_report_stored {dev : SerializerHelper.Device} (hd : Spec.Event.DeviceOk dev) {tab : Table}
    (ht : TableOk tab) (ops : List Op) {os : List Out} {s : Spec.Metrics.State}
    (h : Spec.Metrics.run dev (tab.map keyOf) (Spec.Metrics.init (tab.map keyOf)) ops = some (os, s))
    {session : Nat} (hses : session < 2 ^ 32) (time : Option Nat) (drops : SerializerHelper.Drops)
    {batch : Option Nat} {bufLen : Nat} (h0 : 0 < bufLen) (h1 : bufLen < 2 ^ 31)
    (before : List Spec.EventQueue.Op) {os1 : List Spec.EventQueue.Out} {q : Spec.EventQueue.State}
    (hq : Spec.EventQueue.run batch (Spec.EventQueue.empty bufLen) before = some (os1, q))
    (hp : q.pending = none) :
    ∃ st s0 s1 b, execAll dev tab (Metrics.State.init tab) ops = some (os, st) ∧
      EventStorage.boot bufLen = some s0 ∧ EventStorage.run ⟨batch⟩ s0 before = some (os1, s1) ∧
      Spec.Cbor.decode b = some (sessionEvent dev time (tab.map keyOf) s session) ∧
      (b.length ≤ 65532 → ∃ ok s2 drops', serialize tab st dev time session s1 drops = some (ok, s2, drops') ∧
        ok = decide (Spec.EventQueue.used q + 2 + b.length ≤ q.cap) ∧
        ∀ after os2 q2, Spec.EventQueue.run batch
            { q with committed := q.committed ++ if ok then [b] else [] } after = some (os2, q2) →
          ∃ s3, EventStorage.run ⟨batch⟩ s2 after = some (os2, s3)) := by
  obtain ⟨st, a1, a2⟩ := run_rel hd ht ops (init_rel tab) h
  obtain ⟨s0, e0, H0⟩ := boot_holds (b := batch) h0 h1
  obtain ⟨s1, e1, H1⟩ := run_refines before H0 hq
  obtain ⟨ds, b, d1, d2, d3, d4, d5⟩ := report_rel hd a2 ht.range ht.length hses time
  refine ⟨st, s0, s1, b, a1, e0, e1, d5, fun hb => ?_⟩
  have hcb : (encodeHeartbeat dev time session false ds : Cbor.Encoder SerializerHelper.Ctx → _) =
      SerializerHelper.callback (SerializerHelper.eventCalls dev 1 time (heartbeatVal session ds).calls)
        false := by
    funext e
    rw [d3]
    simp [SerializerHelper.callback]
  have hne : 1 ≤ b.length := by
    rcases Nat.eq_zero_or_pos b.length with hz | hz
    · rw [List.length_eq_zero_iff.mp hz] at d5; cases d5
    · exact hz
  subst d2
  obtain ⟨s2, f1, f2⟩ := encodeToStorage_eq H1 hp
    (SerializerHelper.eventCalls dev 1 time (heartbeatVal session ds).calls) false drops hne hb
  have hser : ∀ r, SerializerHelper.encodeToStorage (SerializerHelper.callback
      (SerializerHelper.eventCalls dev 1 time (heartbeatVal session ds).calls) false) s1 drops = r →
      serialize tab st dev time session s1 drops = r := by
    intro r hr
    unfold serialize
    rw [d1]
    simp only [Option.bind_some]
    rw [hcb, hr]
  by_cases hfit : Spec.EventQueue.used q + 2 + (Cbor.emitAll (SerializerHelper.eventCalls dev 1 time
      (heartbeatVal session ds).calls)).length ≤ q.cap
  · obtain ⟨g1, g2⟩ := f1 ⟨rfl, hfit⟩
    refine ⟨true, s2, _, hser _ g1, by simp [hfit], fun after os2 q2 hrun => ?_⟩
    obtain ⟨s3, i1, -⟩ := run_refines after g2 hrun
    exact ⟨s3, i1⟩
  · obtain ⟨g1, g2⟩ := f2 (by simp [hfit])
    refine ⟨false, s2, _, hser _ g1, by simp [hfit], fun after os2 q2 hrun => ?_⟩
    obtain ⟨s3, i1, -⟩ := run_refines after g2 (by simpa using hrun)
    exact ⟨s3, i1⟩

/-- A report of the heartbeat metrics of the example, stored behind another event. -/
example : (Spec.Metrics.run exDev (exTab.map keyOf) (Spec.Metrics.init (exTab.map keyOf))
      [.add 1 5, .timerStart 0 3]).isSome ∧
    (Spec.EventQueue.run none (Spec.EventQueue.empty 64) [.begin, .append [1], .finish false]).map
      (fun r => r.2.pending) = some none ∧
    ((execAll exDev exTab (Metrics.State.init exTab) [.add 1 5, .timerStart 0 3]).bind fun r =>
      (EventStorage.boot 64).bind fun s0 =>
        (serialize exTab r.2 exDev (some 7) 1 s0 ⟨0, 0⟩).map fun r => r.1) = some true := by
  decide +kernel

/-! ## C37 -/

/-- **C37, what holds.** Let a state be reached, and let the worst-case size be computed there. In
every state that is reached, then or later, the report of the session is at most this large, provided
that no text of the session is longer than it was when the size was computed and that the capture
time is left out, or was already available (and after January 1970) when the size was computed.
Missing for the full C37: these two conditions, see the two theorems that follow. -/
theorem C37_worst_case_partial {dev : SerializerHelper.Device} (hd : Spec.Event.DeviceOk dev) {tab : Table}
    (ht : TableOk tab) {st0 st : Metrics.State} (hr0 : Reached dev tab st0) (hr : Reached dev tab st)
    {session : Nat} (hses : session < 2 ^ 32) {time time0 : Option Nat}
    (htime : time = none ∨ ∃ t0, time0 = some t0 ∧ 65536 ≤ t0 % 2 ^ 32)
    (htext : ∀ k kv, tab[k]? = some kv → kv.session = session → kv.type = .string → ∃ t t0,
      answer dev tab st (.readText k (kv.range + 1)) = some (.text t) ∧
      answer dev tab st0 (.readText k (kv.range + 1)) = some (.text t0) ∧ t.length ≤ t0.length) :
    ∃ b w, reportBytes tab st dev time session = some b ∧
      worstCaseSize tab st0 dev time0 session = some w ∧ b.length ≤ w := by
  obtain ⟨s0, h0⟩ := reached_good hd ht hr0
  obtain ⟨s, h⟩ := reached_good hd ht hr
  refine worst_size h h0 ht hd hses htime ?_
  intro k hkses t t0 hs hs0
  obtain ⟨kv, hk, hkv⟩ := Option.map_eq_some_iff.mp hkses
  rcases h.cases hk with ⟨-, w, f, o, -, h2, -⟩ | ⟨-, w, m, total, since, -, h2, -⟩ |
    ⟨hn, buf, t', h1, h2, h3⟩
  · rw [hs] at h2; cases h2
  · rw [hs] at h2; cases h2
  rcases h0.cases hk with ⟨-, w, f, o, -, h2', -⟩ | ⟨-, w, m, total, since, -, h2', -⟩ |
    ⟨-, buf', t0', h1', h2', h3'⟩
  · rw [hs0] at h2'; cases h2'
  · rw [hs0] at h2'; cases h2'
  have hlen : ∀ {buf t}, RelV kv (.str buf) (.text t) → t.length ≤ kv.range := by
    rintro buf t ⟨-, q2, -, junk, rfl⟩
    simp only [List.length_append, List.length_cons] at q2
    omega
  have hread : ∀ {st s t buf}, Rel tab st s → s k = .text t → RelV kv (.str buf) (.text t) →
      answer dev tab st (.readText k (kv.range + 1)) = some (.text t) := by
    intro st s t buf hrel hsk hv
    have hst : step dev (tab.map keyOf) s (.readText k (kv.range + 1)) = some (.text t, s) := by
      simp only [step]
      rw [if_neg (by omega), keys_ty, hk, hsk]
      simp only [Option.map_some, hn, tyOf, Nat.add_sub_cancel]
      rw [List.take_of_length_le (hlen hv)]
    obtain ⟨x, a, -⟩ := step_rel hd ht hrel hst
    unfold answer; rw [a]; rfl
  obtain ⟨u, u0, a1, a2, a3⟩ := htext k kv hk hkv hn
  rw [hread h h2 h3] at a1
  rw [hread h0 h2' h3'] at a2
  rw [hs] at h2; rw [hs0] at h2'
  cases h2; cases h2'; cases a1; cases a2
  exact a3

/-- The heartbeat of the example contains no text, so only the time matters. -/
example : Reached exDev exTab (Metrics.State.init exTab) ∧
    (∀ (k : Nat) (kv : KV), exTab[k]? = some kv → kv.session = 1 → kv.type ≠ .string) ∧
    ((execAll exDev exTab (Metrics.State.init exTab)
      [.setUnsigned 1 4294967295, .setSigned 4 (-70000), .timerStart 0 0, .timerStop 0 100000]).bind fun r =>
      (reportBytes exTab r.2 exDev (some 1700000000) 1).map List.length) = some 44 ∧
    worstCaseSize exTab (Metrics.State.init exTab) exDev (some 1700000000) 1 = some 44 := by
  refine ⟨⟨[], [], by simp, rfl⟩, ?_, by decide +kernel, by decide +kernel⟩
  intro k kv hk hs
  rcases k with _ | _ | _ | _ | _ | _ | k <;> simp [exTab] at hk <;> subst hk <;> simp at hs ⊢

/-- **C37 is false for tables with a text.** At boot all texts are empty, so the worst case counts one
byte for them. -/
theorem C37_false_text : ∃ st, ((execAll exDev [⟨.string, 8, 0⟩] (Metrics.State.init [⟨.string, 8, 0⟩])
      [.setText 0 [0x61, 0x62]]).map fun r => r.2) = some st ∧
    worstCaseSize [⟨.string, 8, 0⟩] (Metrics.State.init [⟨.string, 8, 0⟩]) exDev none 0 = some 24 ∧
    (reportBytes [⟨.string, 8, 0⟩] st exDev none 0).map List.length = some 26 :=
  ⟨((execAll exDev [⟨.string, 8, 0⟩] (Metrics.State.init [⟨.string, 8, 0⟩])
      [.setText 0 [0x61, 0x62]]).map fun r => r.2).getD (Metrics.State.init []),
    by decide +kernel, by decide +kernel, by decide +kernel⟩

/-- **C37 is false when the time is not known at boot.** The capture time is then not part of the
worst case. -/
theorem C37_false_time : ∃ st, ((execAll exDev exTab (Metrics.State.init exTab)
      [.setUnsigned 1 4294967295, .setSigned 4 (-70000), .timerStart 0 0, .timerStop 0 100000]).map
        fun r => r.2) = some st ∧
    worstCaseSize exTab (Metrics.State.init exTab) exDev none 1 = some 38 ∧
    (reportBytes exTab st exDev (some 1700000000) 1).map List.length = some 44 :=
  ⟨((execAll exDev exTab (Metrics.State.init exTab)
      [.setUnsigned 1 4294967295, .setSigned 4 (-70000), .timerStart 0 0, .timerStop 0 100000]).map
        fun r => r.2).getD (Metrics.State.init []), by decide +kernel, by decide +kernel, by decide +kernel⟩

/-- **C37, the storage.** Also, the check at boot does not count the two bytes that the storage adds
to each event: a storage of exactly the worst-case size is accepted, and no full heartbeat fits into it
although it is empty. -/
theorem C37_false_storage : SerializerHelper.checkStorageSize 44 44 = true ∧
    worstCaseSize exTab (Metrics.State.init exTab) exDev (some 1700000000) 1 = some 44 ∧
    ((execAll exDev exTab (Metrics.State.init exTab)
      [.setUnsigned 1 4294967295, .setSigned 4 (-70000), .timerStart 0 0, .timerStop 0 100000]).bind fun r =>
      (EventStorage.boot 44).bind fun s0 =>
        (serialize exTab r.2 exDev (some 1700000000) 1 s0 ⟨0, 0⟩).map fun r => r.1) = some false := by
  decide +kernel

/-! ## C53 -/

/-- **C53, what holds.** The uptime metric is within one second of the elapsed time for 168 days
(14 510 030 ms times 1000), and over the whole range that the code comment claims
(4294967592000 ms) it is never ahead and lags at most 297 seconds. Missing for the full C53: one
second over the whole range, see the theorem that follows. -/
theorem C53_uptime_partial (ms : Nat) :
    (ms ≤ 14510024000 → uptimeSeconds ms ≤ ms / 1000 ∧ ms / 1000 ≤ uptimeSeconds ms + 1) ∧
    (ms ≤ 4294967592000 → uptimeSeconds ms ≤ ms / 1000 ∧ ms / 1000 ≤ uptimeSeconds ms + 297) := by
  have hdiv : ∀ n : Nat, n >>> 32 = n / 4294967296 := fun n => by rw [Nat.shiftRight_eq_div_pow]
  have key : ms ≤ 4294967592000 → uptimeSeconds ms = ms * 4294967 / 4294967296 := by
    intro h
    unfold uptimeSeconds
    rw [hdiv]
    have : ms * 0x418937 < 18446744073709551616 := by omega
    rw [show (2 : Nat) ^ 64 = 18446744073709551616 from rfl, show (2 : Nat) ^ 32 = 4294967296 from rfl,
      Nat.mod_eq_of_lt this]
    omega
  constructor
  · intro h
    rw [key (by omega)]
    omega
  · intro h
    rw [key h]
    omega

/-- **C53 is false over the claimed range.** After 497 days the metric lags by three seconds, at the
end of the claimed range by 296. -/
theorem C53_false : uptimeSeconds 42949672960 = 42949670 ∧ (42949672960 / 1000 : Nat) = 42949672 ∧
    uptimeSeconds 4294967592000 = 4294967295 ∧ (4294967592000 / 1000 : Nat) = 4294967592 := by
  decide

end Mflt.Props
