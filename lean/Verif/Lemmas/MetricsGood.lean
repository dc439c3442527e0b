import Verif.Lemmas.MetricsStep

/-! # Lemmas: states that arbitrary histories reach -/

namespace Mflt.Metrics

open Spec.Metrics (Op Out)

/-- A state that stands for some values. -/
def Good (tab : Table) (st : State) : Prop := ∃ s, Rel tab st s

/-- Text arguments are C strings. -/
def OpOk : Op → Prop
  | .setText _ t => 0 ∉ t
  | _ => True

/-- The milliseconds that are counted, for the low 31 bits of two times. -/
def lapse (start stop : Nat) : Nat := if stop ≥ start then stop - start else 0x80000000 - start + stop

/-- A timer after an operation at any time. -/
def spun (total : Nat) (since : Option Nat) (op : TimerOp) (now : Nat) : Nat × Option Nat :=
  match since with
  | none => (total, if op = .start then some now else none)
  | some t =>
    if op = .start then (total, some t)
    else ((total + lapse (t % 2 ^ 31) (now % 2 ^ 31)) % 2 ^ 32, if op = .stop then none else some now)

/-- Timer operations at any time. -/
theorem timer_any {tab : Table} {st : State} {s : Spec.Metrics.State} (h : Rel tab st s) {k : Nat}
    {kv : KV} (hk : tab[k]? = some kv) (hn : kv.type = .timer) {total : Nat} {since : Option Nat}
    (hs : s k = .timer total since) (op : TimerOp) (now : Nat) :
    ∃ st', updateTimer st (timerInfo tab k) op now =
        some (if op = .start then since.isNone else since.isSome, st') ∧
      Rel tab st' (Spec.Metrics.upd s k
        (.timer (spun total since op now).1 (spun total since op now).2)) := by
  by_cases hop : (op = .start) = since.isSome
  · refine ⟨st, ?_, ?_⟩
    · rw [timer_idle h hk hn hs op hop]
      by_cases ho : op = .start
      · have : since.isSome = true := by simpa [ho] using hop
        rw [if_pos ho]
        cases since <;> simp_all
      · have : since = none := by simpa [ho] using hop
        rw [if_neg ho, this]; rfl
    · have : spun total since op now = (total, since) := by
        unfold spun
        cases since with
        | none => have : op ≠ .start := by simpa using hop
                  simp [this]
        | some t => have : op = .start := by simpa using hop
                    simp [this]
      rw [this, ← hs]; exact h.self k
  · cases since with
    | none =>
      have ho : op = .start := Decidable.not_not.mp fun hc => hop (by simpa using hc)
      subst ho
      obtain ⟨st', a, b⟩ := timer_start h hk hn hs now
      exact ⟨st', a, b⟩
    | some t =>
      have ho : op ≠ .start := fun hc => hop (by simpa using hc)
      rcases h.cases hk with ⟨hn', -⟩ | ⟨-, v, m, total1, since1, h1, h2, h3⟩ | ⟨hn', -⟩
      · rw [hn] at hn'; simp at hn'
      · obtain ⟨rfl, rfl⟩ : total1 = total ∧ since1 = some t := by rw [hs] at h2; simpa [eq_comm] using h2
        obtain ⟨-, f1, f2⟩ := findValue_timer hk hn h1
        have hrun : m.running = true := h3.2.2.1
        have hstart : m.start = t % 2 ^ 31 := h3.2.2.2 t rfl
        have hv : v.toNat = total1 := h3.2.1
        have hl : rank KV.isScalar tab k < st.values.length := (List.getElem?_eq_some_iff.mp f1).1
        obtain ⟨d, hd⟩ : ∃ d, d = if now % 2 ^ 31 ≥ m.start then now % 2 ^ 31 - m.start
          else 0x80000000 - m.start + now % 2 ^ 31 := ⟨_, rfl⟩
        refine ⟨{ st with
          values := st.values.set (rank KV.isScalar tab k) (v + BitVec.ofNat 32 d)
          timers := st.timers.set (rank KV.isTimer tab k)
            (if op = .stop then ⟨false, 0⟩ else ⟨true, now % 2 ^ 31⟩) }, ?_, ?_⟩
        · have hop' : (op == TimerOp.start) = false := by simpa using ho
          simp only [updateTimer, timerInfo, f2, hrun, hop', Option.bind_some, Bool.not_true,
            Bool.false_and, Bool.false_eq_true, if_false, bne, Bool.not_false, Bool.and_self, if_true,
            readLoc, f1, writeLoc, if_pos hl, Option.map_some, ← hd, if_neg ho, Option.isSome_some]
        · have hspun : spun total1 (some t) op now =
              ((v + BitVec.ofNat 32 d).toNat, if op = .stop then none else some now) := by
            unfold spun
            dsimp only
            rw [if_neg ho, BitVec.toNat_add, BitVec.toNat_ofNat, hv, hd, hstart, Nat.add_mod_mod]
            rfl
          rw [hspun]
          refine set_timer h hk hn _ _ _ _ rfl ?_ ?_
          · split <;> rfl
          · intro t ht
            by_cases hst : op = .stop
            · simp [hst] at ht
            · simp only [if_neg hst] at ht ⊢
              cases ht; rfl
      · rw [hn] at hn'; simp at hn'

theorem timerOp_good {tab : Table} {st : State} (h : Good tab st) (k : Nat) (op : TimerOp) (now : Nat) :
    ∃ r st', timerOp tab st k op now = some (r, st') ∧ Good tab st' := by
  obtain ⟨s, h⟩ := h
  cases hk : tab[k]? with
  | none => exact ⟨-1, st, by simp [timerOp, findValue_none hk], s, h⟩
  | some kv =>
    by_cases hn : kv.type = .timer
    · rw [timerOp_timer h hk hn]
      rcases h.cases hk with ⟨hn', -⟩ | ⟨-, v, m, total, since, h1, h2, h3⟩ | ⟨hn', -⟩
      · rw [hn] at hn'; simp at hn'
      · obtain ⟨st', a, b⟩ := timer_any h hk hn h2 op now
        rw [a]
        exact ⟨_, st', rfl, _, b⟩
      · rw [hn] at hn'; cases hn'
    · exact ⟨-2, st, timerOp_other h hk hn op now, s, h⟩

theorem tallyStep_good {tab : Table} {st : State} (h : Good tab st) (k now : Nat) :
    ∃ st', tallyStep tab st k now = some st' ∧ Good tab st' := by
  obtain ⟨s, h⟩ := h
  unfold tallyStep
  cases hk : tab[k]? with
  | none => exact ⟨st, by simp [findValue_none hk], s, h⟩
  | some kv =>
    rcases h.cases hk with ⟨hn, v, f, o, h1, h2, h3⟩ | ⟨hn, v, m, total, since, h1, h2, h3⟩ |
        ⟨hn, buf, t, h1, h2, h3⟩
    · rw [(findValue_num hk hn h1).1]
      refine ⟨st, ?_, s, h⟩
      rcases hn with hn | hn <;> simp [hn]
    · rw [(findValue_timer hk hn h1).1]
      obtain ⟨st', a, b⟩ := timer_any h hk hn h2 .force now
      refine ⟨st', ?_, _, b⟩
      unfold timerInfo at a
      simp [a]
    · rw [(findValue_str hk hn h1).1]
      exact ⟨st, by simp, s, h⟩

theorem forKeys_good {tab : Table} {f : State → Nat → Option State}
    (hf : ∀ st k, Good tab st → ∃ st', f st k = some st' ∧ Good tab st') :
    ∀ (ks : List Nat) {st : State}, Good tab st → ∃ st', forKeys f st ks = some st' ∧ Good tab st' := by
  intro ks
  induction ks with
  | nil => intro st h; exact ⟨st, rfl, h⟩
  | cons k ks ih =>
    intro st h
    obtain ⟨st1, a, b⟩ := hf st k h
    obtain ⟨st2, c, d⟩ := ih b
    exact ⟨st2, by simp [forKeys, a, c], d⟩

theorem good_of_step {dev : SerializerHelper.Device} (hd : Spec.Event.DeviceOk dev) {tab : Table}
    (ht : TableOk tab) {st : State} {s : Spec.Metrics.State} (h : Rel tab st s) {op : Op}
    (hs : (Spec.Metrics.step dev (tab.map keyOf) s op).isSome) :
    ∃ o st', exec dev tab st op = some (o, st') ∧ Good tab st' := by
  obtain ⟨⟨o, s'⟩, hs⟩ := Option.isSome_iff_exists.mp hs
  obtain ⟨st', a, b⟩ := step_rel hd ht h hs
  exact ⟨o, st', a, s', b⟩

theorem setValue_good {tab : Table} {st : State} (h : Good tab st) (k : Nat) (e : MType)
    (he : e = .signed ∨ e = .unsigned) (v : BitVec 32) :
    ∃ r st', setValue tab st e k v = some (r, st') ∧ Good tab st' := by
  obtain ⟨s, h⟩ := h
  cases hk : tab[k]? with
  | none => exact ⟨-1, st, by simp [setValue, findValue_none hk], s, h⟩
  | some kv =>
    obtain ⟨a, b⟩ := setSigned_rel h hk e he v
    by_cases hty : kv.type = e
    · obtain ⟨st', c, d⟩ := b hty; exact ⟨0, st', c, _, d⟩
    · exact ⟨-2, st, a hty, s, h⟩

theorem add_good {tab : Table} {st : State} (h : Good tab st) (k : Nat) (v : BitVec 32) :
    ∃ r st', add tab st k v = some (r, st') ∧ Good tab st' := by
  obtain ⟨s, h⟩ := h
  cases hk : tab[k]? with
  | none => exact ⟨-1, st, by simp [add, findValue_none hk], s, h⟩
  | some kv =>
    obtain ⟨a, b⟩ := add_rel h hk v
    rcases h.cases hk with ⟨hn, w, f, o, h1, h2, h3⟩ | ⟨hn, w, m, total, since, h1, h2, h3⟩ |
        ⟨hn, buf, t, h1, h2, h3⟩
    · rcases hn with hn | hn
      · obtain ⟨st', c, d⟩ := (b o h2).2 hn; exact ⟨0, st', c, _, d⟩
      · obtain ⟨st', c, d⟩ := (b o h2).1 hn; exact ⟨0, st', c, _, d⟩
    · exact ⟨-2, st, a (by simp [hn]) (by simp [hn]), s, h⟩
    · exact ⟨-2, st, a (by simp [hn]) (by simp [hn]), s, h⟩

theorem exec_good {dev : SerializerHelper.Device} (hd : Spec.Event.DeviceOk dev) {tab : Table}
    (ht : TableOk tab) {st : State} (h : Good tab st) {op : Op} (hop : OpOk op) :
    ∃ o st', exec dev tab st op = some (o, st') ∧ Good tab st' := by
  cases op with
  | setSigned k v =>
    obtain ⟨r, st', a, b⟩ := setValue_good h k .signed (.inl rfl) (BitVec.ofInt 32 v)
    exact ⟨.code r, st', by simp [exec, a], b⟩
  | setUnsigned k v =>
    obtain ⟨r, st', a, b⟩ := setValue_good h k .unsigned (.inr rfl) (BitVec.ofNat 32 v)
    exact ⟨.code r, st', by simp [exec, a], b⟩
  | setText k t =>
    obtain ⟨s, h⟩ := h
    refine good_of_step hd ht h ?_
    simp only [OpOk] at hop
    simp only [Spec.Metrics.step, if_neg hop]
    split <;> rfl
  | add k v =>
    obtain ⟨r, st', a, b⟩ := add_good h k (BitVec.ofInt 32 v)
    exact ⟨.code r, st', by simp [exec, a], b⟩
  | timerStart k now =>
    obtain ⟨r, st', a, b⟩ := timerOp_good h k .start now
    exact ⟨.code r, st', by simp [exec, a], b⟩
  | timerStop k now =>
    obtain ⟨r, st', a, b⟩ := timerOp_good h k .stop now
    exact ⟨.code r, st', by simp [exec, a], b⟩
  | timerRead k now =>
    obtain ⟨r, st', a, b⟩ := timerOp_good h k .force now
    obtain ⟨s', b'⟩ := b
    have : ∃ x, readValue tab st' k .timer = some x := by
      cases hk : tab[k]? with
      | none => exact ⟨.inl (-1), by simp [readValue, findKeyOfType, findValue_none hk]⟩
      | some kv =>
        by_cases hn : kv.type = .timer
        · rcases b'.cases hk with ⟨hn', -⟩ | ⟨-, v, m, total, since, h1, h2, h3⟩ | ⟨hn', -⟩
          · rw [hn] at hn'; simp at hn'
          · obtain ⟨v, c, -⟩ := readValue_timer b' hk hn h2; exact ⟨_, c⟩
          · rw [hn] at hn'; cases hn'
        · exact ⟨_, readValue_wrong b' hk _ hn⟩
    obtain ⟨x, hx⟩ := this
    exact ⟨_, st', by simp [exec, timerRead, a, hx]; rfl, s', b'⟩
  | readSigned k =>
    obtain ⟨s, h⟩ := h
    refine good_of_step hd ht h ?_
    simp only [Spec.Metrics.step]
    split <;> rfl
  | readUnsigned k =>
    obtain ⟨s, h⟩ := h
    refine good_of_step hd ht h ?_
    simp only [Spec.Metrics.step]
    split <;> rfl
  | readText k n =>
    obtain ⟨s, h⟩ := h
    refine good_of_step hd ht h ?_
    simp only [Spec.Metrics.step]
    split
    · rfl
    · split <;> rfl
  | updateTimers times =>
    obtain ⟨st', a, b⟩ := forKeys_good (f := fun st k => tallyStep tab st k (times k))
      (fun st k h => tallyStep_good h k (times k)) (List.range tab.length) h
    exact ⟨.done, st', by simp [exec, timersUpdate, a], b⟩
  | report session time =>
    obtain ⟨s, h⟩ := h
    obtain ⟨ds, d1, -⟩ := dataOf_rel h ht.range (sessionKeys tab session) (sessionKeys_lt tab session)
    exact ⟨_, st, by simp [exec, reportBytes, d1]; rfl, s, h⟩
  | clear session =>
    obtain ⟨s, h⟩ := h
    exact good_of_step hd ht h rfl
  | clearAll =>
    obtain ⟨s, h⟩ := h
    exact good_of_step hd ht h rfl

theorem execAll_good {dev : SerializerHelper.Device} (hd : Spec.Event.DeviceOk dev) {tab : Table}
    (ht : TableOk tab) : ∀ (ops : List Op) {st : State}, Good tab st → (∀ op ∈ ops, OpOk op) →
      ∃ os st', execAll dev tab st ops = some (os, st') ∧ Good tab st' := by
  intro ops
  induction ops with
  | nil => intro st h _; exact ⟨[], st, rfl, h⟩
  | cons op ops ih =>
    intro st h hop
    obtain ⟨o, st1, a, b⟩ := exec_good hd ht h (hop op (by simp))
    obtain ⟨os, st2, c, d⟩ := ih b fun op' h' => hop op' (by simp [h'])
    exact ⟨o :: os, st2, by simp [execAll, a, c], d⟩

/-- Two states with the same value of a key answer calls on this key in the same way. -/
theorem out_congr {dev : SerializerHelper.Device} (hd : Spec.Event.DeviceOk dev) {tab : Table}
    (ht : TableOk tab) {st st' : State} {s s' : Spec.Metrics.State} (h : Rel tab st s)
    (h' : Rel tab st' s') {k : Nat} (he : s k = s' k) {op : Op} (ho : op.asks k) :
    (exec dev tab st op).map Prod.fst = (exec dev tab st' op).map Prod.fst := by
  have key : ∀ {o1 o2 : Out} {s1 s2}, Spec.Metrics.step dev (tab.map keyOf) s op = some (o1, s1) →
      Spec.Metrics.step dev (tab.map keyOf) s' op = some (o2, s2) → o1 = o2 →
      (exec dev tab st op).map Prod.fst = (exec dev tab st' op).map Prod.fst := by
    intro o1 o2 s1 s2 e1 e2 e
    obtain ⟨x, a, -⟩ := step_rel hd ht h e1
    obtain ⟨y, b, -⟩ := step_rel hd ht h' e2
    rw [a, b, e]; rfl
  have timer : ∀ (top : TimerOp) (now : Nat),
      ∃ r x y, timerOp tab st k top now = some (r, x) ∧ timerOp tab st' k top now = some (r, y) ∧
        ∃ z z', Rel tab x z ∧ Rel tab y z' ∧ z k = z' k := by
    intro top now
    cases hk : tab[k]? with
    | none =>
      exact ⟨-1, st, st', by simp [timerOp, findValue_none hk], by simp [timerOp, findValue_none hk],
        s, s', h, h', he⟩
    | some kv =>
      by_cases hn : kv.type = .timer
      · rw [timerOp_timer h hk hn, timerOp_timer h' hk hn]
        rcases h.cases hk with ⟨hn', -⟩ | ⟨-, v, m, total, since, h1, h2, h3⟩ | ⟨hn', -⟩
        · rw [hn] at hn'; simp at hn'
        · obtain ⟨x, a, b⟩ := timer_any h hk hn h2 top now
          obtain ⟨y, a', b'⟩ := timer_any h' hk hn (he ▸ h2) top now
          rw [a, a']
          exact ⟨_, x, y, rfl, rfl, _, _, b, b', by simp [Spec.Metrics.upd]⟩
        · rw [hn] at hn'; cases hn'
      · exact ⟨-2, st, st', timerOp_other h hk hn top now, timerOp_other h' hk hn top now, s, s', h, h', he⟩
  cases op with
  | readSigned k' =>
    obtain rfl : k' = k := ho
    obtain ⟨⟨o1, s1⟩, e1⟩ : ∃ r, Spec.Metrics.step dev (tab.map keyOf) s (.readSigned k') = some r := by
      simp only [Spec.Metrics.step]; split <;> exact ⟨_, rfl⟩
    obtain ⟨⟨o2, s2⟩, e2⟩ : ∃ r, Spec.Metrics.step dev (tab.map keyOf) s' (.readSigned k') = some r := by
      simp only [Spec.Metrics.step]; split <;> exact ⟨_, rfl⟩
    refine key e1 e2 ?_
    simp only [Spec.Metrics.step, ← he] at e1 e2
    generalize (tab.map keyOf)[k']?.map Spec.Metrics.Key.ty = t at e1 e2
    generalize s k' = v at e1 e2
    clear key timer he
    rcases t with _ | (_ | _ | _ | _) <;> rcases v with (_ | _) | _ | _ <;>
      simp only [Option.some.injEq, Prod.mk.injEq] at e1 e2 <;> rw [← e1.1, ← e2.1]
  | readUnsigned k' =>
    obtain rfl : k' = k := ho
    obtain ⟨⟨o1, s1⟩, e1⟩ : ∃ r, Spec.Metrics.step dev (tab.map keyOf) s (.readUnsigned k') = some r := by
      simp only [Spec.Metrics.step]; split <;> exact ⟨_, rfl⟩
    obtain ⟨⟨o2, s2⟩, e2⟩ : ∃ r, Spec.Metrics.step dev (tab.map keyOf) s' (.readUnsigned k') = some r := by
      simp only [Spec.Metrics.step]; split <;> exact ⟨_, rfl⟩
    refine key e1 e2 ?_
    simp only [Spec.Metrics.step, ← he] at e1 e2
    generalize (tab.map keyOf)[k']?.map Spec.Metrics.Key.ty = t at e1 e2
    generalize s k' = v at e1 e2
    clear key timer he
    rcases t with _ | (_ | _ | _ | _) <;> rcases v with (_ | _) | _ | _ <;>
      simp only [Option.some.injEq, Prod.mk.injEq] at e1 e2 <;> rw [← e1.1, ← e2.1]
  | readText k' n =>
    obtain rfl : k' = k := ho
    obtain ⟨⟨o1, s1⟩, e1⟩ : ∃ r, Spec.Metrics.step dev (tab.map keyOf) s (.readText k' n) = some r := by
      simp only [Spec.Metrics.step]; split; exact ⟨_, rfl⟩; split <;> exact ⟨_, rfl⟩
    obtain ⟨⟨o2, s2⟩, e2⟩ : ∃ r, Spec.Metrics.step dev (tab.map keyOf) s' (.readText k' n) = some r := by
      simp only [Spec.Metrics.step]; split; exact ⟨_, rfl⟩; split <;> exact ⟨_, rfl⟩
    refine key e1 e2 ?_
    simp only [Spec.Metrics.step, ← he] at e1 e2
    by_cases hn : n = 0
    · simp only [if_pos hn, Option.some.injEq, Prod.mk.injEq] at e1 e2
      rw [← e1.1, ← e2.1]
    simp only [if_neg hn] at e1 e2
    generalize (tab.map keyOf)[k']?.map Spec.Metrics.Key.ty = t at e1 e2
    generalize s k' = v at e1 e2
    clear key timer he
    rcases t with _ | (_ | _ | _ | _) <;> rcases v with (_ | _) | _ | _ <;>
      simp only [Option.some.injEq, Prod.mk.injEq] at e1 e2 <;> rw [← e1.1, ← e2.1]
  | timerStart k' t =>
    obtain rfl : k' = k := ho
    obtain ⟨r, x, y, a, b, -⟩ := timer .start t
    simp [exec, a, b]
  | timerStop k' t =>
    obtain rfl : k' = k := ho
    obtain ⟨r, x, y, a, b, -⟩ := timer .stop t
    simp [exec, a, b]
  | timerRead k' t =>
    obtain rfl : k' = k := ho
    obtain ⟨r, x, y, a, b, z, z', c, d, e⟩ := timer .force t
    simp only [exec, timerRead, a, b, Option.bind_some, Option.map_map]
    cases hk : tab[k']? with
    | none =>
      have : ∀ w, readValue tab w k' .timer = some (.inl (-1)) := by
        intro w; simp [readValue, findKeyOfType, findValue_none hk]
      simp [this]
    | some kv =>
      by_cases hn : kv.type = .timer
      · rcases c.cases hk with ⟨hn', -⟩ | ⟨-, v, m, total, since, h1, h2, h3⟩ | ⟨hn', -⟩
        · rw [hn] at hn'; simp at hn'
        · obtain ⟨v1, p1, p2⟩ := readValue_timer c hk hn h2
          obtain ⟨v2, q1, q2⟩ := readValue_timer d hk hn (e ▸ h2)
          obtain rfl : v1 = v2 := BitVec.eq_of_toNat_eq (by rw [p2, q2])
          simp [p1, q1]
        · rw [hn] at hn'; cases hn'
      · simp [readValue_wrong c hk _ hn, readValue_wrong d hk _ hn]
  | _ => exact ho.elim

end Mflt.Metrics
