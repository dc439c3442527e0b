import Verif.Spec.TaskWatchdogRace

/-! # C104: the task watchdog under preemption -/

namespace Mflt.Props

open TaskWatchdogRace Spec.TaskWatchdogRace

namespace WdRace

/-- A channel, its call and what is known about them. -/
structure ChanInv (v : View) (c : Chan) (pc : Option Pc) (now : Nat) : Prop where
  call : v.call.map (·.1) = pc.map Pc.op
  callTime : ∀ op b, v.call = some (op, b) → b ≤ now
  noTime : ∀ op, pc = some (.time op) → op ≠ .stop
  fedPc : ∀ op t b, pc = some (.fed op t) → v.call = some (op, b) →
    op ≠ .stop ∧ ∃ r, b ≤ r ∧ r ≤ now ∧ t = r % 2 ^ 32
  statePc : ∀ op, pc = some (.state op) → op ≠ .feed
  stateFed : ∀ b, pc = some (.state .start) → v.call = some (.start, b) →
    ∃ r, b ≤ r ∧ r ≤ now ∧ c.fed = r % 2 ^ 32
  started : c.started = v.running.isSome
  fed : ∀ b e, v.running = some (b, e) → pc ≠ some (.state .start) →
    ∃ r, b ≤ r ∧ r ≤ e ∧ c.fed = r % 2 ^ 32
  runTime : ∀ b e, v.running = some (b, e) → b ≤ e ∧ e ≤ now
  order : ∀ b e op b', v.running = some (b, e) → v.call = some (op, b') → e ≤ b'

/-- A channel while a check is in progress. -/
structure DurInv (v : View) (c : Chan) (pc : Option Pc) (now : Nat) : Prop where
  check : v.check ≤ now
  noStart : v.disturbed = false → ∀ op b, v.call = some (op, b) → op ≠ .start
  stopped : v.disturbed = false → v.before = none → c.started = false
  fed : v.disturbed = false → ∀ b e, v.before = some (b, e) →
    ∃ r, b ≤ r ∧ r ≤ v.check ∧ c.fed = r % 2 ^ 32
  order : ∀ b e, v.before = some (b, e) → b ≤ v.check ∧ ∀ op b', v.call = some (op, b') → b ≤ b'
  unused : v.used = false → v.call = none ∧ ∀ b e, v.running = some (b, e) → e ≤ v.check

/-- How far a check is. -/
def CkInv (n timeout : Nat) (V : Nat → View) (chan : Nat → Chan) (now : Nat) : Check → Prop
  | .time => True
  | .copy idx cnt tm fedR stR => ∃ sm, tm = sm % 2 ^ 32 ∧ (∀ i, (V i).check ≤ sm) ∧ sm ≤ now ∧
    (∀ x, fedR = some x →
      ((V idx).disturbed = false → ∀ b e, (V idx).before = some (b, e) →
        ∃ r, b ≤ r ∧ r ≤ (V idx).check ∧ x = r % 2 ^ 32) ∧
      ((V idx).used = false → x = (chan idx).fed)) ∧
    (∀ y, stR = some y →
      ((V idx).disturbed = false → (V idx).before = none → y = false) ∧
      ((V idx).used = false → y = (chan idx).started)) ∧
    (cnt > 0 → now < 2 ^ 32 →
      ∃ j < n, (V j).disturbed = true ∨ ∃ b e, (V j).before = some (b, e) ∧ now - b > timeout) ∧
    (cnt = 0 → timeout < 2 ^ 32 → ∀ j < idx, (V j).used = false → ∀ b e, (V j).running = some (b, e) →
      now - b < 2 ^ 32 → (V j).check - e ≤ timeout)

/-- All channels and the check. -/
def Inv (n timeout : Nat) (V : Nat → View) (s : Sys) : Prop :=
  (∀ i, ChanInv (V i) (s.chan i) (s.call i) s.now) ∧
  ∀ c, s.check = some c → (∀ i, DurInv (V i) (s.chan i) (s.call i) s.now) ∧ CkInv n timeout V s.chan s.now c

theorem ckInv_mono {n timeout : Nat} {V V' : Nat → View} {chan chan' : Nat → Chan} {now now' : Nat}
    (hn : now ≤ now') (hc : ∀ i, (V' i).check = (V i).check) (hb : ∀ i, (V' i).before = (V i).before)
    (hd : ∀ i, (V' i).disturbed = false → (V i).disturbed = false)
    (hu : ∀ i, (V' i).used = false → (V i).used = false ∧ (V' i).running = (V i).running ∧ chan' i = chan i)
    {c : Check} (h : CkInv n timeout V chan now c) : CkInv n timeout V' chan' now' c := by
  cases c with
  | time => exact trivial
  | copy idx cnt tm fedR stR =>
    obtain ⟨sm, h1, h2, h3, h4, h5, h6, h7⟩ := h
    refine ⟨sm, h1, fun i => by rw [hc]; exact h2 i, by omega, ?_, ?_, ?_, ?_⟩
    · intro x hx
      refine ⟨fun hd' b e hb' => ?_, fun hu' => ?_⟩
      · rw [hb] at hb'; rw [hc]; exact (h4 x hx).1 (hd _ hd') b e hb'
      · obtain ⟨u1, _, u3⟩ := hu _ hu'
        rw [u3]; exact (h4 x hx).2 u1
    · intro y hy
      refine ⟨fun hd' hb' => ?_, fun hu' => ?_⟩
      · rw [hb] at hb'; exact (h5 y hy).1 (hd _ hd') hb'
      · obtain ⟨u1, _, u3⟩ := hu _ hu'
        rw [u3]; exact (h5 y hy).2 u1
    · intro hcnt hlt
      obtain ⟨j, hj, hx⟩ := h6 hcnt (by omega)
      refine ⟨j, hj, ?_⟩
      rcases hx with hx | ⟨b, e, hx, hy⟩
      · left
        cases hq : (V' j).disturbed with
        | true => rfl
        | false => rw [hd j hq] at hx; cases hx
      · right
        exact ⟨b, e, by rw [hb]; exact hx, by omega⟩
    · intro hcnt ht j hj hu' b e hr hlt
      obtain ⟨u1, u2, _⟩ := hu _ hu'
      rw [hc]
      exact h7 hcnt ht j hj u1 b e (by rw [← u2]; exact hr) (by omega)

theorem chanInv_tick {v : View} {c : Chan} {pc : Option Pc} {now now' : Nat} (hn : now ≤ now')
    (h : ChanInv v c pc now) : ChanInv v c pc now' where
  call := h.call
  callTime := fun op b hb => Nat.le_trans (h.callTime op b hb) hn
  noTime := h.noTime
  fedPc := fun op t b hp hv => by
    obtain ⟨h0, r, h1, h2, h3⟩ := h.fedPc op t b hp hv
    exact ⟨h0, r, h1, by omega, h3⟩
  statePc := h.statePc
  stateFed := fun b hp hv => by
    obtain ⟨r, h1, h2, h3⟩ := h.stateFed b hp hv
    exact ⟨r, h1, by omega, h3⟩
  started := h.started
  fed := h.fed
  runTime := fun b e hr => ⟨(h.runTime b e hr).1, Nat.le_trans (h.runTime b e hr).2 hn⟩
  order := h.order

theorem durInv_tick {v : View} {c : Chan} {pc : Option Pc} {now now' : Nat} (hn : now ≤ now')
    (h : DurInv v c pc now) : DurInv v c pc now' where
  check := Nat.le_trans h.check hn
  noStart := h.noStart
  stopped := h.stopped
  fed := h.fed
  order := h.order
  unused := h.unused

theorem chanInv_begun {v : View} {c : Chan} {now i : Nat} (op : Op)
    (h : ChanInv v c none now) : ChanInv (v.see i (.begun i op now)) c (some (entry op)) now := by
  have hf : ∀ b e, v.running = some (b, e) → ∃ r, b ≤ r ∧ r ≤ e ∧ c.fed = r % 2 ^ 32 :=
    fun b e hr => h.fed b e hr (by simp)
  refine ⟨?_, ?_, ?_, ?_, ?_, ?_, ?_, ?_, ?_, ?_⟩
  · cases op <;> simp [View.see, entry, Pc.op]
  · intro op' b hb
    simp only [View.see, if_true, Option.some.injEq, Prod.mk.injEq] at hb
    omega
  · intro op' hp; cases op <;> simp [entry] at hp <;> subst hp <;> simp
  · intro op' t b hp; cases op <;> simp [entry] at hp
  · intro op' hp; cases op <;> simp [entry] at hp; subst hp; simp
  · intro b hp; cases op <;> simp [entry] at hp
  · simpa [View.see] using h.started
  · intro b e hr _
    exact hf b e (by simpa [View.see] using hr)
  · intro b e hr
    exact h.runTime b e (by simpa [View.see] using hr)
  · intro b e op' b' hr hb
    have := h.runTime b e (by simpa [View.see] using hr)
    simp only [View.see, if_true, Option.some.injEq, Prod.mk.injEq] at hb
    omega

theorem durInv_begun {v : View} {c : Chan} {now i : Nat} (op : Op)
    (hd : DurInv v c none now) : DurInv (v.see i (.begun i op now)) c (some (entry op)) now := by
  refine ⟨?_, ?_, ?_, ?_, ?_, ?_⟩
  · simpa [View.see] using hd.check
  · intro hq op' b hb
    simp only [View.see, if_true, Option.some.injEq, Prod.mk.injEq, Bool.or_eq_false_iff,
      decide_eq_false_iff_not] at hb hq
    rw [← hb.1]; exact hq.2
  · intro hq hb
    simp only [View.see, if_true, Bool.or_eq_false_iff] at hq hb
    exact hd.stopped hq.1 hb
  · intro hq b e hb
    simp only [View.see, if_true, Bool.or_eq_false_iff] at hq hb ⊢
    exact hd.fed hq.1 b e hb
  · intro b e hb
    simp only [View.see, if_true] at hb ⊢
    refine ⟨(hd.order b e hb).1, fun op' b' hc => ?_⟩
    simp only [Option.some.injEq, Prod.mk.injEq] at hc
    have := (hd.order b e hb).1
    have := hd.check
    omega
  · intro hu
    simp [View.see] at hu

theorem call_of {v : View} {c : Chan} {pc : Pc} {now : Nat} (h : ChanInv v c (some pc) now) :
    ∃ b, v.call = some (pc.op, b) ∧ b ≤ now := by
  have := h.call
  cases hv : v.call with
  | none => rw [hv] at this; simp at this
  | some p =>
    obtain ⟨op, b⟩ := p
    rw [hv] at this
    simp only [Option.map_some, Option.some.injEq] at this
    subst this
    exact ⟨b, rfl, h.callTime _ _ hv⟩

/-- The view of a channel after an access of its call. -/
def after (v : View) (i : Nat) (pc : Pc) (r : Option Pc) (now : Nat) : View :=
  if r = none then v.see i (.ended i pc.op now) else v

theorem chanInv_access {v : View} {c : Chan} {pc : Pc} {now i : Nat} (h : ChanInv v c (some pc) now) :
    ChanInv (after v i pc (access c now pc).1 now) (access c now pc).2 (access c now pc).1 now := by
  obtain ⟨b0, hv, hb0⟩ := call_of h
  cases pc with
  | time op =>
    have hne := h.noTime op rfl
    simp only [access, after, reduceCtorEq, if_false]
    refine ⟨?_, h.callTime, ?_, ?_, ?_, ?_, h.started, ?_, h.runTime, h.order⟩
    · rw [h.call]; rfl
    · intro op' hp; simp at hp
    · intro op' t b hp hb
      simp only [Option.some.injEq, Pc.fed.injEq] at hp
      refine ⟨by rw [← hp.1]; exact hne, now, ?_, Nat.le_refl _, hp.2.symm⟩
      rw [hv] at hb; simp only [Option.some.injEq, Prod.mk.injEq] at hb; omega
    · intro op' hp; simp at hp
    · intro b hp; simp at hp
    · intro b e hr _; exact h.fed b e hr (by simp)
  | fed op t =>
    obtain ⟨hne, r, hr1, hr2, hr3⟩ := h.fedPc op t b0 rfl hv
    simp only [Pc.op] at hv
    cases op with
    | stop => exact absurd rfl hne
    | start =>
      simp only [access, after, if_true, reduceCtorEq, if_false]
      refine ⟨?_, h.callTime, ?_, ?_, ?_, ?_, h.started, ?_, h.runTime, h.order⟩
      · rw [h.call]; rfl
      · intro op' hp; simp at hp
      · intro op' t b hp; simp at hp
      · intro op' hp; simp at hp; subst hp; simp
      · intro b _ hb
        rw [hv] at hb; simp only [Option.some.injEq, Prod.mk.injEq, true_and] at hb
        subst hb
        exact ⟨r, hr1, hr2, hr3⟩
      · intro b e _ hp; exact absurd rfl hp
    | feed =>
      simp only [access, after, reduceCtorEq, if_false, if_true, View.see, Pc.op, hv]
      refine ⟨rfl, ?_, ?_, ?_, ?_, ?_, ?_, ?_, ?_, ?_⟩
      · intro op' b hb; simp at hb
      · intro op' hp; cases hp
      · intro op' t b hp; cases hp
      · intro op' hp; cases hp
      · intro b hp; cases hp
      · simpa using h.started
      · intro b e hr _
        simp only [Option.map_eq_some_iff, Prod.mk.injEq] at hr
        obtain ⟨_, _, rfl, rfl⟩ := hr
        exact ⟨r, hr1, hr2, hr3⟩
      · intro b e hr
        simp only [Option.map_eq_some_iff, Prod.mk.injEq] at hr
        obtain ⟨_, _, rfl, rfl⟩ := hr
        exact ⟨hb0, Nat.le_refl _⟩
      · intro b e op' b' _ hb; simp at hb
  | state op =>
    have hne := h.statePc op rfl
    simp only [Pc.op] at hv
    cases op with
    | feed => exact absurd rfl hne
    | start =>
      obtain ⟨r, hr1, hr2, hr3⟩ := h.stateFed b0 rfl hv
      simp only [access, after, if_true, View.see, Pc.op, hv]
      refine ⟨rfl, ?_, ?_, ?_, ?_, ?_, ?_, ?_, ?_, ?_⟩
      · intro op' b hb; simp at hb
      · intro op' hp; cases hp
      · intro op' t b hp; cases hp
      · intro op' hp; cases hp
      · intro b hp; cases hp
      · simp
      · intro b e hr _
        simp only [Option.some.injEq, Prod.mk.injEq] at hr
        obtain ⟨rfl, rfl⟩ := hr
        exact ⟨r, hr1, hr2, hr3⟩
      · intro b e hr
        simp only [Option.some.injEq, Prod.mk.injEq] at hr
        obtain ⟨rfl, rfl⟩ := hr
        exact ⟨hb0, Nat.le_refl _⟩
      · intro b e op' b' _ hb; simp at hb
    | stop =>
      simp only [access, after, if_true, View.see, Pc.op, hv]
      refine ⟨rfl, ?_, ?_, ?_, ?_, ?_, ?_, ?_, ?_, ?_⟩
      · intro op' b hb; simp at hb
      · intro op' hp; cases hp
      · intro op' t b hp; cases hp
      · intro op' hp; cases hp
      · intro b hp; cases hp
      · simp
      · intro b e hr; simp at hr
      · intro b e hr; simp at hr
      · intro b e op' b' hr; simp at hr

theorem durInv_access {v : View} {c : Chan} {pc : Pc} {now i : Nat} (h : ChanInv v c (some pc) now)
    (hd : DurInv v c (some pc) now) :
    DurInv (after v i pc (access c now pc).1 now) (access c now pc).2 (access c now pc).1 now := by
  obtain ⟨b0, hv, hb0⟩ := call_of h
  have hu : v.used = true := by
    cases hq : v.used with
    | true => rfl
    | false => rw [(hd.unused hq).1] at hv; cases hv
  cases pc with
  | time op =>
    simp only [access, after, reduceCtorEq, if_false]
    exact ⟨hd.check, hd.noStart, hd.stopped, hd.fed, hd.order, hd.unused⟩
  | fed op t =>
    obtain ⟨hne, r, hr1, hr2, hr3⟩ := h.fedPc op t b0 rfl hv
    simp only [Pc.op] at hv
    cases op with
    | stop => exact absurd rfl hne
    | start =>
      simp only [access, after, if_true, reduceCtorEq, if_false]
      refine ⟨hd.check, hd.noStart, hd.stopped, ?_, hd.order, hd.unused⟩
      intro hq
      exact absurd rfl (hd.noStart hq _ _ hv)
    | feed =>
      simp only [access, after, reduceCtorEq, if_false, if_true, View.see, Pc.op, hv]
      refine ⟨hd.check, ?_, ?_, ?_, ?_, ?_⟩
      · intro _ op' b hb; simp at hb
      · intro hq hb
        simp only [Bool.or_eq_false_iff] at hq
        exact hd.stopped hq.1 hb
      · intro hq b e hb
        simp only [Bool.or_eq_false_iff, decide_eq_false_iff_not, true_and, Nat.not_lt] at hq
        have := (hd.order b e hb).2 _ _ hv
        exact ⟨r, by omega, by simp only; omega, hr3⟩
      · intro b e hb
        exact ⟨(hd.order b e hb).1, fun op' b' hc => by simp at hc⟩
      · intro hq; simp only [hu] at hq; cases hq
  | state op =>
    have hne := h.statePc op rfl
    simp only [Pc.op] at hv
    cases op with
    | feed => exact absurd rfl hne
    | start =>
      have hdi : v.disturbed = true := by
        cases hq : v.disturbed with
        | true => rfl
        | false => exact absurd rfl (hd.noStart hq _ _ hv)
      simp only [access, after, if_true, View.see, Pc.op, hv]
      refine ⟨hd.check, ?_, ?_, ?_, ?_, ?_⟩
      · intro hq; simp [hdi] at hq
      · intro hq; simp [hdi] at hq
      · intro hq; simp [hdi] at hq
      · intro b e hb
        exact ⟨(hd.order b e hb).1, fun op' b' hc => by simp at hc⟩
      · intro hq; simp only [hu] at hq; cases hq
    | stop =>
      simp only [access, after, if_true, View.see, Pc.op, hv]
      refine ⟨hd.check, ?_, ?_, ?_, ?_, ?_⟩
      · intro _ op' b hb; simp at hb
      · intro _ _; simp
      · intro hq b e hb
        simp only [Bool.or_eq_false_iff] at hq
        exact hd.fed hq.1 b e hb
      · intro b e hb
        exact ⟨(hd.order b e hb).1, fun op' b' hc => by simp at hc⟩
      · intro hq; simp only [hu] at hq; cases hq

theorem durInv_begin {v : View} {c : Chan} {pc : Option Pc} {now i : Nat} (h : ChanInv v c pc now) :
    DurInv (v.see i (.checkBegun now)) c pc now := by
  have hns : (v.see i (.checkBegun now)).disturbed = false → ∀ op b, v.call = some (op, b) → op ≠ .start := by
    intro hq op b hb
    simp only [View.see, hb] at hq
    intro hop
    subst hop
    simp at hq
  refine ⟨Nat.le_refl _, ?_, ?_, ?_, ?_, ?_⟩
  · intro hq op b hb
    exact hns hq op b hb
  · intro _ hb
    rw [h.started]
    simp only [View.see] at hb
    rw [hb]; rfl
  · intro hq b e hb
    simp only [View.see] at hb
    have ht := h.runTime b e hb
    obtain ⟨r, h1, h2, h3⟩ := h.fed b e hb (by
      intro hp
      subst hp
      obtain ⟨b', hv, _⟩ := call_of h
      exact hns hq _ _ hv rfl)
    exact ⟨r, h1, by simp only [View.see]; omega, h3⟩
  · intro b e hb
    simp only [View.see] at hb ⊢
    have ht := h.runTime b e hb
    refine ⟨by omega, fun op b' hc => ?_⟩
    have := h.order b e op b' hb hc
    omega
  · intro hu
    simp only [View.see] at hu ⊢
    refine ⟨by simpa using hu, fun b e hr => (h.runTime b e hr).2⟩

/-- The views after some events. -/
def sees (V : Nat → View) (evs : List Ev) : Nat → View := fun i => evs.foldl (View.see i) (V i)

theorem see_other {v : View} {i j : Nat} (hij : j ≠ i) (op : Op) (t : Nat) :
    v.see i (.begun j op t) = v ∧ v.see i (.ended j op t) = v := by
  simp [View.see, hij]

theorem ckInv_next {n timeout : Nat} {V : Nat → View} {chan : Nat → Chan} {now : Nat}
    (hs : ∀ i, (chan i).started = (V i).running.isSome)
    (hf : ∀ i b e, (V i).used = false → (V i).running = some (b, e) →
      e ≤ (V i).check ∧ ∃ r, b ≤ r ∧ r ≤ e ∧ (chan i).fed = r % 2 ^ 32)
    {idx cnt tm f : Nat} {st : Bool} (hi : idx < n)
    (h : CkInv n timeout V chan now (.copy idx cnt tm (some f) (some st))) :
    CkInv n timeout V chan now
      (.copy (idx + 1) (if expired timeout f st tm then cnt + 1 else cnt) tm none none) := by
  obtain ⟨sm, h1, h2, h3, h4, h5, h6, h7⟩ := h
  refine ⟨sm, h1, h2, h3, fun x hx => (by cases hx), fun y hy => (by cases hy), ?_, ?_⟩
  · intro hcnt hlt
    cases hex : expired timeout f st tm with
    | false =>
      rw [hex] at hcnt
      exact h6 (by simpa using hcnt) hlt
    | true =>
      refine ⟨idx, hi, ?_⟩
      cases hq : (V idx).disturbed with
      | true => left; rfl
      | false =>
        right
        simp only [expired, Bool.and_eq_true, decide_eq_true_iff] at hex
        cases hb : (V idx).before with
        | none =>
          have := (h5 st rfl).1 hq hb
          rw [this] at hex; simp at hex
        | some p =>
          obtain ⟨b, e⟩ := p
          obtain ⟨r, r1, r2, r3⟩ := (h4 f rfl).1 hq b e hb
          refine ⟨b, e, rfl, ?_⟩
          have := h2 idx
          have hx := hex.2
          rw [h1, r3] at hx
          omega
  · intro hcnt ht j hj hu b e hr hlt
    have hne : expired timeout f st tm = false ∧ cnt = 0 := by
      cases hex : expired timeout f st tm with
      | true => rw [hex] at hcnt; simp at hcnt
      | false => rw [hex] at hcnt; exact ⟨rfl, by simpa using hcnt⟩
    rcases Nat.lt_or_ge j idx with hji | hji
    · exact h7 hne.2 ht j hji hu b e hr hlt
    · obtain rfl : j = idx := by omega
      have e1 := (h4 f rfl).2 hu
      have e2 := (h5 st rfl).2 hu
      rw [hs, hr] at e2
      simp only [Option.isSome_some] at e2
      obtain ⟨he, r, r1, r2, r3⟩ := hf j b e hu hr
      have hx := hne.1
      simp only [expired, e2, Bool.true_and, decide_eq_false_iff_not, e1, r3, h1] at hx
      have := h2 j
      omega

theorem step_inv {n timeout : Nat} {V : Nat → View} {s : Sys} (h : Inv n timeout V s) (a : Act) :
    Inv n timeout (sees V (step n timeout s a).2) (step n timeout s a).1 := by
  obtain ⟨hc, hk⟩ := h
  unfold step
  cases hdead : s.dead with
  | true => exact ⟨hc, hk⟩
  | false =>
  simp only [Bool.false_eq_true, if_false]
  cases a with
  | tick ms =>
    refine ⟨fun i => chanInv_tick (Nat.le_add_right _ _) (hc i), fun c hcc => ?_⟩
    obtain ⟨k1, k2⟩ := hk c hcc
    exact ⟨fun i => durInv_tick (Nat.le_add_right _ _) (k1 i),
      ckInv_mono (Nat.le_add_right _ _) (fun _ => rfl) (fun _ => rfl) (fun _ hx => hx)
        (fun _ hx => ⟨hx, rfl, rfl⟩) k2⟩
  | call i op =>
    dsimp only
    split
    · rename_i hi
      have hci := hc i
      rw [hi.2] at hci
      refine ⟨fun j => ?_, fun c hcc => ?_⟩
      · by_cases hij : i = j
        · subst hij
          simpa [sees, put] using chanInv_begun op hci
        · simpa [sees, put, (see_other hij op s.now).1, Ne.symm hij] using hc j
      · obtain ⟨k1, k2⟩ := hk c hcc
        have ki := k1 i
        rw [hi.2] at ki
        refine ⟨fun j => ?_, ?_⟩
        · by_cases hij : i = j
          · subst hij
            simpa [sees, put] using durInv_begun op ki
          · simpa [sees, put, (see_other hij op s.now).1, Ne.symm hij] using k1 j
        · refine ckInv_mono (Nat.le_refl _) (fun j => ?_) (fun j => ?_) (fun j hj => ?_) (fun j hj => ?_) k2
          · simp only [sees, List.foldl, View.see]; split <;> rfl
          · simp only [sees, List.foldl, View.see]; split <;> rfl
          · simp only [sees, List.foldl, View.see] at hj
            split at hj
            · simp only [Bool.or_eq_false_iff] at hj; exact hj.1
            · exact hj
          · simp only [sees, List.foldl, View.see] at hj ⊢
            split at hj
            · cases hj
            · rename_i hne; exact ⟨hj, by simp [hne]⟩
    · exact ⟨hc, hk⟩
  | callStep i =>
    dsimp only
    split
    · exact ⟨hc, hk⟩
    · rename_i pc hpc
      dsimp only
      have hci := hc i
      rw [hpc] at hci
      have hvi : sees V (if (access (s.chan i) s.now pc).1 = none then [Ev.ended i pc.op s.now] else []) i =
          after (V i) i pc (access (s.chan i) s.now pc).1 s.now := by
        unfold sees after; split <;> rfl
      have hvj : ∀ j, i ≠ j →
          sees V (if (access (s.chan i) s.now pc).1 = none then [Ev.ended i pc.op s.now] else []) j = V j := by
        intro j hij
        unfold sees
        split
        · exact (see_other hij _ _).2
        · rfl
      refine ⟨fun j => ?_, fun c hcc => ?_⟩
      · by_cases hij : i = j
        · subst hij
          rw [hvi]
          simpa [put] using chanInv_access hci
        · rw [hvj j hij]
          simpa [put, Ne.symm hij] using hc j
      · obtain ⟨k1, k2⟩ := hk c hcc
        have ki := k1 i
        rw [hpc] at ki
        refine ⟨fun j => ?_, ?_⟩
        · by_cases hij : i = j
          · subst hij
            rw [hvi]
            simpa [put] using durInv_access hci ki
          · rw [hvj j hij]
            simpa [put, Ne.symm hij] using k1 j
        · have hau : ∀ r, (after (V i) i pc r s.now).used = (V i).used := by
            intro r; unfold after; split
            · simp [View.see]
            · rfl
          have hui : (V i).used = true := by
            obtain ⟨b0, hv, _⟩ := call_of hci
            cases hq : (V i).used with
            | true => rfl
            | false => rw [(ki.unused hq).1] at hv; cases hv
          refine ckInv_mono (Nat.le_refl _) (fun j => ?_) (fun j => ?_) (fun j hj => ?_) (fun j hj => ?_) k2
          · by_cases hij : i = j
            · subst hij; rw [hvi]; unfold after; split <;> simp [View.see]
            · rw [hvj j hij]
          · by_cases hij : i = j
            · subst hij; rw [hvi]; unfold after; split <;> simp [View.see]
            · rw [hvj j hij]
          · by_cases hij : i = j
            · subst hij; rw [hvi] at hj; unfold after at hj; split at hj
              · simp only [View.see, if_true, Bool.or_eq_false_iff] at hj; exact hj.1
              · exact hj
            · rw [hvj j hij] at hj; exact hj
          · by_cases hij : i = j
            · subst hij; rw [hvi, hau, hui] at hj; cases hj
            · rw [hvj j hij] at hj ⊢
              exact ⟨hj, rfl, by simp [put, Ne.symm hij]⟩
  | check =>
    dsimp only
    split
    · rename_i hno
      refine ⟨fun j => ?_, fun c hcc => ?_⟩
      · have := hc j
        exact ⟨this.call, this.callTime, this.noTime, this.fedPc, this.statePc, this.stateFed, this.started,
          this.fed, this.runTime, this.order⟩
      · simp only [Option.some.injEq] at hcc
        subst hcc
        exact ⟨fun j => durInv_begin (i := j) (hc j), trivial⟩
    · exact ⟨hc, hk⟩
  | checkStep ff =>
    dsimp only
    split
    · exact ⟨hc, hk⟩
    · rename_i c hcc
      obtain ⟨k1, k2⟩ := hk c hcc
      cases c with
      | time =>
        refine ⟨hc, fun c' hc' => ?_⟩
        simp only [checkStep, Option.some.injEq] at hc'
        subst hc'
        exact ⟨k1, s.now, rfl, fun i => (k1 i).check, Nat.le_refl _, fun x hx => (by cases hx),
          fun y hy => (by cases hy), fun hx => absurd hx (Nat.lt_irrefl _), fun _ _ j hj => absurd hj (Nat.not_lt_zero _)⟩
      | copy idx cnt tm fedR stR =>
        have hnext := @ckInv_next n timeout V s.chan s.now (fun i => (hc i).started)
          (fun i b e hu hr => ⟨((k1 i).unused hu).2 b e hr, (hc i).fed b e hr (by
            intro hp
            have hci := hc i
            rw [hp] at hci
            obtain ⟨b', hv, _⟩ := call_of hci
            rw [((k1 i).unused hu).1] at hv; cases hv)⟩)
        unfold checkStep
        dsimp only
        split
        · rename_i hi
          cases fedR with
          | some f =>
            cases stR with
            | some st =>
              refine ⟨hc, fun c' hc' => ?_⟩
              simp only [Option.some.injEq] at hc'
              subst hc'
              exact ⟨k1, hnext hi k2⟩
            | none =>
              refine ⟨hc, fun c' hc' => ?_⟩
              simp only [Option.some.injEq] at hc'
              subst hc'
              refine ⟨k1, ?_⟩
              obtain ⟨sm, h1, h2, h3, h4, h5, h6, h7⟩ := k2
              refine ⟨sm, h1, h2, h3, h4, fun y hy => ?_, h6, h7⟩
              simp only [Option.some.injEq] at hy
              subst hy
              exact ⟨fun hd hb => (k1 idx).stopped hd hb, fun _ => rfl⟩
          | none =>
            cases stR with
            | some st =>
              refine ⟨hc, fun c' hc' => ?_⟩
              simp only [Option.some.injEq] at hc'
              subst hc'
              refine ⟨k1, ?_⟩
              obtain ⟨sm, h1, h2, h3, h4, h5, h6, h7⟩ := k2
              refine ⟨sm, h1, h2, h3, fun x hx => ?_, h5, h6, h7⟩
              simp only [Option.some.injEq] at hx
              subst hx
              exact ⟨fun hd b e hb => (k1 idx).fed hd b e hb, fun _ => rfl⟩
            | none =>
              dsimp only
              obtain ⟨sm, h1, h2, h3, h4, h5, h6, h7⟩ := k2
              split
              · refine ⟨hc, fun c' hc' => ?_⟩
                simp only [Option.some.injEq] at hc'
                subst hc'
                refine ⟨k1, sm, h1, h2, h3, fun x hx => ?_, h5, h6, h7⟩
                simp only [Option.some.injEq] at hx
                subst hx
                exact ⟨fun hd b e hb => (k1 idx).fed hd b e hb, fun _ => rfl⟩
              · refine ⟨hc, fun c' hc' => ?_⟩
                simp only [Option.some.injEq] at hc'
                subst hc'
                refine ⟨k1, sm, h1, h2, h3, h4, fun y hy => ?_, h6, h7⟩
                simp only [Option.some.injEq] at hy
                subst hy
                exact ⟨fun hd hb => (k1 idx).stopped hd hb, fun _ => rfl⟩
        · split
          · exact ⟨hc, fun c' hc' => by simp at hc'⟩
          · exact ⟨hc, fun c' hc' => by simp at hc'⟩

/-- The verdict of a check. -/
theorem step_verdict {n timeout : Nat} {V : Nat → View} {s : Sys} (h : Inv n timeout V s) (a : Act) :
    (∀ t, .panic t ∈ (step n timeout s a).2 → t < 2 ^ 32 →
      ∃ j < n, (V j).disturbed = true ∨ ∃ b e, (V j).before = some (b, e) ∧ t - b > timeout) ∧
    (∀ t, .refresh t ∈ (step n timeout s a).2 → timeout < 2 ^ 32 → ∀ j < n, (V j).used = false →
      ∀ b e, (V j).running = some (b, e) → t - b < 2 ^ 32 → (V j).check - e ≤ timeout) := by
  obtain ⟨hc, hk⟩ := h
  unfold step
  split
  · simp
  · cases a with
    | tick ms => simp
    | call i op => dsimp only; split <;> simp
    | callStep i =>
      dsimp only
      split
      · simp
      · dsimp only; split <;> simp
    | check => dsimp only; split <;> simp
    | checkStep ff =>
      dsimp only
      split
      · simp
      · rename_i c hcc
        obtain ⟨k1, k2⟩ := hk c hcc
        cases c with
        | time => simp [checkStep]
        | copy idx cnt tm fedR stR =>
          obtain ⟨sm, h1, h2, h3, h4, h5, h6, h7⟩ := k2
          unfold checkStep
          dsimp only
          split
          · split
            · simp
            · simp
            · simp
            · split <;> simp
          · rename_i hi
            split
            · rename_i hcnt
              refine ⟨fun t ht hlt => ?_, fun t ht => by simp at ht⟩
              simp only [List.mem_singleton, Ev.panic.injEq] at ht
              subst ht
              exact h6 hcnt hlt
            · rename_i hcnt
              refine ⟨fun t ht => by simp at ht, fun t ht hto j hj hu b e hr hlt => ?_⟩
              simp only [List.mem_singleton, Ev.refresh.injEq] at ht
              subst ht
              exact h7 (by omega) hto j (by omega) hu b e hr hlt

theorem step_short (n timeout : Nat) (s : Sys) (a : Act) : (step n timeout s a).2.length ≤ 1 := by
  unfold step
  split
  · simp
  · cases a with
    | tick ms => simp
    | call i op => dsimp only; split <;> simp
    | callStep i =>
      dsimp only
      split
      · simp
      · dsimp only; split <;> simp
    | check => dsimp only; split <;> simp
    | checkStep ff =>
      dsimp only
      split
      · simp
      · rename_i c hcc
        cases c with
        | time => simp [checkStep]
        | copy idx cnt tm fedR stR =>
          unfold checkStep
          dsimp only
          split
          · split
            · simp
            · simp
            · simp
            · split <;> simp
          · split <;> simp

/-- The state in which an event happens. -/
theorem find {n timeout : Nat} {ev : Ev} {post : List Ev} : ∀ (acts : List Act) (s : Sys) (V : Nat → View)
    (pre : List Ev), Inv n timeout V s → (run n timeout s acts).2 = pre ++ ev :: post →
    ∃ s' a, Inv n timeout (sees V pre) s' ∧ ev ∈ (step n timeout s' a).2 := by
  intro acts
  induction acts with
  | nil => intro s V pre _ h; simp [run] at h
  | cons a as ih =>
    intro s V pre hi h
    simp only [run] at h
    have hsh := step_short n timeout s a
    have hin := step_inv hi a
    cases he : (step n timeout s a).2 with
    | nil =>
      rw [he, List.nil_append] at h
      rw [he] at hin
      exact ih _ _ _ hin h
    | cons x xs =>
      rw [he] at hsh h hin
      have : xs = [] := by
        cases xs with
        | nil => rfl
        | cons => simp at hsh
      subst this
      cases pre with
      | nil =>
        simp only [List.cons_append, List.nil_append, List.cons.injEq] at h
        exact ⟨s, a, hi, by rw [he, h.1]; simp⟩
      | cons y pre =>
        simp only [List.cons_append, List.nil_append, List.cons.injEq] at h
        obtain ⟨s', a', q1, q2⟩ := ih _ _ _ hin h.2
        refine ⟨s', a', ?_, q2⟩
        rw [h.1] at q1
        exact q1

theorem inv_init (n timeout now : Nat) : Inv n timeout (fun _ => View.init) (Sys.init now) :=
  ⟨fun _ => ⟨rfl, fun _ _ h => (by cases h), fun _ h => (by cases h), fun _ _ _ h => (by cases h),
    fun _ h => (by cases h), fun _ h => (by cases h), rfl, fun _ _ h => (by cases h),
    fun _ _ h => (by cases h), fun _ _ _ _ h => (by cases h)⟩, fun _ h => (by cases h)⟩

end WdRace

open WdRace

/-- C104, no false alarm, up to the races shown to be real below. For every number of channels, timeout
and schedule of the tasks, and as long as the clock has not rolled over: if a check asserts at `t`, then
some channel ran when the check began and the last call to start or feed it began more than the timeout
before `t` - or some channel was being started during the check, or a feeding of it ended during the check in
a later millisecond than the one in which the check began. -/
theorem C104_alarm_partial {n timeout now t : Nat} {acts : List Act} {pre post : List Ev}
    (h : (run n timeout (Sys.init now) acts).2 = pre ++ .panic t :: post) (ht : t < 2 ^ 32) :
    ∃ i < n, (view i pre).disturbed = true ∨
      ∃ b e, (view i pre).before = some (b, e) ∧ t - b > timeout := by
  obtain ⟨s, a, q1, q2⟩ := find acts _ _ pre (inv_init n timeout now) h
  exact (step_verdict q1 a).1 t q2 ht

/-- C104, nothing is missed, for every schedule and also when the clock rolls over: if a check ends
without an assert, then every running channel that had no call during the check was started or fed (by a
call that ended) at most the timeout before the check began. -/
theorem C104_detects {n timeout now t : Nat} {acts : List Act} {pre post : List Ev}
    (h : (run n timeout (Sys.init now) acts).2 = pre ++ .refresh t :: post) (hto : timeout < 2 ^ 32)
    {i b e : Nat} (hi : i < n) (hu : (view i pre).used = false)
    (hr : (view i pre).running = some (b, e)) (hlong : t - b < 2 ^ 32) :
    (view i pre).check - e ≤ timeout := by
  obtain ⟨s, a, q1, q2⟩ := find acts _ _ pre (inv_init n timeout now) h
  exact (step_verdict q1 a).2 t q2 hto i hi hu b e hr hlong

/-- A check of two channels, from the reading of the clock to the verdict. -/
def wholeCheck : List Act := .check :: List.replicate 8 (.checkStep true)

/-- Channels that expire and do not expire, with a stop in the middle of a check. -/
example :
    (run 2 1000 (Sys.init 50)
      ([.call 0 .start, .callStep 0, .callStep 0, .callStep 0, .tick 900, .call 1 .start, .callStep 1,
        .callStep 1, .callStep 1, .tick 100] ++ wholeCheck ++ [.tick 1, .check, .checkStep true, .call 1 .stop,
        .checkStep true, .checkStep false, .callStep 1, .checkStep true, .checkStep true, .checkStep true,
        .checkStep true, .checkStep true])).2 =
    [.begun 0 .start 50, .ended 0 .start 50, .begun 1 .start 950, .ended 1 .start 950, .checkBegun 1050] ++
      .refresh 1050 :: [.checkBegun 1051, .begun 1 .stop 1051, .ended 1 .stop 1051, .panic 1051] ∧
    view 0 [.begun 0 .start 50, .ended 0 .start 50, .begun 1 .start 950, .ended 1 .start 950,
      .checkBegun 1050] = ⟨some (50, 50), none, 1050, some (50, 50), false, false⟩ := by
  decide +kernel

/-- C104 is false of the code: a channel that is fed every 5 ms is taken for expired, with a timeout of
30 s, because its task runs in the middle of a check and feeds it one millisecond after the check has
read the clock. -/
theorem C104_false_fed :
    ∃ pre, (run 1 30000 (Sys.init 100)
      [.call 0 .start, .callStep 0, .callStep 0, .callStep 0, .tick 5, .check, .checkStep true, .tick 1,
        .call 0 .feed, .callStep 0, .callStep 0, .checkStep true, .checkStep true, .checkStep true,
        .checkStep true]).2 = pre ++ [.panic 106] ∧
      view 0 pre = ⟨some (106, 106), none, 105, some (100, 100), true, true⟩ :=
  ⟨[.begun 0 .start 100, .ended 0 .start 100, .checkBegun 105, .begun 0 .feed 106, .ended 0 .feed 106],
    by decide +kernel⟩

/-- C104 is false of the code: a channel that was stopped for long is started while a check copies it,
all within one millisecond, and is taken for expired. -/
theorem C104_false_started :
    ∃ pre, (run 1 30000 (Sys.init 40000)
      [.check, .checkStep true, .checkStep true, .call 0 .start, .callStep 0, .callStep 0, .callStep 0,
        .checkStep true, .checkStep true, .checkStep true]).2 = pre ++ [.panic 40000] ∧
      view 0 pre = ⟨some (40000, 40000), none, 40000, none, true, true⟩ :=
  ⟨[.checkBegun 40000, .begun 0 .start 40000, .ended 0 .start 40000], by decide +kernel⟩

end Mflt.Props
