import Verif.Model.TaskWatchdog

/-! # C32: the task watchdog -/

namespace Mflt.Props

open TaskWatchdog

/-- Calls, with the time at which they are made. Checks have no effect on the channels. -/
inductive WdOp
  | start (id now : Nat)
  | feed (id now : Nat)
  | stop (id : Nat)
  deriving Repr, DecidableEq

/-- Specification: when each running channel was last fed (none: it is not running). -/
def wdSpec (fed : Nat → Option Nat) : List WdOp → Nat → Option Nat
  | [] => fed
  | .start id now :: ops => wdSpec (fun i => if i = id then some now else fed i) ops
  | .feed id now :: ops => wdSpec (fun i => if i = id then (fed i).map fun _ => now else fed i) ops
  | .stop id :: ops => wdSpec (fun i => if i = id then none else fed i) ops

def wdRun (chs : List Channel) : List WdOp → Option (List Channel)
  | [] => some chs
  | .start id now :: ops => (start chs id now).bind fun chs => wdRun chs ops
  | .feed id now :: ops => (feed chs id now).bind fun chs => wdRun chs ops
  | .stop id :: ops => (stop chs id).bind fun chs => wdRun chs ops

def WdOp.id : WdOp → Nat
  | .start id _ => id
  | .feed id _ => id
  | .stop id => id

/-- A channel and what the specification says about it. -/
def wdRel (ch : Channel) (f : Option Nat) : Prop :=
  ch.fedTime < 2 ^ 32 ∧ ch.started = f.isSome ∧ ∀ t, f = some t → ch.fedTime = t % 2 ^ 32

theorem wdRun_rel (ops : List WdOp) : ∀ (chs : List Channel) (fed : Nat → Option Nat),
    (∀ op ∈ ops, op.id < chs.length) → (∀ i ch, chs[i]? = some ch → wdRel ch (fed i)) →
    ∃ chs', wdRun chs ops = some chs' ∧ chs'.length = chs.length ∧
      ∀ i ch, chs'[i]? = some ch → wdRel ch (wdSpec fed ops i) := by
  have hset : ∀ (chs : List Channel) (id : Nat) (ch0 v : Channel) (fed : Nat → Option Nat) (x : Option Nat),
      chs[id]? = some ch0 → wdRel v x → (∀ i ch, chs[i]? = some ch → wdRel ch (fed i)) →
      ∀ i ch, (chs.set id v)[i]? = some ch → wdRel ch (if i = id then x else fed i) := by
    intro chs id ch0 v fed x h0 hv h i ch hi
    have hl : id < chs.length := by
      rcases Nat.lt_or_ge id chs.length with hx | hx
      · exact hx
      · rw [List.getElem?_eq_none hx] at h0; cases h0
    by_cases hid : i = id
    · subst hid
      rw [List.getElem?_set_self hl] at hi
      simp only [Option.some.injEq] at hi
      subst hi
      simpa using hv
    · rw [List.getElem?_set_ne (fun hx => hid hx.symm)] at hi
      rw [if_neg hid]
      exact h i ch hi
  induction ops with
  | nil => intro chs fed _ h; exact ⟨chs, rfl, rfl, h⟩
  | cons op ops ih =>
    intro chs fed hid h
    have hlt := hid op (by simp)
    obtain ⟨ch0, h0⟩ : ∃ c, chs[op.id]? = some c := ⟨chs[op.id], List.getElem?_eq_getElem hlt⟩
    have hid' : ∀ v, ∀ o ∈ ops, WdOp.id o < (chs.set op.id v).length := by
      intro v o ho; rw [List.length_set]; exact hid o (by simp [ho])
    have hr0 := h _ _ h0
    cases op with
    | start id now =>
      simp only [WdOp.id] at *
      have hs : start chs id now = some (chs.set id ⟨now % 2 ^ 32, true⟩) := by
        simp only [start, update, h0, Option.map_some, Option.bind_some]
        rw [List.getElem?_set_self hlt]
        simp
      obtain ⟨c', e1, e2, e3⟩ := ih (chs.set id ⟨now % 2 ^ 32, true⟩) _ (hid' _)
        (hset chs id ch0 ⟨now % 2 ^ 32, true⟩ fed (some now) h0
          ⟨by simp only; omega, rfl, fun t ht => by simp only [Option.some.injEq] at ht; rw [ht]⟩ h)
      exact ⟨c', by simp [wdRun, hs, e1], by rw [e2, List.length_set], e3⟩
    | feed id now =>
      simp only [WdOp.id] at *
      have hs : feed chs id now = some (chs.set id ⟨now % 2 ^ 32, ch0.started⟩) := by
        simp only [feed, update, h0, Option.map_some]
      obtain ⟨c', e1, e2, e3⟩ := ih (chs.set id ⟨now % 2 ^ 32, ch0.started⟩)
        (fun i => if i = id then (fed i).map fun _ => now else fed i) (hid' _) (by
          intro i ch hi
          have := hset chs id ch0 ⟨now % 2 ^ 32, ch0.started⟩ fed ((fed id).map fun _ => now) h0
            ⟨by simp only; omega, by simp [hr0.2.1], fun t ht => by
              cases hf : fed id with
              | none => rw [hf] at ht; simp at ht
              | some u => rw [hf] at ht; simp only [Option.map_some, Option.some.injEq] at ht; rw [ht]⟩ h i ch hi
          by_cases hii : i = id
          · subst hii; simpa using this
          · simpa [hii] using this)
      exact ⟨c', by simp [wdRun, hs, e1], by rw [e2, List.length_set], e3⟩
    | stop id =>
      simp only [WdOp.id] at *
      have hs : stop chs id = some (chs.set id ⟨ch0.fedTime, false⟩) := by
        simp only [stop, update, h0, Option.map_some]
      obtain ⟨c', e1, e2, e3⟩ := ih (chs.set id ⟨ch0.fedTime, false⟩) _ (hid' _)
        (hset chs id ch0 ⟨ch0.fedTime, false⟩ fed none h0
          ⟨hr0.1, rfl, fun t ht => by cases ht⟩ h)
      exact ⟨c', by simp [wdRun, hs, e1], by rw [e2, List.length_set], e3⟩

theorem checkAll_panic (timeout : Nat) (chs : List Channel) (now : Nat) :
    checkAll timeout chs now = .panic ↔ ∃ (i : Nat) (ch : Channel), chs[i]? = some ch ∧ expired timeout ch (now % 2 ^ 32) = true := by
  have hcount : ∀ (l : List Channel) (k : Nat),
      l.foldl (fun n ch => if expired timeout ch (now % 2 ^ 32) then n + 1 else n) k =
        k + l.countP fun ch => expired timeout ch (now % 2 ^ 32) := by
    intro l
    induction l with
    | nil => simp
    | cons x l ih =>
      intro k
      rw [List.foldl_cons, ih, List.countP_cons]
      split <;> omega
  unfold checkAll doCheck
  simp only [hcount, Nat.zero_add]
  constructor
  · intro h
    split at h
    · rename_i hp
      obtain ⟨ch, hm, he⟩ := List.countP_pos_iff.mp hp
      obtain ⟨i, hi⟩ := List.mem_iff_getElem?.mp hm
      exact ⟨i, ch, hi, he⟩
    · cases h
  · rintro ⟨i, ch, hi, he⟩
    rw [if_pos (List.countP_pos_iff.mpr ⟨ch, List.mem_iff_getElem?.mpr ⟨i, hi⟩, he⟩)]

/-- C32, for checks that are made in the same period of 2^32 ms (49.7 days) as the last feeding of
every running channel. After any history, a check panics if and only if some running channel was not
fed for longer than the timeout. Missing: checks after the clock of 32 bits wrapped
(`C32_false_alarm_at_rollover`). -/
theorem C32_detects_expired_partial {n timeout : Nat} {ops : List WdOp} (hid : ∀ op ∈ ops, op.id < n)
    {now : Nat} (hwrap : ∀ i f, wdSpec (fun _ => none) ops i = some f → f ≤ now ∧ f / 2 ^ 32 = now / 2 ^ 32) :
    ∃ chs, wdRun (init n) ops = some chs ∧
      (checkAll timeout chs now = .panic ↔
        ∃ i f, i < n ∧ wdSpec (fun _ => none) ops i = some f ∧ now - f > timeout) := by
  have hl : (init n).length = n := by simp [init]
  obtain ⟨chs, e1, e2, e3⟩ := wdRun_rel ops (init n) (fun _ => none) (by rw [hl]; exact hid) (by
    intro i ch hi
    have := List.mem_of_getElem? hi
    simp only [init, List.mem_replicate] at this
    rw [this.2]
    exact ⟨by simp, rfl, fun t ht => by cases ht⟩)
  refine ⟨chs, e1, ?_⟩
  rw [checkAll_panic]
  rw [hl] at e2
  constructor
  · rintro ⟨i, ch, hi, he⟩
    obtain ⟨r1, r2, r3⟩ := e3 i ch hi
    simp only [expired, Bool.and_eq_true, decide_eq_true_iff, r2] at he
    obtain ⟨f, hf⟩ := Option.isSome_iff_exists.mp he.1
    have := r3 f hf
    obtain ⟨w1, w2⟩ := hwrap i f hf
    refine ⟨i, f, ?_, hf, ?_⟩
    · rw [← e2]
      rcases Nat.lt_or_ge i chs.length with hx | hx
      · exact hx
      · rw [List.getElem?_eq_none hx] at hi; cases hi
    · have h2 := he.2
      rw [this] at h2
      omega
  · rintro ⟨i, f, hi, hf, hgt⟩
    have hi' : i < chs.length := by omega
    have hget := List.getElem?_eq_getElem hi'
    refine ⟨i, chs[i], hget, ?_⟩
    obtain ⟨r1, r2, r3⟩ := e3 i _ hget
    simp only [expired, Bool.and_eq_true, decide_eq_true_iff, r2, hf, Option.isSome_some, true_and]
    rw [r3 f hf]
    obtain ⟨w1, w2⟩ := hwrap i f hf
    omega

/-- C32. No expiry is missed: if a running channel was not fed for longer than the timeout (and less
than 2^32 ms), a check panics, also across the roll-over of the clock. -/
theorem C32_never_misses {n timeout : Nat} {ops : List WdOp} (hid : ∀ op ∈ ops, op.id < n)
    (hto : timeout < 2 ^ 32) {now i f : Nat} (hi : i < n) (hf : wdSpec (fun _ => none) ops i = some f)
    (hlate : now - f > timeout) (hgap : now - f < 2 ^ 32) :
    ∃ chs, wdRun (init n) ops = some chs ∧ checkAll timeout chs now = .panic := by
  have hl : (init n).length = n := by simp [init]
  obtain ⟨chs, e1, e2, e3⟩ := wdRun_rel ops (init n) (fun _ => none) (by rw [hl]; exact hid) (by
    intro i ch hi
    have := List.mem_of_getElem? hi
    simp only [init, List.mem_replicate] at this
    rw [this.2]
    exact ⟨by simp, rfl, fun t ht => by cases ht⟩)
  refine ⟨chs, e1, ?_⟩
  rw [checkAll_panic]
  have hi' : i < chs.length := by omega
  have hget := List.getElem?_eq_getElem hi'
  refine ⟨i, chs[i], hget, ?_⟩
  obtain ⟨r1, r2, r3⟩ := e3 i _ hget
  simp only [expired, Bool.and_eq_true, decide_eq_true_iff, r2, hf, Option.isSome_some, true_and]
  rw [r3 f hf]
  omega

/-- C32 is false of the code across the roll-over: a channel that was fed 2 ms ago, just before the
32-bit clock rolled over, panics with a timeout of 30 s. -/
theorem C32_false_alarm_at_rollover :
    ((wdRun (init 2) [.start 0 (2 ^ 32 - 1)]).map fun chs => checkAll 30000 chs (2 ^ 32 + 1)) =
      some .panic := by
  decide +kernel

/-- A channel that expires and one that does not. -/
example :
    ((wdRun (init 3) [.start 0 5, .start 2 7, .feed 0 900, .start 1 8, .stop 1]).map fun chs =>
      (checkAll 1000 chs 1007, checkAll 1000 chs 1008)) = some (.refresh, .panic) ∧
    [0, 1, 2].map (wdSpec (fun _ => none) [.start 0 5, .start 2 7, .feed 0 900, .start 1 8, .stop 1]) =
      [some 900, none, some 7] := by
  decide +kernel

end Mflt.Props
