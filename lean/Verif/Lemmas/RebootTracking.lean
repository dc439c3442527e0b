import Verif.Spec.RebootTracking

/-! # Lemmas for reboot tracking -/

namespace Mflt.RebootTracking

open Spec.Reboot (Op Out Pending keepFirst known)

/-- The region and what the specification remembers. -/
structure RamRel (r : Ram) (S : Spec.Reboot.State) : Prop where
  crash : r.crashCount = S.crashes % 256
  dump : (r.coredumpSaved == 1) = S.coredump
  none : S.pending = none → r.reason = notSet ∧ r.pc = 0 ∧ r.lr = 0 ∧ S.reg = 0
  some : ∀ p, S.pending = some p → r.reason = p.reason ∧ p.reason < 2 ^ 32 - 1 ∧ r.pc = p.pc ∧ r.lr = p.lr
  reg : r.reg0 = S.reg
  active : ∀ i, i < 32 → r.sessions.getLsbD i = S.active i

structure Rel (s : State) (S : Spec.Reboot.State) : Prop where
  live : s.stat.info = S.live
  ram : RamRel (checkOrInit s.ram) S
  magic : S.live = true → s.ram.magic = RebootTracking.magic
  latest : (if s.stat.isValid then some (s.stat.regReason, s.stat.priorReason) else none) = S.latest
  latestOk : ∀ p, S.latest = some p → p.2 < 2 ^ 32 - 1

theorem checkOrInit_magic (r : Ram) : (checkOrInit r).magic = magic := by
  unfold checkOrInit; split <;> simp_all [initRam]

theorem checkOrInit_of {r : Ram} (h : r.magic = magic) : checkOrInit r = r := by simp [checkOrInit, h]

theorem exec_nil (r : Ram) : exec [] r = r := rfl
theorem exec_cons (f : Ram → Ram) (l : List (Ram → Ram)) (r : Ram) : exec (f :: l) r = exec l (f r) := rfl
theorem exec_append (a b : List (Ram → Ram)) (r : Ram) : exec (a ++ b) r = exec b (exec a r) := by
  simp [exec]

theorem bit_or (x : BitVec 32) {i k : Nat} (hi : i < 32) (hk : k < 32) :
    (x ||| (1#32 <<< k)).getLsbD i = if i = k then true else x.getLsbD i := by
  simp only [BitVec.getLsbD_or, BitVec.getLsbD_shiftLeft, hi, BitVec.getLsbD_one]
  by_cases h : i = k
  · simp [h]
  · simp only [if_neg h]
    by_cases h2 : i < k
    · simp [h2]
    · have : i - k ≠ 0 := by omega
      simp [this]

theorem bit_and (x : BitVec 32) {i k : Nat} (hi : i < 32) (hk : k < 32) :
    (x &&& ~~~(1#32 <<< k)).getLsbD i = if i = k then false else x.getLsbD i := by
  simp only [BitVec.getLsbD_and, BitVec.getLsbD_not, BitVec.getLsbD_shiftLeft, hi, BitVec.getLsbD_one]
  by_cases h : i = k
  · simp [h]
  · simp only [if_neg h]
    by_cases h2 : i < k
    · simp [h2]
    · have : i - k ≠ 0 := by omega
      simp [this]

theorem bit_test (x : BitVec 32) {k : Nat} (hk : k < 32) :
    decide (x &&& (1#32 <<< k) ≠ 0) = x.getLsbD k := by
  cases h : x.getLsbD k with
  | true =>
    rw [decide_eq_true_iff]
    intro h0
    have := congrArg (fun v => v.getLsbD k) h0
    simp only [BitVec.getLsbD_and, BitVec.getLsbD_shiftLeft, hk, h] at this
    simp at this
  | false =>
    rw [decide_eq_false_iff_not, Decidable.not_not]
    apply BitVec.eq_of_getLsbD_eq
    intro i hi
    simp only [BitVec.getLsbD_and, BitVec.getLsbD_shiftLeft, hi, BitVec.getLsbD_one, BitVec.ofNat_eq_ofNat,
      BitVec.getLsbD_zero]
    by_cases h1 : i = k
    · simp [h1, h]
    · by_cases h2 : i < k
      · simp [h2]
      · have : i - k ≠ 0 := by omega
        simp [this]

theorem RamRel.reason_eq {r : Ram} {S : Spec.Reboot.State} (h : RamRel r S) (reason : Nat) :
    (if r.reason ≠ notSet then r.reason else reason) = known S.pending reason := by
  cases hp : S.pending with
  | none => simp [(h.none hp).1, known]
  | some p =>
    obtain ⟨a, b, -⟩ := h.some p hp
    have : r.reason ≠ notSet := by rw [a]; simp only [notSet]; omega
    rw [if_pos this, a]; rfl

theorem RamRel.known_lt {r : Ram} {S : Spec.Reboot.State} (h : RamRel r S) {reason : Nat}
    (hr : reason < 2 ^ 32 - 1) : known S.pending reason < 2 ^ 32 - 1 := by
  cases hp : S.pending with
  | none => exact hr
  | some p => exact (h.some p hp).2.1

theorem unexpected_eq {s : Stat} (h : s.priorReason < 2 ^ 32 - 1) :
    unexpectedOccurred s = Spec.Reboot.unexpected s.priorReason := by
  unfold unexpectedOccurred Spec.Reboot.unexpected
  have : s.priorReason ≠ notSet := by simp only [notSet]; omega
  simp [this]

/-- The effect of recording an event on a region. -/
theorem event_rel {r : Ram} {S : Spec.Reboot.State} (h : RamRel r S) {reason : Nat}
    (hr : reason < 2 ^ 32 - 1) (regs : Option Regs) :
    exec (eventStores reason regs r) r =
      match S.pending with
      | some _ => r
      | none => { r with reason := reason, pc := (regs.map Regs.pc).getD 0, lr := (regs.map Regs.lr).getD 0 } := by
  unfold eventStores
  cases hp : S.pending with
  | some p =>
    obtain ⟨a, b, -⟩ := h.some p hp
    have : r.reason ≠ notSet := by rw [a]; simp only [notSet]; omega
    simp [this, exec]
  | none =>
    obtain ⟨a, b, c, -⟩ := h.none hp
    obtain ⟨m, cc, cs, re, pc, lr, rg, ss⟩ := r
    simp only at a b c
    subst a b c
    cases regs <;> simp [exec]

theorem onRam_rel {s : State} {S S' : Spec.Reboot.State} (h : Rel s S) {f : Ram → Ram}
    (hl : S'.live = S.live) (hla : S'.latest = S.latest)
    (hf : S.live = true → RamRel (f s.ram) S' ∧ (f s.ram).magic = magic)
    (hd : S.live = false → S' = S) : Rel (onRam s f) S' := by
  unfold onRam
  rw [h.live]
  cases hlv : S.live with
  | false => simp only [Bool.false_eq_true, if_false]; rw [hd hlv]; exact h
  | true =>
    have hm := h.magic hlv
    obtain ⟨f1, f2⟩ := hf hlv
    simp only [if_true, checkOrInit_of hm]
    exact ⟨by rw [hl]; exact h.live, by rw [checkOrInit_of f2]; exact f1, fun _ => f2,
      by rw [hla]; exact h.latest, by rw [hla]; exact h.latestOk⟩

theorem Rel.ramRel {s : State} {S : Spec.Reboot.State} (h : Rel s S) (hl : S.live = true) : RamRel s.ram S := by
  have := h.ram
  rwa [checkOrInit_of (h.magic hl)] at this

theorem onRam_id {s : State} {S : Spec.Reboot.State} (h : Rel s S) : onRam s id = s := by
  unfold onRam
  rw [h.live]
  cases hlv : S.live with
  | false => simp
  | true => simp [checkOrInit_of (h.magic hlv)]

theorem step_rel {s : State} {S S' : Spec.Reboot.State} (h : Rel s S) {op : Op} {o : Out}
    (hs : Spec.Reboot.step S op = some (o, S')) : ∃ s', step s op = some (o, s') ∧ Rel s' S' := by
  cases op with
  | boot b =>
    simp only [Spec.Reboot.step] at hs
    split at hs
    case isFalse => cases hs
    case isTrue hok =>
    simp only [Option.some.injEq, Prod.mk.injEq] at hs
    obtain ⟨rfl, rfl⟩ := hs
    refine ⟨_, rfl, ?_⟩
    have hr := h.ram
    unfold boot
    dsimp only
    generalize hreason : (b.map Bootup.reason).getD 0 = reason at hok ⊢
    have hbr : bootReason b = reason := hreason
    have hk := hr.known_lt hok
    have hst : bootStat b s.stat (checkOrInit s.ram) =
        ⟨true, reason, known S.pending reason, true⟩ := by
      unfold bootStat recordReason
      rw [hbr, hr.reason_eq]
    have hmag : (checkOrInit s.ram).magic = magic := checkOrInit_magic _
    generalize checkOrInit s.ram = r at hr hst hmag ⊢
    have hram : exec (bootStores b s.stat r) r =
        { r with
          reg0 := (b.map Bootup.reg).getD S.reg
          reason := known S.pending reason
          crashCount := (S.crashes + if Spec.Reboot.unexpected (known S.pending reason) then 1 else 0) % 256 } := by
      unfold bootStores
      rw [hst, unexpected_eq hk, hbr, exec_append, exec_append]
      dsimp only
      generalize Spec.Reboot.unexpected (known S.pending reason) = u
      obtain ⟨m, cc, cs, re, pc, lr, rg, ss⟩ := r
      have h1 := hr.crash
      have h2 := hr.reg
      have h3 := hr.none
      have h4 := hr.some
      simp only at h1 h2 h3 h4
      subst h1 h2
      cases hp : S.pending with
      | none =>
        have := h3 hp
        obtain ⟨rfl, rfl, rfl, h0⟩ := this
        rw [h0]
        cases b <;> simp only [exec, eventStores, List.foldl_cons, List.foldl_nil, known, Option.map_none, Option.getD_none, Option.map_some, Option.getD_some, ne_eq, not_true_eq_false, if_false] <;>
          cases u <;> simp
      | some p =>
        obtain ⟨a, hlt, rfl, rfl⟩ := h4 p hp
        subst a
        have : p.reason ≠ notSet := by simp only [notSet]; omega
        cases b <;> simp only [exec, eventStores, List.foldl_cons, List.foldl_nil, known, Option.map_none, Option.getD_none, Option.map_some, Option.getD_some, ne_eq, this, not_false_eq_true, if_true] <;>
          cases u <;> simp
    rw [hst, hram]
    refine ⟨rfl, ?_, fun _ => hmag, rfl, fun p hp => ?_⟩
    · rw [checkOrInit_of (by exact hmag)]
      refine ⟨rfl, hr.dump, fun hp => ?_, fun p hp => ?_, rfl, hr.active⟩
      · cases hq : S.pending <;> simp [hq, keepFirst] at hp
      · cases hq : S.pending with
        | none =>
          obtain ⟨-, b1, b2, -⟩ := hr.none hq
          simp only [hq, keepFirst, Option.map_none, Option.getD_none, Option.some.injEq] at hp
          subst hp
          exact ⟨rfl, hok, b1, b2⟩
        | some q =>
          obtain ⟨-, b1, b2, b3⟩ := hr.some q hq
          simp only [hq, keepFirst, Option.some.injEq] at hp
          subst hp
          exact ⟨rfl, b1, b2, b3⟩
    · simp only [Option.some.injEq] at hp
      subst hp
      exact hk
  | mark reason regs =>
    simp only [Spec.Reboot.step] at hs
    split at hs
    case isFalse => cases hs
    case isTrue hok =>
    simp only [Option.some.injEq, Prod.mk.injEq] at hs
    obtain ⟨rfl, rfl⟩ := hs
    refine ⟨_, rfl, ?_⟩
    unfold mark
    rw [h.live]
    cases hl : S.live with
    | false => exact h
    | true =>
      have hr := h.ramRel hl
      have hm := h.magic hl
      have hk := hr.known_lt hok
      have hre := hr.reason_eq reason
      simp only [if_true, checkOrInit_of hm, event_rel hr hok, recordReason, hre]
      cases hq : S.pending with
      | none =>
        obtain ⟨-, b1, b2, b3⟩ := hr.none hq
        refine ⟨by rw [h.live, hl], ?_, fun _ => hm, rfl, fun p hp => ?_⟩
        · dsimp only
          rw [checkOrInit_of (by exact hm)]
          refine ⟨hr.crash, hr.dump, fun hp => by simp [keepFirst] at hp, fun p hp => ?_, hr.reg, hr.active⟩
          simp only [keepFirst, Option.some.injEq] at hp
          subst hp
          exact ⟨rfl, hok, rfl, rfl⟩
        · rw [hq] at hk
          simp only [Option.some.injEq] at hp
          subst hp
          exact hk
      | some q =>
        obtain ⟨b0, b1, b2, b3⟩ := hr.some q hq
        refine ⟨by rw [h.live, hl], ?_, fun _ => hm, rfl, fun p hp => ?_⟩
        · rw [checkOrInit_of hm]
          refine ⟨hr.crash, hr.dump, fun hp => by simp [keepFirst] at hp, fun p hp => ?_, hr.reg, hr.active⟩
          simp only [keepFirst, Option.some.injEq] at hp
          subst hp
          exact ⟨b0, b1, b2, b3⟩
        · rw [hq] at hk
          simp only [Option.some.injEq] at hp
          subst hp
          exact hk
  | clear =>
    simp only [Spec.Reboot.step, Option.some.injEq, Prod.mk.injEq] at hs
    obtain ⟨rfl, rfl⟩ := hs
    refine ⟨_, rfl, onRam_rel h (by split <;> rfl) (by split <;> rfl) (fun hl => ?_) (fun hl => by simp [hl])⟩
    rw [if_pos hl]
    have hr := h.ramRel hl
    exact ⟨⟨hr.crash, rfl, fun _ => ⟨rfl, rfl, rfl, rfl⟩, fun p hp => by simp at hp, rfl, hr.active⟩, h.magic hl⟩
  | coredumpSaved =>
    simp only [Spec.Reboot.step, Option.some.injEq, Prod.mk.injEq] at hs
    obtain ⟨rfl, rfl⟩ := hs
    refine ⟨_, rfl, onRam_rel h (by split <;> rfl) (by split <;> rfl) (fun hl => ?_) (fun hl => by simp [hl])⟩
    rw [if_pos hl]
    have hr := h.ramRel hl
    exact ⟨⟨hr.crash, rfl, hr.none, hr.some, hr.reg, hr.active⟩, h.magic hl⟩
  | resetCrashCount =>
    simp only [Spec.Reboot.step, Option.some.injEq, Prod.mk.injEq] at hs
    obtain ⟨rfl, rfl⟩ := hs
    refine ⟨_, rfl, onRam_rel h (by split <;> rfl) (by split <;> rfl) (fun hl => ?_) (fun hl => by simp [hl])⟩
    rw [if_pos hl]
    have hr := h.ramRel hl
    exact ⟨⟨rfl, hr.dump, hr.none, hr.some, hr.reg, hr.active⟩, h.magic hl⟩
  | session on index =>
    simp only [Spec.Reboot.step] at hs
    split at hs
    case isFalse => cases hs
    case isTrue hi =>
    simp only [Option.some.injEq, Prod.mk.injEq] at hs
    obtain ⟨rfl, rfl⟩ := hs
    have hn : ¬ 32 ≤ index := by omega
    simp only [step, metricsSession, hn, decide_false, Bool.and_false, Bool.false_eq_true, if_false, Option.map_some]
    refine ⟨_, rfl, onRam_rel h (by split <;> rfl) (by split <;> rfl) (fun hl => ?_) (fun hl => by simp [hl])⟩
    rw [if_pos hl]
    have hr := h.ramRel hl
    refine ⟨⟨hr.crash, hr.dump, hr.none, hr.some, hr.reg, fun i hi' => ?_⟩, h.magic hl⟩
    cases on with
    | true => simp only [if_true]; rw [bit_or _ hi' hi, hr.active i hi']
    | false => simp only [Bool.false_eq_true, if_false]; rw [bit_and _ hi' hi, hr.active i hi']
  | clearSessions =>
    simp only [Spec.Reboot.step, Option.some.injEq, Prod.mk.injEq] at hs
    obtain ⟨rfl, rfl⟩ := hs
    refine ⟨_, rfl, onRam_rel h (by split <;> rfl) (by split <;> rfl) (fun hl => ?_) (fun hl => by simp [hl])⟩
    rw [if_pos hl]
    have hr := h.ramRel hl
    exact ⟨⟨hr.crash, hr.dump, hr.none, hr.some, hr.reg, fun i hi => by simp⟩, h.magic hl⟩
  | readInfo =>
    simp only [Spec.Reboot.step, Option.some.injEq, Prod.mk.injEq] at hs
    obtain ⟨rfl, rfl⟩ := hs
    simp only [step, readInfo, h.live]
    cases hl : S.live with
    | false => exact ⟨s, rfl, h⟩
    | true =>
      have hr := h.ramRel hl
      simp only [if_true, checkOrInit_of (h.magic hl)]
      refine ⟨s, ?_, h⟩
      cases hp : S.pending with
      | none =>
        obtain ⟨a, -, -, d⟩ := hr.none hp
        simp [a, hr.reg, d]
      | some p =>
        obtain ⟨a, b, c, d⟩ := hr.some p hp
        have : s.ram.reason ≠ notSet := by rw [a]; simp only [notSet]; omega
        rw [if_neg (fun hx => this hx.1)]
        simp [a, c, d, hr.reg, hr.dump]
  | crashCount =>
    simp only [Spec.Reboot.step, Option.some.injEq, Prod.mk.injEq] at hs
    obtain ⟨rfl, rfl⟩ := hs
    refine ⟨s, ?_, h⟩
    simp only [step, getCrashCount, h.live, onRam_id h]
    cases hl : S.live with
    | false => rfl
    | true => simp [checkOrInit_of (h.magic hl), (h.ramRel hl).crash]
  | rebootReason =>
    simp only [Spec.Reboot.step, Option.some.injEq, Prod.mk.injEq] at hs
    obtain ⟨rfl, rfl⟩ := hs
    exact ⟨s, by simp only [step, getRebootReason, h.latest], h⟩
  | unexpected =>
    simp only [Spec.Reboot.step, Option.some.injEq, Prod.mk.injEq] at hs
    obtain ⟨rfl, rfl⟩ := hs
    refine ⟨s, ?_, h⟩
    have hla := h.latest
    have hlo := h.latestOk
    simp only [step, getUnexpected]
    cases hv : s.stat.isValid with
    | false => simp [hv] at hla; simp [← hla]
    | true =>
      simp [hv] at hla
      rw [← hla, unexpected_eq (hlo _ hla.symm)]; rfl
  | booted =>
    simp only [Spec.Reboot.step, Option.some.injEq, Prod.mk.injEq] at hs
    obtain ⟨rfl, rfl⟩ := hs
    refine ⟨s, ?_, h⟩
    simp only [step, booted, h.live]
    cases hl : S.live with
    | false => rfl
    | true => simp [h.magic hl]
  | wasActive index =>
    simp only [Spec.Reboot.step] at hs
    split at hs
    case isFalse => cases hs
    case isTrue hi =>
    simp only [Option.some.injEq, Prod.mk.injEq] at hs
    obtain ⟨rfl, rfl⟩ := hs
    refine ⟨s, ?_, h⟩
    have hn : ¬ 32 ≤ index := by omega
    simp only [step, sessionWasActive, h.live, onRam_id h, hn, if_false]
    cases hl : S.live with
    | false => rfl
    | true =>
      simp only [if_true, checkOrInit_of (h.magic hl), Option.map_some, bit_test _ hi,
        (h.ramRel hl).active index hi, Bool.true_and]
  | reset =>
    simp only [Spec.Reboot.step, Option.some.injEq, Prod.mk.injEq] at hs
    obtain ⟨rfl, rfl⟩ := hs
    refine ⟨_, rfl, rfl, ?_, fun hx => by simp at hx, rfl, by simp⟩
    have hr := h.ram
    exact ⟨hr.crash, hr.dump, hr.none, hr.some, hr.reg, hr.active⟩

theorem run_rel (ops : List Op) : ∀ {s : State} {S S' : Spec.Reboot.State} {outs : List Out}, Rel s S →
    Spec.Reboot.run S ops = some (outs, S') → ∃ s', run s ops = some (outs, s') ∧ Rel s' S' := by
  induction ops with
  | nil =>
    intro s S S' outs h hs
    simp only [Spec.Reboot.run, Option.some.injEq, Prod.mk.injEq] at hs
    obtain ⟨rfl, rfl⟩ := hs
    exact ⟨s, rfl, h⟩
  | cons op ops ih =>
    intro s S S' outs h hs
    simp only [Spec.Reboot.run, Option.bind_eq_some_iff, Option.map_eq_some_iff] at hs
    obtain ⟨⟨o, S1⟩, a1, ⟨os, S2⟩, a2, a3⟩ := hs
    simp only [Prod.mk.injEq] at a3
    obtain ⟨rfl, rfl⟩ := a3
    obtain ⟨s1, b1, b2⟩ := step_rel h a1
    obtain ⟨s2, c1, c2⟩ := ih b2 a2
    exact ⟨s2, by simp [run, b1, c1], c2⟩

theorem empty_rel {r : Ram} (h : r.magic ≠ magic) : Rel ⟨r, Stat.init⟩ Spec.Reboot.empty := by
  refine ⟨rfl, ?_, fun hx => by simp [Spec.Reboot.empty] at hx, rfl, by simp [Spec.Reboot.empty]⟩
  simp only [checkOrInit, h, if_false]
  exact ⟨rfl, rfl, fun _ => ⟨rfl, rfl, rfl, rfl⟩, fun p hp => by simp [Spec.Reboot.empty] at hp, rfl,
    fun i _ => by simp [initRam, Spec.Reboot.empty]⟩

end Mflt.RebootTracking
