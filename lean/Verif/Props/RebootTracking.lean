import Verif.Lemmas.RebootTracking

/-!
# C29, C30: reboot reasons, crash counts and sessions across reboots

`Spec.Reboot` (`Spec/RebootTracking.lean`) is the specification.
-/

namespace Mflt.Props

open RebootTracking
open Spec.Reboot (Op Out)

/-- C29. Whatever a region without the marker 0x21544252 holds, it is treated as empty memory; from
then on, over any history of calls and resets, every call returns what the specification returns. -/
theorem C29_reboot_refines_spec {ram : Ram} (h : ram.magic ≠ 0x21544252) {ops : List Op}
    {outs : List Out} {S : Spec.Reboot.State}
    (hs : Spec.Reboot.run Spec.Reboot.empty ops = some (outs, S)) :
    ∃ s, run ⟨ram, Stat.init⟩ ops = some (outs, s) := by
  obtain ⟨s, r, -⟩ := run_rel ops (empty_rel h) hs
  exact ⟨s, r⟩

/-- What can happen, including resets in the middle of a call (after `k` of its stores). -/
inductive Ev
  | op (o : Op)
  | cutBoot (b : Option Bootup) (k : Nat)
  | cutMark (reason : Nat) (regs : Option Regs) (k : Nat)
  | cutClear (k : Nat)

def evStep (s : State) : Ev → Option (List Out × State)
  | .op o => (step s o).map fun r => ([r.1], r.2)
  | .cutBoot b k => some ([], cutBoot s b k)
  | .cutMark reason regs k => some ([], cutMark s reason regs k)
  | .cutClear k => some ([], cutClear s k)

def evRun (s : State) : List Ev → Option (List Out × State)
  | [] => some ([], s)
  | e :: es => (evStep s e).bind fun r => (evRun r.2 es).map fun q => (r.1 ++ q.1, q.2)

def Ev.clears : Ev → Bool
  | .op .clear => true
  | .cutClear _ => true
  | _ => false

theorem exec_reason (l : List (Ram → Ram)) (r : Ram)
    (h : ∀ f ∈ l, ∀ x : Ram, (f x).reason = x.reason ∧ (f x).magic = x.magic) :
    (exec l r).reason = r.reason ∧ (exec l r).magic = r.magic := by
  induction l generalizing r with
  | nil => exact ⟨rfl, rfl⟩
  | cons f l ih =>
    rw [exec_cons]
    have h1 := ih (f r) fun g hg => h g (by simp [hg])
    have h2 := h f (by simp) r
    exact ⟨h1.1.trans h2.1, h1.2.trans h2.2⟩

theorem bootStores_reason (b : Option Bootup) (s : Stat) (r : Ram) (h : r.reason ≠ notSet) :
    ∀ f ∈ bootStores b s r, ∀ x : Ram, (f x).reason = x.reason ∧ (f x).magic = x.magic := by
  intro f hf x
  simp only [bootStores, eventStores, h, ne_eq, not_false_eq_true, if_true, List.append_nil,
    List.mem_append] at hf
  rcases hf with hf | hf
  · cases b with
    | none => simp at hf
    | some b => simp only [List.mem_singleton] at hf; subst hf; exact ⟨rfl, rfl⟩
  · split at hf
    · simp only [List.mem_singleton] at hf; subst hf; exact ⟨rfl, rfl⟩
    · simp at hf

/-- C29, first reason wins. Once a reason is recorded, it is the one that is reported, whatever is
marked later, however often the device boots, and even if resets cut calls short, until the record is
cleared. -/
theorem C29_first_reason_wins {s : State} {reason : Nat} (hm : s.ram.magic = 0x21544252)
    (hr : s.ram.reason = reason) (hn : reason ≠ 0xffffffff) {evs : List Ev}
    (hc : ∀ e ∈ evs, e.clears = false) {outs : List Out} {s' : State}
    (h : evRun s evs = some (outs, s')) :
    s'.ram.magic = 0x21544252 ∧ s'.ram.reason = reason ∧
    ∀ i, Out.info (some i) ∈ outs → i.reason = reason := by
  have key : ∀ (s : State) (e : Ev) outs s', s.ram.magic = magic → s.ram.reason = reason →
      e.clears = false → evStep s e = some (outs, s') →
      s'.ram.magic = magic ∧ s'.ram.reason = reason ∧
      ∀ i, Out.info (some i) ∈ outs → i.reason = reason := by
    intro s e outs s' hm hr hcl h
    have hci := checkOrInit_of hm
    have hns : s.ram.reason ≠ notSet := by rw [hr]; exact hn
    have hon : ∀ f : Ram → Ram, (∀ x, (f x).reason = x.reason ∧ (f x).magic = x.magic) →
        (onRam s f).ram.magic = magic ∧ (onRam s f).ram.reason = reason := by
      intro f hf
      unfold onRam
      split
      · simp only [hci]; exact ⟨(hf _).2.trans hm, (hf _).1.trans hr⟩
      · exact ⟨hm, hr⟩
    have hes : ∀ r g, eventStores r g s.ram = [] := by intro r g; simp [eventStores, hns]
    cases e with
    | op o =>
      cases o <;> simp only [evStep, step, Option.map_some, Option.some.injEq, Prod.mk.injEq] at h
      case boot b =>
        obtain ⟨rfl, rfl⟩ := h
        have := exec_reason _ s.ram (bootStores_reason b s.stat s.ram hns)
        simp only [boot, hci]
        exact ⟨this.2.trans hm, this.1.trans hr, by simp⟩
      case mark r g =>
        obtain ⟨rfl, rfl⟩ := h
        simp only [mark, hci, hes, exec_nil]
        refine ⟨?_, ?_, by simp⟩ <;> split <;> assumption
      case clear => simp [Ev.clears] at hcl
      case coredumpSaved =>
        obtain ⟨rfl, rfl⟩ := h
        refine ⟨(hon _ ?_).1, (hon _ ?_).2, by simp⟩ <;> exact fun _ => ⟨rfl, rfl⟩
      case resetCrashCount =>
        obtain ⟨rfl, rfl⟩ := h
        refine ⟨(hon _ ?_).1, (hon _ ?_).2, by simp⟩ <;> exact fun _ => ⟨rfl, rfl⟩
      case session a i =>
        simp only [metricsSession] at h
        split at h
        · simp at h
        · simp only [Option.map_some, Option.some.injEq, Prod.mk.injEq] at h
          obtain ⟨rfl, rfl⟩ := h
          refine ⟨(hon _ ?_).1, (hon _ ?_).2, by simp⟩ <;> exact fun _ => ⟨rfl, rfl⟩
      case clearSessions =>
        obtain ⟨rfl, rfl⟩ := h
        refine ⟨(hon _ ?_).1, (hon _ ?_).2, by simp⟩ <;> exact fun _ => ⟨rfl, rfl⟩
      case readInfo =>
        obtain ⟨rfl, rfl⟩ := h
        simp only [readInfo, hci]
        split
        · refine ⟨hm, hr, fun i hi => ?_⟩
          simp only [hns, false_and, if_false, List.mem_singleton, Out.info.injEq, Option.some.injEq] at hi
          rw [hi]; exact hr
        · exact ⟨hm, hr, by simp⟩
      case crashCount =>
        obtain ⟨rfl, rfl⟩ := h
        simp only [getCrashCount]
        refine ⟨?_, ?_, by simp⟩ <;> split <;>
          first | assumption | exact (hon id fun _ => ⟨rfl, rfl⟩).1 | exact (hon id fun _ => ⟨rfl, rfl⟩).2
      case rebootReason => obtain ⟨rfl, rfl⟩ := h; exact ⟨hm, hr, by simp⟩
      case unexpected => obtain ⟨rfl, rfl⟩ := h; exact ⟨hm, hr, by simp⟩
      case booted => obtain ⟨rfl, rfl⟩ := h; exact ⟨hm, hr, by simp⟩
      case wasActive i =>
        simp only [sessionWasActive] at h
        split at h
        · split at h
          · simp at h
          · simp only [Option.map_some, Option.some.injEq, Prod.mk.injEq] at h
            obtain ⟨rfl, rfl⟩ := h
            exact ⟨(hon id fun _ => ⟨rfl, rfl⟩).1, (hon id fun _ => ⟨rfl, rfl⟩).2, by simp⟩
        · simp only [Option.map_some, Option.some.injEq, Prod.mk.injEq] at h
          obtain ⟨rfl, rfl⟩ := h
          exact ⟨hm, hr, by simp⟩
      case reset => obtain ⟨rfl, rfl⟩ := h; exact ⟨hm, hr, by simp⟩
    | cutBoot b k =>
      simp only [evStep, Option.some.injEq, Prod.mk.injEq] at h
      obtain ⟨rfl, rfl⟩ := h
      have := exec_reason ((bootStores b s.stat s.ram).take k) s.ram
        fun f hf => bootStores_reason b s.stat s.ram hns f (List.mem_of_mem_take hf)
      simp only [cutBoot, hci]
      exact ⟨this.2.trans hm, this.1.trans hr, by simp⟩
    | cutMark r g k =>
      simp only [evStep, Option.some.injEq, Prod.mk.injEq] at h
      obtain ⟨rfl, rfl⟩ := h
      simp only [cutMark, hci, hes, List.take_nil, exec_nil]
      refine ⟨?_, ?_, by simp⟩ <;> split <;> assumption
    | cutClear k => simp [Ev.clears] at hcl
  induction evs generalizing s outs with
  | nil =>
    simp only [evRun, Option.some.injEq, Prod.mk.injEq] at h
    obtain ⟨rfl, rfl⟩ := h
    exact ⟨hm, hr, by simp⟩
  | cons e es ih =>
    simp only [evRun, Option.bind_eq_some_iff, Option.map_eq_some_iff, Prod.mk.injEq] at h
    obtain ⟨⟨o1, s1⟩, a1, ⟨o2, s2⟩, a2, rfl, rfl⟩ := h
    obtain ⟨b1, b2, b3⟩ := key s e o1 s1 hm hr (hc e (by simp)) a1
    obtain ⟨c1, c2, c3⟩ := ih b1 b2 (fun x hx => hc x (by simp [hx])) a2
    refine ⟨c1, c2, fun i hi => ?_⟩
    rcases List.mem_append.mp hi with hi | hi
    · exact b3 i hi
    · exact c3 i hi

/-- C29. The crash counter is one byte: from empty memory, `n` boots for a reason in the error range
with resets in between count `n` modulo 256, so that it reads 0 after 256 of them. -/
theorem C29_crash_count {ram : Ram} (h : ram.magic ≠ 0x21544252) (n : Nat) {reason reg : Nat}
    (hr : 0x8000 ≤ reason) (hlt : reason < 2 ^ 32 - 1) :
    ∃ s, run ⟨ram, Stat.init⟩
        ((List.replicate n [Op.reset, .boot (some ⟨reg, reason⟩)]).flatten ++ [.boot none, .crashCount]) =
      some (List.replicate (2 * n + 1) .unit ++ [.count ((n + 1) % 256)], s) := by
  have hun : ∀ k : Nat, ∀ S : Spec.Reboot.State, (∀ p, S.pending = some p → p.reason = reason) →
      ∃ S', Spec.Reboot.run S ((List.replicate k [Op.reset, .boot (some ⟨reg, reason⟩)]).flatten ++
          [.boot none, .crashCount]) =
        some (List.replicate (2 * k + 1) .unit ++ [.count ((S.crashes + k + 1) % 256)], S') := by
    intro k
    have hux : Spec.Reboot.unexpected reason = true := by simp [Spec.Reboot.unexpected, hr]
    induction k with
    | zero =>
      intro S hS
      simp only [List.replicate_zero, List.flatten_nil, List.nil_append, Spec.Reboot.run, Spec.Reboot.step,
        Option.map_none, Option.getD_none]
      rw [if_pos (by decide)]
      have hzero : Spec.Reboot.unexpected (Spec.Reboot.known S.pending 0) = true := by
        cases hp : S.pending with
        | none => rfl
        | some p => simp only [Spec.Reboot.known, Option.map_some, Option.getD_some, hS p hp, hux]
      simp only [hzero]
      exact ⟨_, rfl⟩
    | succ k ih =>
      intro S hS
      have hok : Spec.Reboot.reasonOk reason := hlt
      have hkn : Spec.Reboot.known S.pending reason = reason := by
        cases hp : S.pending with
        | none => rfl
        | some p => simp only [Spec.Reboot.known, Option.map_some, Option.getD_some, hS p hp]
      obtain ⟨S1, hS1⟩ : ∃ S1 : Spec.Reboot.State, S1 = { S with
          live := true
          pending := Spec.Reboot.keepFirst S.pending reason none
          reg := reg
          crashes := S.crashes + 1
          latest := some (reason, reason) } := ⟨_, rfl⟩
      obtain ⟨S', hS'⟩ := ih S1 (by
        subst hS1
        intro p hp
        simp only at hp
        cases hq : S.pending with
        | none => simp [hq, Spec.Reboot.keepFirst] at hp; rw [← hp]
        | some q => simp [hq, Spec.Reboot.keepFirst] at hp; rw [← hp]; exact hS q hq)
      refine ⟨S', ?_⟩
      simp only [List.replicate_succ, List.flatten_cons, List.cons_append, List.nil_append,
        Spec.Reboot.run, Spec.Reboot.step, Option.map_some, Option.getD_some, Option.bind_some]
      rw [if_pos hok]
      simp only [hkn, hux, if_true, Option.bind_some, ← hS1, hS', Option.map_some]
      rw [show 2 * (k + 1) = (2 * k + 1) + 1 by omega, List.replicate_succ]
      simp only [List.cons_append]
      rw [show S1.crashes + k + 1 = S.crashes + (k + 1) + 1 by rw [hS1]; simp only; omega]
      rfl
  obtain ⟨S', h'⟩ := hun n Spec.Reboot.empty (by simp [Spec.Reboot.empty])
  obtain ⟨s, r, -⟩ := run_rel _ (empty_rel h) h'
  refine ⟨s, ?_⟩
  rw [r]; simp [Spec.Reboot.empty]

/-- C29: the registers that are reported with a reason can belong to an earlier crash. A crash with
pc 4096 is recorded and then cleared, but a reset interrupts clearing after its first store; the
next boot reports its own reason with pc 4096. -/
theorem C29_torn_clear_reports_stale_pc :
    let garbage : Ram := ⟨0, 7, 7, 7, 7, 7, 7, 7⟩
    (evRun ⟨garbage, Stat.init⟩ [.op (.boot (some ⟨0, 7⟩)), .op .clear, .op (.mark 0x9400 (some ⟨4096, 8192⟩)),
      .op .reset, .op (.boot (some ⟨1, 8⟩)), .cutClear 1, .op (.boot (some ⟨1, 8⟩)), .op .readInfo]).map
      Prod.fst = some [.unit, .unit, .unit, .unit, .unit, .unit, .info (some ⟨8, 4096, 8192, 1, false⟩)] := by
  decide +kernel

/-- The effect of calls on whether session `i` is running. -/
def lastAction (i : Nat) : Bool → List Op → Bool
  | b, [] => b
  | b, .session on j :: ops => lastAction i (if j = i then on else b) ops
  | _, .clearSessions :: ops => lastAction i false ops
  | b, _ :: ops => lastAction i b ops

/-- C30. After any history and then any calls without a reset, followed by a reset and boot, session
`i` is reported as active exactly if the latest call that concerns it started it. -/
theorem C30_sessions_across_reboots {ram : Ram} (h : ram.magic ≠ 0x21544252) {ops ops' : List Op}
    {outs outs' : List Out} {S S' : Spec.Reboot.State}
    (hs : Spec.Reboot.run Spec.Reboot.empty ops = some (outs, S)) (hl : S.live = true)
    (hs' : Spec.Reboot.run S ops' = some (outs', S')) (hn : Op.reset ∉ ops') {i : Nat} (hi : i < 32)
    (b : Option Bootup) (hb : (b.map Bootup.reason).getD 0 < 2 ^ 32 - 1) :
    ∃ s s' t, run ⟨ram, Stat.init⟩ ops = some (outs, s) ∧ run s ops' = some (outs', s') ∧
      run s' [.reset, .boot b, .wasActive i] =
        some ([.unit, .unit, .flag (some (lastAction i (S.active i) ops'))], t) := by
  have one : ∀ (S S' : Spec.Reboot.State) (op : Op) (o : Out), S.live = true → op ≠ .reset →
      Spec.Reboot.step S op = some (o, S') →
      S'.live = true ∧ S'.active i = lastAction i (S.active i) [op] := by
    intro S S' op o hl hn h
    cases op <;> simp only [Spec.Reboot.step, hl, if_true] at h <;> (try split at h) <;>
      (try (cases h; done)) <;>
      simp only [Option.some.injEq, Prod.mk.injEq] at h <;> obtain ⟨-, rfl⟩ := h <;>
      (try exact ⟨rfl, rfl⟩) <;> (try exact ⟨hl, rfl⟩)
    case session on j _ =>
      refine ⟨rfl, ?_⟩
      simp only [lastAction, eq_comm]
    case reset => exact absurd rfl hn
  have key : ∀ (ops : List Op) (S S' : Spec.Reboot.State) (outs : List Out), S.live = true →
      Op.reset ∉ ops → Spec.Reboot.run S ops = some (outs, S') →
      S'.active i = lastAction i (S.active i) ops := by
    intro ops
    induction ops with
    | nil =>
      intro S S' outs _ _ h
      simp only [Spec.Reboot.run, Option.some.injEq, Prod.mk.injEq] at h
      rw [← h.2]; rfl
    | cons op ops ih =>
      intro S S' outs hl hn h
      simp only [Spec.Reboot.run, Option.bind_eq_some_iff, Option.map_eq_some_iff, Prod.mk.injEq] at h
      obtain ⟨⟨o, S1⟩, a1, ⟨os, S2⟩, a2, -, rfl⟩ := h
      obtain ⟨l1, e1⟩ := one S S1 op o hl (fun hx => hn (by simp [hx])) a1
      rw [ih S1 S2 os l1 (fun hx => hn (by simp [hx])) a2, e1]
      cases op <;> rfl
  obtain ⟨s, r1, r2⟩ := run_rel ops (empty_rel h) hs
  obtain ⟨s', r3, r4⟩ := run_rel ops' r2 hs'
  have ha := key ops' S S' outs' hl hn hs'
  have hfin : ∃ T, Spec.Reboot.run S' [.reset, .boot b, .wasActive i] =
      some ([.unit, .unit, .flag (some (lastAction i (S.active i) ops'))], T) := by
    have hb' : Spec.Reboot.reasonOk ((b.map Bootup.reason).getD 0) := hb
    simp only [Spec.Reboot.run, Spec.Reboot.step, Option.bind_some, if_pos hb', if_pos hi, Option.map_some,
      Bool.true_and, ha]
    exact ⟨_, rfl⟩
  obtain ⟨T, hT⟩ := hfin
  obtain ⟨t, r5, -⟩ := run_rel _ r4 hT
  exact ⟨s, s', t, r1, r3, r5⟩

/-- A history for the theorems above: garbage, a boot, sessions, a crash, further boots. -/
example :
    (Spec.Reboot.run Spec.Reboot.empty [.boot (some ⟨3, 7⟩), .readInfo, .clear, .session true 4,
      .session true 31, .session false 4, .mark 0x8001 (some ⟨4096, 8192⟩), .mark 5 none, .coredumpSaved, .reset,
      .readInfo, .boot (some ⟨9, 8⟩), .readInfo, .crashCount, .rebootReason, .unexpected, .wasActive 4,
      .wasActive 31]).map Prod.fst =
    some [.unit, .info (some ⟨7, 0, 0, 3, false⟩), .unit, .unit, .unit, .unit, .unit, .unit, .unit, .unit,
      .info none, .unit, .info (some ⟨0x8001, 4096, 8192, 9, true⟩), .count 1, .reasons (some (8, 0x8001)),
      .flag (some true), .flag (some false), .flag (some true)] := by
  decide +kernel

end Mflt.Props
