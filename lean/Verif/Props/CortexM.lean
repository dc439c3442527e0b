import Verif.Lemmas.CortexM
import Verif.Props.RebootTracking
import Verif.Props.Coredump

/-! # C71: crashes of a Cortex-M device -/

namespace Mflt.Props

open CortexM
open Spec.CortexM (Cpu Handler Entered IsExcReturn run add sub)

theorem frame_eq {c : Cpu} (ok : c.Ok) (room : c.Room) :
    c.frame = c.sp - c.frameSize - (if c.padded then 4 else 0) ∧ c.sp < 4294967296 ∧
      c.frameSize + (if c.padded then 4 else 0) ≤ c.sp ∧ (c.frameSize = 32 ∨ c.frameSize = 104) := by
  have hsp : c.sp < 4294967296 ∧ c.sp % 4 = 0 := by
    unfold Cpu.sp; split
    · exact ⟨ok.psp, ok.psp4⟩
    · exact ⟨ok.msp, ok.msp4⟩
  have hr := room.frame
  have hf : c.frameSize = 32 ∨ c.frameSize = 104 := by unfold Cpu.frameSize; split <;> simp
  have hs : sub c.sp c.frameSize = c.sp - c.frameSize := sub_eq (by omega) hsp.1
  refine ⟨?_, hsp.1, ?_, hf⟩
  · unfold Cpu.frame Cpu.padded
    rw [hs]
    cases hb : (c.align || c.fpContext) with
    | false => simp
    | true =>
      simp only [if_true, Bool.true_and, decide_eq_true_eq]
      split <;> omega
  · split <;> omega

theorem padded_bit {c : Cpu} (ok : c.Ok) :
    (c.xpsr + (if c.padded then 512 else 0)).testBit 9 = c.padded := by
  have h9 := ok.bit9
  rw [Nat.testBit_eq_decide_div_mod_eq] at h9 ⊢
  simp only [decide_eq_false_iff_not] at h9
  cases c.padded with
  | false => simpa using h9
  | true =>
    simp only [if_true, decide_eq_true_eq]
    omega

/-- What a coredump has to say about the processor `c`: the registers at the time of the crash. Bit 9 of the
program status tells whether the stack was padded. -/
def crashRegs (c : Cpu) : Regs where
  r0 := c.r 0
  r1 := c.r 1
  r2 := c.r 2
  r3 := c.r 3
  r4 := c.r 4
  r5 := c.r 5
  r6 := c.r 6
  r7 := c.r 7
  r8 := c.r 8
  r9 := c.r 9
  r10 := c.r 10
  r11 := c.r 11
  r12 := c.r 12
  sp := c.sp
  lr := c.lr
  pc := c.pc
  psr := c.xpsr + (if c.padded then 512 else 0)
  msp := c.msp
  psp := c.psp

theorem handler_reads {c : Cpu} {h h' : Handler} {reason : Nat} (ok : c.Ok) (room : c.Room)
    (he : Entered c h) (hp : Passed h h' reason) :
    (∀ n, n < 10 → regState h'.mem (h'.r 0) n = [c.frame, c.r 4, c.r 5, c.r 6, c.r 7, c.r 8, c.r 9, c.r 10,
      c.r 11, h.lr].getD n 0) ∧
    (∀ n, n < 8 → frameMember h'.mem (h'.r 0) n = c.stacked.getD n 0) := by
  obtain ⟨f1, f2, f3, f4⟩ := frame_eq ok room
  have hmain : 40 ≤ h.msp ∧ h.msp < 4294967296 := by
    rw [he.msp]
    refine ⟨room.main, ?_⟩
    split
    · exact ok.msp
    · omega
  have hst : ∀ n, n < 10 → regState h'.mem (h'.r 0) n = [c.frame, c.r 4, c.r 5, c.r 6, c.r 7, c.r 8, c.r 9,
      c.r 10, c.r 11, h.lr].getD n 0 := by
    intro n hn
    unfold regState
    rw [hp.r0, add_eq (by omega), hp.state n hn]
    have hf : (if h.lr.testBit 2 then h.psp else h.msp) = c.frame := by
      rw [he.lr.1, he.psp, he.msp]
      cases c.usesPsp <;> simp
    rw [hf, he.preserved 4 (by omega) (by omega), he.preserved 5 (by omega) (by omega),
      he.preserved 6 (by omega) (by omega), he.preserved 7 (by omega) (by omega),
      he.preserved 8 (by omega) (by omega), he.preserved 9 (by omega) (by omega),
      he.preserved 10 (by omega) (by omega), he.preserved 11 (by omega) (by omega)]
  refine ⟨hst, fun n hn => ?_⟩
  unfold frameMember
  rw [hst 0 (by omega)]
  simp only [List.getD_cons_zero]
  rw [add_eq (by omega), hp.mem _ ?_, he.frame n hn]
  have hmsp := he.msp
  cases hu : c.usesPsp with
  | false =>
    rw [hu] at hmsp
    simp only [Bool.false_eq_true, if_false] at hmsp
    right; omega
  | true =>
    rw [hu] at hmsp
    simp only [if_true] at hmsp
    rcases room.apart hu with ha | ha
    · right; omega
    · left; omega

theorem spPrior_eq {c : Cpu} {h h' : Handler} {reason : Nat} (ok : c.Ok) (room : c.Room)
    (he : Entered c h) (hp : Passed h h' reason) : spPrior h'.mem (h'.r 0) = c.sp := by
  obtain ⟨f1, f2, f3, f4⟩ := frame_eq ok room
  obtain ⟨r1, r2⟩ := handler_reads ok room he hp
  have b4 : (h.lr &&& 1 <<< 4 = 0) ↔ c.fpContext = true := by
    rw [and_testBit, he.lr.2]; cases c.fpContext <;> simp
  have b9 : (c.xpsr + (if c.padded then 512 else 0) &&& 1 <<< 9 = 0) ↔ c.padded = false := by
    rw [and_testBit, padded_bit ok]
  unfold spPrior
  rw [r1 0 (by omega), r1 9 (by omega), r2 7 (by omega)]
  simp only [List.getD_cons_zero, Cpu.stacked, List.getD_cons_succ, ne_eq, b4, b9]
  have hf : (if c.fpContext = true then 104 else 32) = c.frameSize := by unfold Cpu.frameSize; rfl
  rw [hf]
  cases hpd : c.padded with
  | false =>
    rw [hpd] at f1 f3
    simp only [Bool.false_eq_true, if_false] at f1 f3
    simp only [not_true_eq_false, if_false]
    rw [add_eq (by omega)]; omega
  | true =>
    rw [hpd] at f1 f3
    simp only [if_true] at f1 f3
    simp only [Bool.true_eq_false, not_false_eq_true, if_true]
    rw [add_eq (a := c.frame) (by omega), add_eq (by omega)]; omega

/-- **C71.** Whatever the registers, the stack in use, its alignment and the floating point context, with each
compiler and instruction set: after a fault the registers given to the coredump are those at the time of the
crash, the stack address is the stack pointer at that time, and the reason is that of the exception.
Missing: the main stack pointer, if the process stack was in use (`C71_false_msp`). -/
theorem C71_registers_partial {c : Cpu} {h : Handler} (ok : c.Ok) (room : c.Room) (he : Entered c h)
    (compiler : Compiler) (v6 : Bool) (reason address mspNow : Nat) (s : State) :
    ∃ h', run h (shim compiler v6 reason address) = h' ∧ h'.r 1 = reason ∧
      ∃ s' regs traceReason,
        faultHandler h'.mem (h'.r 0) (h'.r 1) mspNow h'.psp s = (s', regs, traceReason, c.sp) ∧
        { regs with msp := 0 } = { crashRegs c with msp := 0 } ∧
        (c.usesPsp = false → regs.msp = c.msp) := by
  obtain ⟨f1, f2, f3, f4⟩ := frame_eq ok room
  have hmain : 40 ≤ h.msp ∧ h.msp < 4294967296 := by
    rw [he.msp]
    refine ⟨room.main, ?_⟩
    split
    · exact ok.msp
    · omega
  have hp := shim_passed (h := h) compiler v6 reason address hmain.1 hmain.2
  generalize run h (shim compiler v6 reason address) = h' at hp ⊢
  obtain ⟨r1, r2⟩ := handler_reads ok room he hp
  have hsp := spPrior_eq ok room he hp
  have b2 : (h.lr &&& 1 <<< 2 = 0) ↔ c.usesPsp = false := by
    rw [and_testBit, he.lr.1]
  refine ⟨h', rfl, hp.r1, ?_⟩
  unfold faultHandler
  refine ⟨_, _, _, Prod.ext rfl (Prod.ext rfl (Prod.ext rfl hsp)), ?_, ?_⟩
  · unfold coreRegs crashRegs
    simp only [hsp, r1 1 (by omega), r1 2 (by omega), r1 3 (by omega), r1 4 (by omega), r1 5 (by omega),
      r1 6 (by omega), r1 7 (by omega), r1 8 (by omega), r1 9 (by omega), r2 0 (by omega), r2 1 (by omega),
      r2 2 (by omega), r2 3 (by omega), r2 4 (by omega), r2 5 (by omega), r2 6 (by omega), r2 7 (by omega),
      Cpu.stacked, List.getD_cons_zero, List.getD_cons_succ, b2, hp.psp, he.psp]
    congr 1
    unfold Cpu.sp
    cases c.usesPsp <;> simp
  · intro hu
    unfold coreRegs
    simp only [hsp, r1 9 (by omega), List.getD_cons_zero, List.getD_cons_succ, b2, hu, if_true]
    unfold Cpu.sp; rw [hu]; simp

/-- The reason of an exception: BusFault 0x9100, MemFault 0x9200, UsageFault 0x9300, HardFault 0x9400, Nmi
0x8004 and SoftwareWatchdog 0x8006. -/
def exceptionReasonM : Exception → Nat
  | .busFault => 0x9100
  | .memoryManagement => 0x9200
  | .usageFault => 0x9300
  | .hardFault => 0x9400
  | .nmi => 0x8004
  | .watchdog => 0x8006

/-- C71: each exception has its own reason, with each compiler. -/
theorem C71_reasons {h : Handler} (h0 : 40 ≤ h.msp) (hm : h.msp < 4294967296) (compiler : Compiler) (v6 : Bool)
    (e : Exception) (address : Nat) :
    (run h (shim compiler v6 (reasonOf e) address)).r 1 = exceptionReasonM e ∧
    ∀ e', exceptionReasonM e = exceptionReasonM e' → e = e' := by
  refine ⟨?_, ?_⟩
  · rw [(shim_passed compiler v6 (reasonOf e) address h0 hm).r1]
    cases e <;> rfl
  · intro e' he'
    cases e <;> cases e' <;> first | rfl | exact absurd he' (by decide)

/-- C71 is false as stated: if the process stack was in use, the main stack pointer in the coredump is that of
the handler itself, at least 40 bytes below the one at the time of the crash. -/
theorem C71_false_msp {c : Cpu} {h : Handler} (ok : c.Ok) (room : c.Room) (he : Entered c h)
    (hu : c.usesPsp = true) (compiler : Compiler) (v6 : Bool) (reason address mspNow : Nat) (s : State)
    (hnow : mspNow ≤ (run h (shim compiler v6 reason address)).msp) :
    let h' := run h (shim compiler v6 reason address)
    (faultHandler h'.mem (h'.r 0) (h'.r 1) mspNow h'.psp s).2.1.msp + 40 ≤ c.msp := by
  have hmsp : h.msp = c.msp := by rw [he.msp, hu]; simp
  have h40 : 40 ≤ c.msp := by have := room.main; rw [hu] at this; simpa using this
  have hp := shim_passed (h := h) compiler v6 reason address (by omega) (by rw [hmsp]; exact ok.msp)
  generalize run h (shim compiler v6 reason address) = h' at hp hnow ⊢
  obtain ⟨r1, r2⟩ := handler_reads ok room he hp
  have b2 : (h.lr &&& 1 <<< 2 = 0) ↔ c.usesPsp = false := by
    rw [and_testBit, he.lr.1]
  have hm := hp.msp
  simp only [faultHandler, coreRegs, r1 9 (by omega), List.getD_cons_zero, List.getD_cons_succ, b2, hu,
    Bool.true_eq_false, if_false]
  omega

/-- C71: the stack of the code that crashed is untouched when the coredump is taken: above the stack pointer
memory is as it was, except for what the handler uses of the main stack. -/
theorem C71_stack_kept {c : Cpu} {h : Handler} (ok : c.Ok) (room : c.Room) (he : Entered c h)
    (compiler : Compiler) (v6 : Bool) (reason address : Nat) {a : Nat} (ha : c.sp ≤ a)
    (hmain : c.usesPsp = true → a < c.msp - 40 ∨ c.msp ≤ a) :
    (run h (shim compiler v6 reason address)).mem a = c.mem a := by
  obtain ⟨f1, f2, f3, f4⟩ := frame_eq ok room
  have hm : 40 ≤ h.msp ∧ h.msp < 4294967296 := by
    rw [he.msp]
    refine ⟨room.main, ?_⟩
    split
    · exact ok.msp
    · omega
  have hp := shim_passed (h := h) compiler v6 reason address hm.1 hm.2
  rw [hp.mem a ?_, he.mem a (by right; omega)]
  have hmsp := he.msp
  cases hu : c.usesPsp with
  | false =>
    rw [hu] at hmsp
    simp only [Bool.false_eq_true, if_false] at hmsp
    right; omega
  | true =>
    rw [hu] at hmsp
    simp only [if_true] at hmsp
    rw [hmsp]; exact hmain hu

/-- C71: the coredump that is saved has a register block with these registers, in the order of the format,
four bytes each, the least significant first. -/
theorem C71_register_block (g : Regs) (info : Coredump.SaveInfo) (hr : info.regs = some g.bytes)
    (hc : info.cpuCount = 1) :
    ∃ rest, Spec.Coredump.infoBlocks info = ⟨0, 0, [g.r0, g.r1, g.r2, g.r3, g.r4, g.r5, g.r6, g.r7, g.r8, g.r9,
      g.r10, g.r11, g.r12, g.sp, g.lr, g.pc, g.psr, g.msp, g.psp].flatMap Spec.Coredump.fourBytes⟩ :: rest := by
  unfold Spec.Coredump.infoBlocks
  rw [hr, hc]
  have hb : g.bytes = [g.r0, g.r1, g.r2, g.r3, g.r4, g.r5, g.r6, g.r7, g.r8, g.r9,
      g.r10, g.r11, g.r12, g.sp, g.lr, g.pc, g.psr, g.msp, g.psp].flatMap Spec.Coredump.fourBytes := by
    unfold Regs.bytes
    congr 1
    funext n
    exact (Coredump.fourBytes_le32 n).symm
  have hne : g.bytes ≠ [] := by simp [Regs.bytes, Coredump.le32]
  rw [← hb]
  have h1 : Spec.Coredump.registerBlocks (some g.bytes) 1 = [⟨0, 0, g.bytes⟩] := by
    simp [Spec.Coredump.registerBlocks, Spec.Coredump.blockOf, hne]
  rw [h1]
  exact ⟨_, by simp only [List.cons_append, List.nil_append]; rfl⟩

/-! ## Reasons -/

/-- What can happen between a boot and the reboot: assertions, and exceptions with a handler that runs. -/
inductive Crash
  | assert (pc lr reason : Nat)
  | fault (mem : Nat → Nat) (regs reason mspNow pspNow : Nat) (saved : Bool)

def Crash.reason : Crash → Nat
  | .assert _ _ reason => reason
  | .fault _ _ reason _ _ _ => reason

/-- Where it happened: the address given to the assertion or that in the exception frame. -/
def Crash.pc : Crash → Nat
  | .assert pc _ _ => pc
  | .fault mem regs _ _ _ _ => frameMember mem regs 6

def Crash.lr : Crash → Nat
  | .assert _ lr _ => lr
  | .fault mem regs _ _ _ _ => frameMember mem regs 5

def Crash.saved : Crash → Bool
  | .assert .. => false
  | .fault _ _ _ _ _ saved => saved

/-- The state after it, and the reasons given to the coredumps. -/
def Crash.step (s : State) : Crash → State × List Nat
  | .assert pc lr reason => (assertBegin pc lr reason s, [])
  | .fault mem regs reason mspNow pspNow saved =>
    let r := faultHandler mem regs reason mspNow pspNow s
    (afterSave saved r.1, [r.2.2.1])

def crashes (s : State) : List Crash → State × List Nat
  | [] => (s, [])
  | c :: cs => let r := c.step s; ((crashes r.1 cs).1, r.2 ++ (crashes r.1 cs).2)

open Spec.Reboot (Op Out) in
/-- Later crashes change nothing but that a coredump was saved. -/
theorem crashes_later {r : Nat} (hr : r ≠ 0) (cs : List Crash) : ∀ s : State, s.crashReason = r →
    (∀ x ∈ (crashes s cs).2, x = r) ∧
    ∃ k, (0 < k ↔ ∃ c ∈ cs, c.saved = true) ∧ ∀ ops,
      RebootTracking.run (crashes s cs).1.tracking ops =
        (RebootTracking.run s.tracking (List.replicate k Op.coredumpSaved ++ ops)).map
          fun q => (q.1.drop k, q.2) := by
  induction cs with
  | nil => intro s hs; exact ⟨by simp [crashes], 0, by simp, fun ops => by simp [crashes]⟩
  | cons c cs ih =>
    intro s hs
    have hstep : (c.step s).1.crashReason = r ∧ (∀ x ∈ (c.step s).2, x = r) ∧
        (c.step s).1.tracking = if c.saved then RebootTracking.markCoredumpSaved s.tracking else s.tracking := by
      cases c with
      | assert pc lr reason =>
        simp only [Crash.step, assertBegin, if_neg (show ¬ s.crashReason = 0 by omega), Crash.saved]
        exact ⟨hs, by simp, by simp⟩
      | fault mem regs reason mspNow pspNow saved =>
        simp only [Crash.step, faultHandler, afterSave, if_neg (show ¬ s.crashReason = 0 by omega), Crash.saved]
        refine ⟨?_, by simp [hs], ?_⟩ <;> cases saved <;> simp [hs]
    obtain ⟨h1, h2, h3⟩ := hstep
    obtain ⟨i1, k, i2, i3⟩ := ih (c.step s).1 h1
    refine ⟨?_, k + (if c.saved then 1 else 0), ?_, fun ops => ?_⟩
    · intro x hx
      simp only [crashes, List.mem_append] at hx
      rcases hx with hx | hx
      · exact h2 x hx
      · exact i1 x hx
    · cases hc : c.saved with
      | false => simpa [hc] using i2
      | true => simp [hc]
    · simp only [crashes]
      rw [i3, h3]
      cases c.saved with
      | false => simp
      | true =>
        simp only [if_true, List.replicate_succ, List.cons_append, RebootTracking.run, RebootTracking.step,
          Option.bind_some, Option.map_map]
        rfl

open Spec.Reboot (Op Out) in
theorem saved_rel (k : Nat) : ∀ {t : RebootTracking.State} {S : Spec.Reboot.State}, RebootTracking.Rel t S →
    S.live = true → ∃ t', (∀ ops, RebootTracking.run t (List.replicate k Op.coredumpSaved ++ ops) =
      (RebootTracking.run t' ops).map fun q => (List.replicate k Out.unit ++ q.1, q.2)) ∧
      RebootTracking.Rel t' { S with coredump := S.coredump || k != 0 } := by
  induction k with
  | zero => intro t S h _; exact ⟨t, fun ops => by simp, by simpa using h⟩
  | succ k ih =>
    intro t S h hl
    obtain ⟨s1, h1, h2⟩ := RebootTracking.run_rel [.coredumpSaved] h (outs := [.unit])
      (S' := { S with coredump := true }) (by simp [Spec.Reboot.run, Spec.Reboot.step, hl])
    simp only [RebootTracking.run, RebootTracking.step, Option.bind_some, Option.map_some,
      Option.some.injEq, Prod.mk.injEq, true_and] at h1
    rw [← h1] at h2
    obtain ⟨t', i1, i2⟩ := ih h2 hl
    refine ⟨t', fun ops => ?_, by simpa using i2⟩
    simp only [List.replicate_succ, List.cons_append, RebootTracking.run, RebootTracking.step,
      Option.bind_some, i1, Option.map_map]
    rfl

open Spec.Reboot (Op Out) in
/-- C71: the reason of the first crash is the reason of every coredump that is saved before the reboot, and
with its address the one that is reported after the reboot; a coredump is reported if one was saved. `ops` is
the history of reboot tracking up to the crash, in which the record of the previous reboot was cleared. Missing:
a crash while the record of the previous reboot is still there, whose reason is kept (C30), and crashes with
reason `Unknown` (`C71_false_unknown_reason`). -/
theorem C71_first_crash_partial {ram : RebootTracking.Ram} (hram : ram.magic ≠ 0x21544252) {ops : List Op}
    {outs : List Out} {S : Spec.Reboot.State}
    (hspec : Spec.Reboot.run Spec.Reboot.empty ops = some (outs, S)) (hlive : S.live = true)
    (hnone : S.pending = none) {s : State} (hs : s.crashReason = 0)
    (htr : RebootTracking.run ⟨ram, RebootTracking.Stat.init⟩ ops = some (outs, s.tracking))
    (c : Crash) (hc : c.reason ≠ 0) (hc' : c.reason < 2 ^ 32 - 1) (cs : List Crash)
    (b : Option RebootTracking.Bootup) (hb : (b.map RebootTracking.Bootup.reason).getD 0 < 2 ^ 32 - 1) :
    (∀ x ∈ (crashes s (c :: cs)).2, x = c.reason) ∧
    ∃ t, RebootTracking.run (crashes s (c :: cs)).1.tracking [.reset, .boot b, .readInfo] =
      some ([.unit, .unit, .info (some ⟨c.reason, c.pc, c.lr, (b.map RebootTracking.Bootup.reg).getD S.reg,
        S.coredump || (c :: cs).any Crash.saved⟩)], t) := by
  have hrel : RebootTracking.Rel s.tracking S := by
    obtain ⟨s1, h1, h2⟩ := RebootTracking.run_rel ops (RebootTracking.empty_rel hram) hspec
    rw [htr] at h1
    simp only [Option.some.injEq, Prod.mk.injEq, true_and] at h1
    rw [h1]; exact h2
  -- the first crash
  have hmark : ∃ S1 : Spec.Reboot.State, S1.live = true ∧ S1.pending = some ⟨c.reason, c.pc, c.lr⟩ ∧
      S1.reg = S.reg ∧ S1.coredump = S.coredump ∧
      RebootTracking.Rel (RebootTracking.mark s.tracking c.reason (some ⟨c.pc, c.lr⟩)) S1 := by
    obtain ⟨s1, h1, h2⟩ := RebootTracking.run_rel [.mark c.reason (some ⟨c.pc, c.lr⟩)] hrel
      (outs := [.unit]) (S' := { S with
        pending := some ⟨c.reason, c.pc, c.lr⟩, latest := some (c.reason, c.reason) }) (by
        simp only [Spec.Reboot.run, Spec.Reboot.step, Spec.Reboot.reasonOk, hc', if_true, hlive, hnone,
          Spec.Reboot.keepFirst, Spec.Reboot.known, Option.bind_some, Option.map_some, Option.map_none,
          Option.getD_some, Option.getD_none])
    simp only [RebootTracking.run, RebootTracking.step, Option.bind_some, Option.map_some,
      Option.some.injEq, Prod.mk.injEq, true_and] at h1
    rw [← h1] at h2
    exact ⟨{ S with pending := some ⟨c.reason, c.pc, c.lr⟩, latest := some (c.reason, c.reason) },
      hlive, rfl, rfl, rfl, h2⟩
  obtain ⟨S1, m1, m2, m3, m4, m5⟩ := hmark
  have hstep : (c.step s).1.crashReason = c.reason ∧ (∀ x ∈ (c.step s).2, x = c.reason) ∧
      (c.step s).1.tracking = if c.saved then
        RebootTracking.markCoredumpSaved (RebootTracking.mark s.tracking c.reason (some ⟨c.pc, c.lr⟩))
        else RebootTracking.mark s.tracking c.reason (some ⟨c.pc, c.lr⟩) := by
    cases c with
    | assert pc lr reason =>
      simp only [Crash.step, assertBegin, if_pos hs, Crash.saved, Crash.reason, Crash.pc, Crash.lr]
      exact ⟨trivial, by simp, by simp⟩
    | fault mem regs reason mspNow pspNow saved =>
      simp only [Crash.step, faultHandler, afterSave, if_pos hs, Crash.saved, Crash.reason, Crash.pc, Crash.lr]
      refine ⟨?_, by simp, ?_⟩ <;> cases saved <;> simp
  obtain ⟨e1, e2, e3⟩ := hstep
  obtain ⟨l1, k, l2, l3⟩ := crashes_later hc cs (c.step s).1 e1
  refine ⟨?_, ?_⟩
  · intro x hx
    simp only [crashes, List.mem_append] at hx
    rcases hx with hx | hx
    · exact e2 x hx
    · exact l1 x hx
  · have hrel2 : ∃ S2 : Spec.Reboot.State, S2.live = true ∧ S2.pending = some ⟨c.reason, c.pc, c.lr⟩ ∧
        S2.reg = S.reg ∧ S2.coredump = (S.coredump || c.saved) ∧
        RebootTracking.Rel (c.step s).1.tracking S2 := by
      rw [e3]
      cases c.saved with
      | false => exact ⟨S1, m1, m2, m3, by rw [m4]; simp, m5⟩
      | true =>
        obtain ⟨s1, h1, h2⟩ := RebootTracking.run_rel [.coredumpSaved] m5 (outs := [.unit])
          (S' := { S1 with coredump := true }) (by
          simp [Spec.Reboot.run, Spec.Reboot.step, m1])
        simp only [RebootTracking.run, RebootTracking.step, Option.bind_some, Option.map_some,
          Option.some.injEq, Prod.mk.injEq, true_and] at h1
        rw [← h1] at h2
        exact ⟨{ S1 with coredump := true }, m1, m2, m3, by simp, by simpa using h2⟩
    obtain ⟨S2, n1, n2, n3, n4, n5⟩ := hrel2
    obtain ⟨t, t1, t2⟩ := saved_rel k n5 n1
    simp only [crashes]
    rw [l3, t1]
    obtain ⟨u, u1, -⟩ := RebootTracking.run_rel [.reset, .boot b, .readInfo] t2
      (outs := [.unit, .unit, .info (some ⟨c.reason, c.pc, c.lr, (b.map RebootTracking.Bootup.reg).getD S.reg,
        S.coredump || (c :: cs).any Crash.saved⟩)]) (S' := _) (by
        simp only [Spec.Reboot.run, Spec.Reboot.step, Spec.Reboot.reasonOk, hb, if_true,
          Spec.Reboot.keepFirst, n2, n3, Option.bind_some, Option.map_some, Option.some.injEq, Prod.mk.injEq,
          List.cons.injEq, true_and, and_true, Out.info.injEq]
        refine ⟨?_, rfl⟩
        congr 1
        have hk : (k != 0) = cs.any Crash.saved := by
          rw [Bool.eq_iff_iff]
          simp only [bne_iff_ne, ne_eq, List.any_eq_true]
          rw [← l2]; omega
        rw [n4, hk, List.any_cons, Bool.or_assoc])
    refine ⟨u, ?_⟩
    rw [u1]
    simp

/-- C71 is false as stated: an assertion with the reason "unknown" (0) does not count as a crash; the coredump
has the reason of the exception that the assertion traps into. -/
theorem C71_false_unknown_reason (s : State) (hs : s.crashReason = 0) (pc lr : Nat) (mem : Nat → Nat)
    (regs m p : Nat) (saved : Bool) :
    (crashes s [.assert pc lr 0, .fault mem regs 0x9300 m p saved]).2 = [0x9300] := by
  simp [crashes, Crash.step, assertBegin, faultHandler, hs]

/-! ## A crash -/

/-- A thread with a misaligned process stack and a floating point context. -/
def exCpu : Cpu where
  r i := 100 + i
  lr := 0x08001235
  pc := 0x08000100
  xpsr := 0x61000000
  msp := 0x20002000
  psp := 0x20001004
  usesPsp := true
  fpContext := true
  align := true
  mem a := a / 4

/-- What its handler starts with. -/
def exHandler : Handler where
  r i := if i < 4 then 7 else 100 + i
  lr := 0xffffffed
  msp := 0x20002000
  psp := 0x20000f98
  z := true
  mem a := if a = 0x20000f98 then 100 else if a = 0x20000f9c then 101 else if a = 0x20000fa0 then 102
    else if a = 0x20000fa4 then 103 else if a = 0x20000fa8 then 112 else if a = 0x20000fac then 0x08001235
    else if a = 0x20000fb0 then 0x08000100 else if a = 0x20000fb4 then 0x61000200
    else if 0x20000fb8 ≤ a ∧ a < 0x20001004 then 0 else a / 4

theorem exEntered : exCpu.Ok ∧ exCpu.Room ∧ Entered exCpu exHandler := by
  have hfr : exCpu.frame = 0x20000f98 := by decide +kernel
  have hpd : exCpu.padded = true := by decide +kernel
  have hfs : exCpu.frameSize = 104 := by decide
  refine ⟨⟨fun i hi => ?_, by decide, by decide, by decide, by decide, by decide, by decide, by decide,
    by decide⟩, ⟨by decide, by decide, fun _ => ?_⟩, ⟨fun i h1 h2 => ?_, ⟨by decide, by decide⟩, by decide, ?_, ?_, ?_⟩⟩
  · show 100 + i < _; omega
  · right; decide
  · show (if i < 4 then 7 else 100 + i) = 100 + i
    rw [if_neg (by omega)]
  · rw [hfr]; decide
  · rw [hfr]; decide +kernel
  · intro a ha
    rw [hfr, hpd, hfs] at ha
    simp only [if_true] at ha
    show (if a = _ then _ else _) = a / 4
    repeat rw [if_neg (by omega)]

example : (let h' := run exHandler (shim .gcc false 0x9300 0)
    let r := faultHandler h'.mem (h'.r 0) (h'.r 1) (h'.msp - 64) h'.psp ⟨0, ⟨RebootTracking.initRam,
      RebootTracking.Stat.init⟩⟩
    (r.2.1.sp, r.2.1.pc, r.2.1.r11, r.2.1.r12, r.2.2.1)) = (0x20001004, 0x08000100, 111, 112, 0x9300) := by
  decide +kernel

/-- A boot whose record was cleared, an assertion, and the exceptions it traps into, of which the second one
saves a coredump. -/
example : ∃ ram : RebootTracking.Ram, ram.magic ≠ 0x21544252 ∧ ∃ outs S t,
    Spec.Reboot.run Spec.Reboot.empty [.boot none, .clear] = some (outs, S) ∧ S.live = true ∧
    S.pending = none ∧ RebootTracking.run ⟨ram, RebootTracking.Stat.init⟩ [.boot none, .clear] = some (outs, t) ∧
    (crashes ⟨0, t⟩ [.assert 0x1000 0x2000 0x8001, .fault exHandler.mem 0 0x9300 0 0 false,
      .fault exHandler.mem 0 0x9400 0 0 true]).2 = [0x8001, 0x8001] := by
  refine ⟨⟨0, 0, 0, 0, 0, 0, 0, 0⟩, by decide, _, _, _, rfl, rfl, rfl, rfl, by decide +kernel⟩

end Mflt.Props
