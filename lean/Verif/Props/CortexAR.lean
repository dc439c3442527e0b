import Verif.Lemmas.CortexAR

/-! # C72: crashes of a Cortex-A/R device -/

namespace Mflt.Props

open CortexAR
open Spec.CortexAR (Cpu Entered Exception run bank exec)
open Spec.CortexM (add sub store)

/-- What a coredump has to say about the processor `c`: the registers of its mode at the time of the crash. -/
def crashRegsAR (c : Cpu) : CortexAR.Regs where
  r0 := c.get 0
  r1 := c.get 1
  r2 := c.get 2
  r3 := c.get 3
  r4 := c.get 4
  r5 := c.get 5
  r6 := c.get 6
  r7 := c.get 7
  r8 := c.get 8
  r9 := c.get 9
  r10 := c.get 10
  r11 := c.get 11
  r12 := c.get 12
  sp := c.get 13
  lr := c.get 14
  pc := c.pc
  cpsr := c.cpsr

/-- The reason of an exception. -/
def exceptionReason : Exception → Nat
  | .undefined => 0x9300
  | .dataAbort => 0x9200
  | .prefetchAbort => 0x9100

theorem handler_passed {e : Exception} {c h : Cpu} (ok : c.Ok) (he : Entered e c h) (z : Bool)
    (h0 : 68 ≤ c.sp e.mode) (h1 : c.sp e.mode < 4294967296) :
    ∃ h1 : Cpu, h1.low = c.low ∧ h1.mid = c.mid ∧ h1.sp = c.sp ∧
      (∀ m, h1.lr m = if m = e.mode then c.pc else c.lr m) ∧ h1.spsr e.mode = c.cpsr ∧
      (∀ a, (a < c.sp e.mode - 68 ∨ c.sp e.mode ≤ a) → h1.mem a = c.mem a) ∧
      Passed h1 (run (handler e) (h, z)).1 e.mode c.pc c.cpsr (exceptionReason e) ∧ h1.cpsr = h.cpsr ∧
      ∃ pre z', handler e = pre ++ shim e.mode (exceptionReason e) ∧ run pre (h, z) = (h1, z') := by
  have hsub : ∀ n, n ≤ 8 → sub (add c.pc n) n = c.pc := by
    intro n hn
    have := ok.pc
    unfold sub add; omega
  have hm := he.mode
  have happ : ∀ is js : List Spec.CortexAR.Instr, ∀ s, run (is ++ js) s = run js (run is s) := fun is js s => by
    unfold run; rw [List.foldl_append]
  have key : ∀ (pre : List Spec.CortexAR.Instr) (reason : Nat) (h1 : Cpu) (z' : Bool),
      handler e = pre ++ shim e.mode (exceptionReason e) → run pre (h, z) = (h1, z') →
      h1.low = c.low → h1.mid = c.mid → h1.sp = c.sp → (∀ m, h1.lr m = if m = e.mode then c.pc else c.lr m) →
      h1.spsr = h.spsr → h1.cpsr = h.cpsr →
      (∀ a, (a < c.sp e.mode - 68 ∨ c.sp e.mode ≤ a) → h1.mem a = c.mem a) →
      ∃ h1 : Cpu, h1.low = c.low ∧ h1.mid = c.mid ∧ h1.sp = c.sp ∧
      (∀ m, h1.lr m = if m = e.mode then c.pc else c.lr m) ∧ h1.spsr e.mode = c.cpsr ∧
      (∀ a, (a < c.sp e.mode - 68 ∨ c.sp e.mode ≤ a) → h1.mem a = c.mem a) ∧
      Passed h1 (run (handler e) (h, z)).1 e.mode c.pc c.cpsr (exceptionReason e) ∧ h1.cpsr = h.cpsr ∧
      ∃ pre z', handler e = pre ++ shim e.mode (exceptionReason e) ∧ run pre (h, z) = (h1, z') := by
    intro pre reason g z' hh hr g1 g2 g3 g4 g5 g6 g7
    have hspsr : g.spsr e.mode = c.cpsr := by rw [g5, he.spsr]; simp
    refine ⟨g, g1, g2, g3, g4, hspsr, g7, ?_, g6, pre, z', hh, hr⟩
    have hp := shim_passed (h := g) z' e.mode (exceptionReason e) (by cases e <;> simp [Exception.mode])
      (by rw [g6, hm]) (by rw [hspsr]; exact ok.mode) (by rw [g3]; exact h0) (by rw [g3]; exact h1)
    rw [hspsr, g4 e.mode, if_pos rfl] at hp
    rw [hh, happ, hr]
    exact hp
  cases e with
  | dataAbort =>
    refine key [.subImm 14 14 8] 0 { h with lr := fun m => if m = 23 then c.pc else c.lr m } z rfl ?_ he.low he.mid
      he.sp (fun m => rfl) rfl rfl (fun a _ => by rw [he.mem])
    simp only [Exception.mode] at hm
    simp only [run, List.foldl_cons, List.foldl_nil, exec, Cpu.set, Cpu.get, Cpu.mode, hm, he.lr]
    simp [bank, Exception.mode, Exception.offset, hsub]
    funext m
    by_cases hq : m = 23 <;> simp [hq]
  | prefetchAbort =>
    refine key [.subImm 14 14 4] 0 { h with lr := fun m => if m = 23 then c.pc else c.lr m } z rfl ?_ he.low he.mid
      he.sp (fun m => rfl) rfl rfl (fun a _ => by rw [he.mem])
    simp only [Exception.mode] at hm
    simp only [run, List.foldl_cons, List.foldl_nil, exec, Cpu.set, Cpu.get, Cpu.mode, hm, he.lr]
    simp [bank, Exception.mode, Exception.offset, hsub]
    funext m
    by_cases hq : m = 23 <;> simp [hq]
  | undefined =>
    simp only [Exception.mode] at hm h0 h1
    have s4 : sub (c.sp 27) 4 = c.sp 27 - 4 := CortexM.sub_eq (by omega) h1
    have a4 : add (c.sp 27 - 4) 4 = c.sp 27 := by rw [CortexM.add_eq (by omega)]; omega
    refine key [.stmdb 13 [0], .mrsSpsr 0, .tstImm 0 0x20, .eq (.subImm 14 14 4), .ne (.subImm 14 14 2), .pop 0] 0
      { h with
        lr := fun m => if m = 27 then c.pc else c.lr m
        mem := store c.mem (c.sp 27 - 4) [c.low 0] } (c.cpsr &&& 0x20 == 0) rfl ?_ he.low he.mid
      he.sp (fun m => rfl) rfl rfl (fun a ha => ?_)
    · have hlow : (fun j => if j = 0 then c.low 0 else c.low j) = c.low := by
        funext j; by_cases hj : j = 0 <;> simp [hj]
      have hlow' : ∀ x, (fun j => if j = 0 then c.low 0 else if j = 0 then x else c.low j) = c.low := by
        intro x; funext j; by_cases hj : j = 0 <;> simp [hj]
      have hsp' : (fun m => if m = 27 then c.sp 27 else if m = 27 then c.sp 27 - 4 else c.sp m) = c.sp := by
        funext j; by_cases hj : j = 27 <;> simp [hj]
      have ht : (c.cpsr &&& 0x20 == 0) = !c.thumb := by
        have := CortexM.and_testBit c.cpsr 5
        rw [show (1 : Nat) <<< 5 = 0x20 from rfl] at this
        unfold Cpu.thumb
        cases hb : c.cpsr.testBit 5
        · simpa using this.2 hb
        · have hn : ¬ (c.cpsr &&& 0x20 = 0) := fun hx => by rw [this.1 hx] at hb; cases hb
          simpa using hn
      have hsp0 := he.sp
      have hmem0 := he.mem
      have hlow0 := he.low
      have hlr0 := he.lr
      have hss0 := he.spsr
      obtain ⟨l, m, sp, lr, ss, pc, cp, me⟩ := h
      simp only at hsp0 hmem0 hlow0 hlr0 hss0 hm
      subst hsp0 hmem0 hlow0 hlr0 hss0
      have hst0 : store c.mem (c.sp 27 - 4) [c.low 0] (c.sp 27 - 4) = c.low 0 := by simp [store]
      cases htb : c.thumb with
      | false =>
        rw [htb] at ht
        simp only [run, List.foldl_cons, List.foldl_nil, exec, Cpu.set, Cpu.get, Cpu.mode, hm]
        simp [Cpu.get, bank, Exception.mode, Exception.offset, hsub, s4, ht, htb, hm, a4, hst0, hlow', hsp']
        funext j; by_cases hj : j = 27 <;> simp [hj]
      | true =>
        rw [htb] at ht
        simp only [run, List.foldl_cons, List.foldl_nil, exec, Cpu.set, Cpu.get, Cpu.mode, hm]
        simp [Cpu.get, bank, Exception.mode, Exception.offset, hsub, s4, ht, htb, hm, a4, hst0, hlow', hsp']
        funext j; by_cases hj : j = 27 <;> simp [hj]
    · have hst := CortexM.store_at [c.low 0] c.mem (c.sp 27 - 4) (by simp; omega)
      simp only [Exception.mode, List.length_cons, List.length_nil] at ha hst
      exact hst.2 a (by omega)

/-- **C72.** Whatever the registers, the mode of the code that crashed and its instruction set: after an
undefined instruction or an abort the registers given to the coredump are those of that mode at the time of
the crash, with the address of the instruction itself, the stack address is the stack pointer of that mode,
and the reason is that of the exception.
Missing: a crash in the mode the exception is taken in (`C72_false_nested`). -/
theorem C72_registers_partial {e : Exception} {c h : Cpu} (ok : c.Ok) (he : Entered e c h) (z : Bool)
    (h0 : 68 ≤ c.sp e.mode) (h1 : c.sp e.mode < 4294967296) (hmode : c.mode ≠ e.mode) (s : CortexAR.State) :
    ∃ h', (run (handler e) (h, z)).1 = h' ∧ h'.get 1 = exceptionReason e ∧
      ∃ s' traceReason, faultHandler h'.mem (h'.get 0) (h'.get 1) s =
        (s', crashRegsAR c, traceReason, c.get 13) := by
  obtain ⟨g, g1, g2, g3, g4, g5, g6, hp, -, -⟩ := handler_passed ok he z h0 h1
  generalize run (handler e) (h, z) = q at hp
  obtain ⟨h', z'⟩ := q
  simp only at hp
  have hbk : bank c.mode ≠ e.mode := by
    unfold bank
    have : e.mode = 23 ∨ e.mode = 27 := by cases e <;> simp [Exception.mode]
    split <;> omega
  have hcm : c.cpsr % 32 = c.mode := rfl
  refine ⟨h', rfl, hp.r1, ?_⟩
  have hread : ∀ i, i < 17 → h'.mem (add (h'.low 0) (4 * i)) =
      [c.low 0, c.low 1, c.low 2, c.low 3, c.low 4, c.low 5, c.low 6, c.low 7, c.mid (c.mode = 17) 8,
        c.mid (c.mode = 17) 9, c.mid (c.mode = 17) 10, c.mid (c.mode = 17) 11, c.mid (c.mode = 17) 12,
        c.sp (bank c.mode), c.lr (bank c.mode), c.pc, c.cpsr].getD i 0 := by
    intro i hi
    have := hp.state i hi
    rw [hcm, if_neg hbk, if_neg hbk, g4, if_neg hbk, g1, g2, g3] at this
    rw [hp.r0, CortexM.add_eq (by rw [g3]; omega), g3]
    exact this
  have hregs : coreRegs h'.mem (h'.low 0) = crashRegsAR c := by
    unfold coreRegs crashRegsAR Cpu.get
    have r0 := hread 0 (by omega)
    have r1 := hread 1 (by omega)
    have r2 := hread 2 (by omega)
    have r3 := hread 3 (by omega)
    have r4 := hread 4 (by omega)
    have r5 := hread 5 (by omega)
    have r6 := hread 6 (by omega)
    have r7 := hread 7 (by omega)
    have r8 := hread 8 (by omega)
    have r9 := hread 9 (by omega)
    have r10 := hread 10 (by omega)
    have r11 := hread 11 (by omega)
    have r12 := hread 12 (by omega)
    have r13 := hread 13 (by omega)
    have r14 := hread 14 (by omega)
    have r15 := hread 15 (by omega)
    have r16 := hread 16 (by omega)
    simp only [Nat.mul_zero, Nat.reduceMul, List.getD_cons_zero, List.getD_cons_succ] at r0 r1 r2 r3 r4 r5 r6 r7 r8 r9 r10 r11 r12 r13 r14 r15 r16
    simp [r0, r1, r2, r3, r4, r5, r6, r7, r8, r9, r10, r11, r12, r13, r14, r15, r16]
  have hget0 : h'.get 0 = h'.low 0 := rfl
  unfold faultHandler
  rw [hget0, hregs]
  exact ⟨_, _, rfl⟩

/-- C72: memory is as it was when the coredump is taken, except for the 68 bytes the handler uses of the stack
of its own mode. -/
theorem C72_memory_kept {e : Exception} {c h : Cpu} (ok : c.Ok) (he : Entered e c h) (z : Bool)
    (h0 : 68 ≤ c.sp e.mode) (h1 : c.sp e.mode < 4294967296) {a : Nat}
    (ha : a < c.sp e.mode - 68 ∨ c.sp e.mode ≤ a) : (run (handler e) (h, z)).1.mem a = c.mem a := by
  obtain ⟨g, g1, g2, g3, g4, g5, g6, hp, -, -⟩ := handler_passed ok he z h0 h1
  rw [hp.mem a (by rw [g3]; exact ha)]
  exact g6 a ha

/-- C72 is false as stated for a crash in the mode the exception is taken in, e.g. an abort in the handler of
an abort: the stack pointer in the coredump is 68 bytes below the one at the time of the crash, and the link
register is the address of the instruction. -/
theorem C72_false_nested {e : Exception} {c h : Cpu} (ok : c.Ok) (he : Entered e c h) (z : Bool)
    (h0 : 68 ≤ c.sp e.mode) (h1 : c.sp e.mode < 4294967296) (hmode : c.mode = e.mode) (s : CortexAR.State) :
    let h' := (run (handler e) (h, z)).1
    (faultHandler h'.mem (h'.get 0) (h'.get 1) s).2.1.sp + 68 = c.get 13 ∧
    (faultHandler h'.mem (h'.get 0) (h'.get 1) s).2.1.lr = c.pc := by
  obtain ⟨g, g1, g2, g3, g4, g5, g6, hp, -, -⟩ := handler_passed ok he z h0 h1
  generalize run (handler e) (h, z) = q at hp
  obtain ⟨h', z'⟩ := q
  simp only at hp ⊢
  have hbk : bank c.mode = e.mode := by
    rw [hmode]; cases e <;> rfl
  have hcm : c.cpsr % 32 = c.mode := rfl
  have r13 := hp.state 13 (by omega)
  have r14 := hp.state 14 (by omega)
  rw [hcm, hbk] at r13 r14
  simp only [Nat.reduceMul, List.getD_cons_zero, List.getD_cons_succ, if_true, g3] at r13 r14
  have e13 : add (h'.get 0) 52 = c.sp e.mode - 68 + 52 := by
    rw [show h'.get 0 = h'.low 0 from rfl, hp.r0, g3, CortexM.add_eq (by omega)]
  have e14 : add (h'.get 0) 56 = c.sp e.mode - 68 + 56 := by
    rw [show h'.get 0 = h'.low 0 from rfl, hp.r0, g3, CortexM.add_eq (by omega)]
  simp only [faultHandler, coreRegs, e13, e14, r13, r14]
  have hsp : c.get 13 = c.sp e.mode := by
    unfold Cpu.get; simp [hbk]
  rw [hsp]
  exact ⟨by omega, trivial⟩

/-- A defect: the handler returns to the status of the code that crashed to read its registers, and with it
to its interrupt mask: if interrupts were enabled, they are enabled before the registers are stored. -/
theorem C72_false_interrupts {e : Exception} {c h : Cpu} (ok : c.Ok) (he : Entered e c h) (z : Bool)
    (h0 : 68 ≤ c.sp e.mode) (h1 : c.sp e.mode < 4294967296) (hirq : c.cpsr.testBit 7 = false) :
    ∃ k, .stmdb 2 [8, 9, 10, 11, 12, 13, 14] ∈ (handler e).drop k ∧
      (run ((handler e).take k) (h, z)).1.cpsr.testBit 7 = false := by
  obtain ⟨g, g1, g2, g3, g4, g5, g6, hp, hg, pre, z', hh, hr⟩ := handler_passed ok he z h0 h1
  have happ : ∀ is js : List Spec.CortexAR.Instr, ∀ s, run (is ++ js) s = run js (run is s) := fun is js s => by
    unfold run; rw [List.foldl_append]
  refine ⟨pre.length + 9, ?_, ?_⟩
  · rw [hh, List.drop_append, List.drop_eq_nil_of_le (as := pre) (by omega)]
    simp [shim]
  · have htk : (handler e).take (pre.length + 9) = pre ++ (shim e.mode (exceptionReason e)).take 9 := by
      rw [hh, List.take_append, List.take_of_length_le (l := pre) (by omega)]
      simp
    rw [htk, happ, hr]
    have hm : g.cpsr % 32 = e.mode := by rw [hg]; exact he.mode
    have hb : bank e.mode = e.mode := by cases e <;> rfl
    have ht : c.cpsr &&& 15 = c.cpsr % 16 := Nat.and_two_pow_sub_one_eq_mod c.cpsr 4
    rw [Nat.testBit_eq_decide_div_mod_eq] at hirq ⊢
    simp only [decide_eq_false_iff_not] at hirq ⊢
    by_cases hz : c.cpsr % 16 = 0
    · have h2 : c.cpsr ||| 0xf = c.cpsr + 15 := by
        have := (Nat.two_pow_add_eq_or_of_lt (i := 4) (b := 15) (by decide) (c.cpsr / 16)).symm
        rw [show 2 ^ 4 * (c.cpsr / 16) = c.cpsr by omega] at this
        exact this
      simp [shim, run, exec, Cpu.set, Cpu.get, Cpu.mode, hm, hb, g5, ht, hz, h2]
      omega
    · simp [shim, run, exec, Cpu.set, Cpu.get, Cpu.mode, hm, hb, g5, ht, hz]
      omega

/-- A defect: the handler in C is called with a stack that is not aligned to 8 bytes, as the procedure call
standard demands, if the stack was aligned. -/
theorem C72_false_alignment {e : Exception} {c h : Cpu} (ok : c.Ok) (he : Entered e c h) (z : Bool)
    (h0 : 68 ≤ c.sp e.mode) (h1 : c.sp e.mode < 4294967296) (h8 : c.sp e.mode % 8 = 0) :
    (run (handler e) (h, z)).1.get 13 % 8 = 4 := by
  obtain ⟨g, g1, g2, g3, g4, g5, g6, hp, -, -⟩ := handler_passed ok he z h0 h1
  have hb : bank e.mode = e.mode := by cases e <;> rfl
  have : (run (handler e) (h, z)).1.get 13 = c.sp e.mode - 68 := by
    unfold Cpu.get
    simp [hp.mode, hb, hp.sp, g3]
  rw [this]; omega

/-! ## A crash -/

/-- A data abort in User mode, in Thumb state. -/
def exCpuAR : Cpu where
  low i := 100 + i
  mid fiq i := if fiq then 900 + i else 100 + i
  sp m := 4096 * m
  lr m := 0x08000000 + m
  spsr m := m
  pc := 0x1002
  cpsr := 0x30
  mem a := a / 4

/-- What its handler starts with. -/
def exHandlerAR (e : Exception) : Cpu := { exCpuAR with
  lr := fun m => if m = e.mode then add 0x1002 (e.offset true) else 0x08000000 + m
  spsr := fun m => if m = e.mode then 0x30 else m
  cpsr := 0x80 + e.mode }

example (e : Exception) : exCpuAR.Ok ∧ Entered e exCpuAR (exHandlerAR e) ∧ 68 ≤ exCpuAR.sp e.mode ∧
    exCpuAR.sp e.mode < 4294967296 ∧ exCpuAR.mode ≠ e.mode ∧ exCpuAR.sp e.mode % 8 = 0 ∧
    exCpuAR.cpsr.testBit 7 = false := by
  refine ⟨⟨by decide, by decide⟩, ⟨rfl, rfl, rfl, rfl, rfl, ?_, rfl⟩, ?_, ?_, ?_, ?_, by decide⟩ <;>
    cases e <;> decide

example : (let h' := (run (handler .undefined) (exHandlerAR .undefined, true)).1
    let r := faultHandler h'.mem (h'.get 0) (h'.get 1) ⟨0, ⟨RebootTracking.initRam, RebootTracking.Stat.init⟩⟩
    (r.2.1.sp, r.2.1.lr, r.2.1.pc, r.2.1.r0, r.2.1.r8, r.2.1.cpsr, r.2.2.1)) =
      (4096 * 16, 0x08000010, 0x1002, 100, 108, 0x30, 0x9300) := by
  decide +kernel

end Mflt.Props
