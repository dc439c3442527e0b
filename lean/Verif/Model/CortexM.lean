import Verif.Spec.CortexM
import Verif.Model.RebootTracking
import Verif.Model.Coredump

/-!
# Model of `components/panics/src/memfault_fault_handling_arm.c`

The exception handlers are lists of instructions of the processor described in `Spec.CortexM`; the handler in
C reads memory as words. Not modelled: `memfault_platform_fault_handler` (the weak version does nothing),
halting in a debugger, and `MEMFAULT_FAULT_HANDLER_RETURN`.
-/

namespace Mflt.CortexM

open Spec.CortexM (Instr add sub)

/-- The compilers. -/
inductive Compiler
  | armcc | ti | gcc | iar
  deriving Repr, DecidableEq

/-- `MEMFAULT_HARDFAULT_HANDLING_ASM`, memfault_fault_handling_arm.c:375-385: tst, ite, mrseq, mrsne, push,
mov, ldr. -/
def shimGcc (reason : Nat) : List Instr :=
  [.tstImm 14 4, .eq (.mrsMsp 3), .ne (.mrsPsp 3), .push [3, 4, 5, 6, 7, 8, 9, 10, 11, 14], .mov 0 13,
    .movImm 1 reason]

/-- `MEMFAULT_HARDFAULT_HANDLING_ASM`, memfault_fault_handling_arm.c:387-405. The branch over one
instruction is a conditional instruction. -/
def shimGccV6 (reason : Nat) : List Instr :=
  [.mov 0 14, .movImm 1 4, .tst 0 1, .mrsMsp 12, .ne (.mrsPsp 12), .mov 0 8, .mov 1 9, .mov 2 10, .mov 3 11,
    .push [0, 1, 2, 3, 14], .mov 3 12, .push [3, 4, 5, 6, 7], .mov 0 13, .movImm 1 reason]

/-- The handlers and `memfault_fault_handling_shim` for armcc, memfault_fault_handling_arm.c:208-218,
247-303. `shim`: its address. -/
def shimArmcc (reason shim : Nat) : List Instr :=
  [.movImm 0 reason, .movImm 1 shim, .tstImm 14 4, .eq (.mrsMsp 3), .ne (.mrsPsp 3),
    .push [3, 4, 5, 6, 7, 8, 9, 10, 11, 14], .mov 1 0, .mov 0 13]

/-- The same for Armv6-M, memfault_fault_handling_arm.c:222-243. -/
def shimArmccV6 (reason shim : Nat) : List Instr :=
  [.movImm 0 reason, .movImm 1 shim, .mov 1 14, .movImm 2 4, .tst 1 2, .mrsMsp 12, .ne (.mrsPsp 12),
    .mov 3 11, .mov 2 10, .mov 1 9, .mov 9 0, .mov 0 8, .push [0, 1, 2, 3, 14], .mov 3 12,
    .push [3, 4, 5, 6, 7], .mov 0 13, .mov 1 9]

/-- The handlers and `memfault_fault_handling_shim` for TI, memfault_fault_handling_arm.c:313-358. -/
def shimTi (reason : Nat) : List Instr :=
  [.movImm 0 reason, .tstImm 14 4, .eq (.mrsMsp 3), .ne (.mrsPsp 3),
    .push [3, 4, 5, 6, 7, 8, 9, 10, 11, 14], .mov 1 0, .mov 0 13]

/-- `MEMFAULT_HARDFAULT_HANDLING_ASM` for IAR, memfault_fault_handling_arm.c:447-457. -/
def shimIar (reason : Nat) : List Instr := shimGcc reason

/-- The same for Armv6-M, memfault_fault_handling_arm.c:464-484; the compiler puts the reason into R0. -/
def shimIarV6 (reason : Nat) : List Instr :=
  [.movImm 0 reason, .mov 1 14, .movImm 2 4, .tst 1 2, .mrsMsp 12, .ne (.mrsPsp 12),
    .mov 3 11, .mov 2 10, .mov 1 9, .mov 9 0, .mov 0 8, .push [0, 1, 2, 3, 14], .mov 3 12,
    .push [3, 4, 5, 6, 7], .mov 0 13, .mov 1 9]

/-- The instructions of an exception handler. `v6`: with the instruction set of Armv6-M. -/
def shim (compiler : Compiler) (v6 : Bool) (reason shimAddress : Nat) : List Instr :=
  match compiler, v6 with
  | .armcc, false => shimArmcc reason shimAddress
  | .armcc, true => shimArmccV6 reason shimAddress
  | .ti, _ => shimTi reason
  | .gcc, false => shimGcc reason
  | .gcc, true => shimGccV6 reason
  | .iar, false => shimIar reason
  | .iar, true => shimIarV6 reason

/-- The exceptions. -/
inductive Exception
  | hardFault | memoryManagement | busFault | usageFault | nmi | watchdog
  deriving Repr, DecidableEq

/-- The reason each handler passes, memfault_fault_handling_arm.c:247-303, 324-358, 409-438, 489-518, with
the values of reboot_reason_types.h:79-109. -/
def reasonOf : Exception → Nat
  | .hardFault => 0x9400
  | .memoryManagement => 0x9200
  | .busFault => 0x9100
  | .usageFault => 0x9300
  | .nmi => 0x8004
  | .watchdog => 0x8006

/-- `sMfltCortexMRegs`, memfault_fault_handling_arm.c:22-43. -/
structure Regs where
  r0 : Nat
  r1 : Nat
  r2 : Nat
  r3 : Nat
  r4 : Nat
  r5 : Nat
  r6 : Nat
  r7 : Nat
  r8 : Nat
  r9 : Nat
  r10 : Nat
  r11 : Nat
  r12 : Nat
  sp : Nat
  lr : Nat
  pc : Nat
  psr : Nat
  msp : Nat
  psp : Nat
  deriving Repr, DecidableEq

/-- The bytes of `sMfltCortexMRegs`. -/
def Regs.bytes (g : Regs) : Bytes :=
  [g.r0, g.r1, g.r2, g.r3, g.r4, g.r5, g.r6, g.r7, g.r8, g.r9, g.r10, g.r11, g.r12, g.sp, g.lr, g.pc, g.psr,
    g.msp, g.psp].flatMap Coredump.le32

/-- `s_crash_reason`, memfault_fault_handling_arm.c:20, and the state of reboot tracking. -/
structure State where
  crashReason : Nat
  tracking : RebootTracking.State

/-- `sMfltRegState` at `regs`, cortex_m.h:36-56: the n-th member. -/
def regState (mem : Nat → Nat) (regs n : Nat) : Nat := mem (add regs (4 * n))

/-- `regs->exception_frame`, cortex_m.h:23-33: the n-th member. -/
def frameMember (mem : Nat → Nat) (regs n : Nat) : Nat := mem (add (regState mem regs 0) (4 * n))

/-- `sp_prior_to_exception`, memfault_fault_handling_arm.c:122-130. -/
def spPrior (mem : Nat → Nat) (regs : Nat) : Nat :=
  let sp := add (regState mem regs 0) (if regState mem regs 9 &&& (1 <<< 4) = 0 then 0x68 else 0x20)
  if frameMember mem regs 7 &&& (1 <<< 9) ≠ 0 then add sp 4 else sp

/-- `core_regs`, memfault_fault_handling_arm.c:132-157. `mspNow` and `pspNow`: the stack pointers while the
handler runs. -/
def coreRegs (mem : Nat → Nat) (regs mspNow pspNow : Nat) : Regs where
  r0 := frameMember mem regs 0
  r1 := frameMember mem regs 1
  r2 := frameMember mem regs 2
  r3 := frameMember mem regs 3
  r4 := regState mem regs 1
  r5 := regState mem regs 2
  r6 := regState mem regs 3
  r7 := regState mem regs 4
  r8 := regState mem regs 5
  r9 := regState mem regs 6
  r10 := regState mem regs 7
  r11 := regState mem regs 8
  r12 := frameMember mem regs 4
  sp := spPrior mem regs
  lr := frameMember mem regs 5
  pc := frameMember mem regs 6
  psr := frameMember mem regs 7
  msp := if regState mem regs 9 &&& (1 <<< 2) = 0 then spPrior mem regs else mspNow
  psp := if ¬ regState mem regs 9 &&& (1 <<< 2) = 0 then spPrior mem regs else pspNow

/-- `memfault_fault_handler` up to the call of `memfault_coredump_save`, memfault_fault_handling_arm.c:110-170:
the state, the registers, the trace reason and the stack address. -/
def faultHandler (mem : Nat → Nat) (regs reason mspNow pspNow : Nat) (s : State) :
    State × Regs × Nat × Nat :=
  let s := if s.crashReason = 0 then
      { s with
        tracking := RebootTracking.mark s.tracking reason
          (some ⟨frameMember mem regs 6, frameMember mem regs 5⟩)
        crashReason := reason }
    else s
  (s, coreRegs mem regs mspNow pspNow, s.crashReason, spPrior mem regs)

/-- The rest of `memfault_fault_handler`, memfault_fault_handling_arm.c:172-175. -/
def afterSave (saved : Bool) (s : State) : State :=
  if saved then { s with tracking := RebootTracking.markCoredumpSaved s.tracking } else s

/-- `prv_fault_handling_assert` up to the trap, memfault_fault_handling_arm.c:562-571. -/
def assertBegin (pc lr reason : Nat) (s : State) : State :=
  if s.crashReason = 0 then
    { s with crashReason := reason, tracking := RebootTracking.mark s.tracking reason (some ⟨pc, lr⟩) }
  else s

end Mflt.CortexM
