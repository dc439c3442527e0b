import Verif.Spec.CortexAR
import Verif.Model.RebootTracking
import Verif.Model.Coredump

/-!
# Model of `components/panics/src/memfault_fault_handling_armv7_a_r.c`

The exception handlers are lists of instructions of the processor described in `Spec.CortexAR`; the handler
in C reads memory as words. Not modelled: `memfault_platform_fault_handler` (the weak version does nothing),
halting in a debugger.
-/

namespace Mflt.CortexAR

open Spec.CortexAR (Instr Exception)
open Spec.CortexM (add)

/-- `MEMFAULT_FAULT_HANDLING_ASM`, memfault_fault_handling_armv7_a_r.c:266-288, up to the branch. -/
def shim (mode reason : Nat) : List Instr :=
  [.srsdb mode, .subImm 13 13 28, .stmdb 13 [0, 1, 2, 3, 4, 5, 6, 7], .addImm 2 13 60, .mrsCpsr 3, .mrsSpsr 4,
    .tstImm 4 0xf, .eq (.orrImm 4 4 0xf), .msrC 4, .stmdb 2 [8, 9, 10, 11, 12, 13, 14], .msrAll 3, .mov 0 13,
    .movImm 1 reason]

/-- The reason each handler passes, memfault_fault_handling_armv7_a_r.c:317, 323, 329, with the values of
reboot_reason_types.h:79-109, as `uint16_t` (line 288). -/
def reasonOf : Exception → Nat
  | .undefined => 0x9300
  | .dataAbort => 0x9200
  | .prefetchAbort => 0x9100

/-- The exception handlers, memfault_fault_handling_armv7_a_r.c:305-330. -/
def handler : Exception → List Instr
  | .undefined =>
    [.stmdb 13 [0], .mrsSpsr 0, .tstImm 0 0x20, .eq (.subImm 14 14 4), .ne (.subImm 14 14 2), .pop 0] ++
      shim 0x1b (reasonOf .undefined)
  | .dataAbort => .subImm 14 14 8 :: shim 0x17 (reasonOf .dataAbort)
  | .prefetchAbort => .subImm 14 14 4 :: shim 0x17 (reasonOf .prefetchAbort)

/-- `sMfltRegState`, v7_a_r.h:23-41. -/
structure Regs where
  r0 : Nat
  r1 : Nat
  r2 : Nat
  r3 : Nat
  r4 : Nat
  r5 : Nat
  r6 : Nat
  r7 : Nat
  r8 : Nat
  r9 : Nat
  r10 : Nat
  r11 : Nat
  r12 : Nat
  sp : Nat
  lr : Nat
  pc : Nat
  cpsr : Nat
  deriving Repr, DecidableEq

/-- `core_regs`, memfault_fault_handling_armv7_a_r.c:149-167. -/
def coreRegs (mem : Nat → Nat) (regs : Nat) : Regs where
  r0 := mem (add regs 0)
  r1 := mem (add regs 4)
  r2 := mem (add regs 8)
  r3 := mem (add regs 12)
  r4 := mem (add regs 16)
  r5 := mem (add regs 20)
  r6 := mem (add regs 24)
  r7 := mem (add regs 28)
  r8 := mem (add regs 32)
  r9 := mem (add regs 36)
  r10 := mem (add regs 40)
  r11 := mem (add regs 44)
  r12 := mem (add regs 48)
  sp := mem (add regs 52)
  lr := mem (add regs 56)
  pc := mem (add regs 60)
  cpsr := mem (add regs 64)

/-- `s_crash_reason`, memfault_fault_handling_armv7_a_r.c:36, and the state of reboot tracking. -/
structure State where
  crashReason : Nat
  tracking : RebootTracking.State

/-- `memfault_fault_handler` up to the call of `memfault_coredump_save`,
memfault_fault_handling_armv7_a_r.c:149-191: the state, the registers, the trace reason and the stack
address. -/
def faultHandler (mem : Nat → Nat) (regs reason : Nat) (s : State) : State × Regs × Nat × Nat :=
  let g := coreRegs mem regs
  let s := if s.crashReason = 0 then
      { s with tracking := RebootTracking.mark s.tracking reason (some ⟨g.pc, g.lr⟩), crashReason := reason }
    else s
  (s, g, s.crashReason, g.sp)

/-- The rest of `memfault_fault_handler`, memfault_fault_handling_armv7_a_r.c:193-196. -/
def afterSave (saved : Bool) (s : State) : State :=
  if saved then { s with tracking := RebootTracking.markCoredumpSaved s.tracking } else s

/-- `prv_fault_handling_assert` up to the trap, memfault_fault_handling_armv7_a_r.c:361-370. -/
def assertBegin (pc lr reason : Nat) (s : State) : State :=
  if s.crashReason = 0 then
    { s with crashReason := reason, tracking := RebootTracking.mark s.tracking reason (some ⟨pc, lr⟩) }
  else s

end Mflt.CortexAR
