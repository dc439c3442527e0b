import Verif.Spec.CortexM
import Verif.Model.PortFaults

/-! # Specification: what operating systems hand over when code crashes -/

namespace Mflt.Spec.PortFaults

open Mflt.PortFaults (ExtraInfo ZephyrReason RiscvEsf Lx106Frame)
open CortexM (Handler)

/-- What Zephyr gives to `z_fatal_error` after a fault, with CONFIG_EXTRA_EXCEPTION_INFO: registers R4-R11, EXC_RETURN and
both stack pointers as the handler found them. -/
structure Handed (h : Handler) (x : ExtraInfo) : Prop where
  v : ∀ i, 1 ≤ i → i ≤ 8 → x.callee.v i = h.r (i + 3)
  psp : x.callee.psp = h.psp
  excReturn : x.excReturn = h.lr
  msp : x.msp = h.msp

/-- What goes wrong. -/
inductive Fault
  | memoryManagement | busFault | usageFault | hardFault | securityViolation | stackOverflow | kernelPanic | spuriousInterrupt
  deriving Repr, DecidableEq

/-- What the reasons of Zephyr mean. -/
def fault : ZephyrReason → Fault
  | .memGeneric | .memStacking | .memUnstacking | .memDataAccess | .memInstructionAccess | .memFpLazy => .memoryManagement
  | .busGeneric | .busStacking | .busUnstacking | .busPreciseData | .busImpreciseData | .busInstruction | .busFpLazy => .busFault
  | .usageStackOverflow | .stackChkFail => .stackOverflow
  | .usageGeneric | .usageDiv0 | .usageUnaligned | .usageNoCoprocessor | .usageIllegalExcReturn | .usageIllegalEpsr
  | .usageUndefinedInstruction => .usageFault
  | .secureGeneric | .secureEntryPoint | .secureIntegrity | .secureExceptionReturn | .secureAttribution | .secureTransition
  | .secureLazyPreservation | .secureLazyError => .securityViolation
  | .kernelOops | .kernelPanic => .kernelPanic
  | .spuriousIrq => .spuriousInterrupt
  | .cpuException | .other => .hardFault

/-- The numbers of reboot reasons, reboot_reason_types.h. -/
def number : Fault → Nat
  | .kernelPanic => 0x8008
  | .stackOverflow => 0x800b
  | .busFault => 0x9100
  | .memoryManagement => 0x9200
  | .usageFault => 0x9300
  | .hardFault => 0x9400
  | .securityViolation => 0x9402
  | .spuriousInterrupt => 0x9405

/-- A RISC-V processor that was interrupted: `x 1` … `x 31`. -/
structure Riscv where
  pc : Nat
  x : Nat → Nat
  mstatus : Nat

/-- The frame of Zephyr holds the registers a function may use freely; with CONFIG_USERSPACE also the stack pointer.
`e`: 16 registers only. -/
structure Framed (userspace e : Bool) (c : Riscv) (f : RiscvEsf) : Prop where
  mepc : f.mepc = c.pc
  mstatus : f.mstatus = c.mstatus
  ra : f.ra = c.x 1
  sp : userspace = true → f.sp = c.x 2
  t : (List.range (if e then 3 else 7)).map f.t = ((if e then [5, 6, 7] else [5, 6, 7, 28, 29, 30, 31]) : List Nat).map c.x
  a : (List.range (if e then 6 else 8)).map f.a =
    ((if e then [10, 11, 12, 13, 14, 15] else [10, 11, 12, 13, 14, 15, 16, 17]) : List Nat).map c.x

/-- A trap frame of Mynewt at address `tf`: a pointer to what the processor has stacked, R4-R11, and EXC_RETURN. The
frame of the processor is still there. -/
structure Trapped (c : CortexM.Cpu) (h : Handler) (mem : Nat → Nat) (tf : Nat) : Prop where
  frame : mem tf = c.frame
  r : ∀ i, 1 ≤ i → i ≤ 8 → mem (tf + 4 * i) = h.r (i + 3)
  excReturn : mem (tf + 36) = h.lr
  stacked : ∀ a, c.frame ≤ a → a < c.frame + 32 → mem a = h.mem a

/-- What the exceptions of an Arm Cortex-M are reported as, by their numbers. -/
def exceptionReason (number : Nat) : Nat :=
  if number = 2 then 0x8004 else if number = 4 then 0x9200 else if number = 5 then 0x9100 else if number = 6 then 0x9300
  else 0x9400

end Mflt.Spec.PortFaults
