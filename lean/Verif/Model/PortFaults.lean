import Verif.Model.CortexM
import Verif.Model.FaultArch

/-!
# Model of fault handlers behind the one of an operating system

`ports/zephyr/panics/memfault_fault_handler.c` (Arm), `ports/zephyr/panics/memfault_fault_handler_riscv.c`
`ports/esp8266_sdk/memfault/memfault_fault_handler.c` and the part of `ports/mynewt/src/memfault_platform_port.c` on faults:
what they hand to `memfault_fault_handler`. Not
modelled: flushing of logs, reboots, critical sections and the register INT_ENA_WDEV.
-/

namespace Mflt.PortFaults

open FaultArch (RiscvRegs XtensaRegs)

/-! ## Zephyr, Arm -/

/-- `_callee_saved_t` of Zephyr: `v1` … `v8` (R4-R11) by their numbers, and the process stack pointer. -/
structure Callee where
  v : Nat → Nat
  psp : Nat

/-- `struct __extra_esf_info` of Zephyr. -/
structure ExtraInfo where
  callee : Callee
  excReturn : Nat
  msp : Nat

/-- `reg` of `__wrap_z_fatal_error`, memfault_fault_handler.c:190-212: the ten words of `sMfltRegState`. -/
def armRegs (x : ExtraInfo) : List Nat :=
  let mspWasActive := x.excReturn &&& (1 <<< 2) = 0
  [if mspWasActive then x.msp else x.callee.psp, x.callee.v 1, x.callee.v 2, x.callee.v 3, x.callee.v 4, x.callee.v 5,
    x.callee.v 6, x.callee.v 7, x.callee.v 8, x.excReturn]

/-- The reasons for which Zephyr calls `z_fatal_error`, fatal_types.h and arch/arm/arch.h of Zephyr;
`other`: any other number. -/
inductive ZephyrReason
  | cpuException | spuriousIrq | stackChkFail | kernelOops | kernelPanic
  | memGeneric | memStacking | memUnstacking | memDataAccess | memInstructionAccess | memFpLazy
  | busGeneric | busStacking | busUnstacking | busPreciseData | busImpreciseData | busInstruction | busFpLazy
  | usageGeneric | usageDiv0 | usageUnaligned | usageStackOverflow | usageNoCoprocessor | usageIllegalExcReturn
  | usageIllegalEpsr | usageUndefinedInstruction
  | secureGeneric | secureEntryPoint | secureIntegrity | secureExceptionReturn | secureAttribution | secureTransition
  | secureLazyPreservation | secureLazyError
  | other
  deriving Repr, DecidableEq

/-- `prv_zephyr_to_memfault_fault_reason`, memfault_fault_handler.c:65-156. -/
def zephyrReason : ZephyrReason → Nat
  | .cpuException => 0x9400
  | .other => 0x9400
  | .spuriousIrq => 0x9405
  | .stackChkFail => 0x800b
  | .kernelOops => 0x8008
  | .kernelPanic => 0x8008
  | .memGeneric => 0x9200
  | .memStacking => 0x9200
  | .memUnstacking => 0x9200
  | .memDataAccess => 0x9200
  | .memInstructionAccess => 0x9200
  | .memFpLazy => 0x9200
  | .busGeneric => 0x9100
  | .busStacking => 0x9100
  | .busUnstacking => 0x9100
  | .busPreciseData => 0x9100
  | .busImpreciseData => 0x9100
  | .busInstruction => 0x9100
  | .busFpLazy => 0x9100
  | .usageGeneric => 0x9300
  | .usageDiv0 => 0x9300
  | .usageUnaligned => 0x9300
  | .usageNoCoprocessor => 0x9300
  | .usageIllegalExcReturn => 0x9300
  | .usageIllegalEpsr => 0x9300
  | .usageUndefinedInstruction => 0x9300
  | .usageStackOverflow => 0x800b
  | .secureGeneric => 0x9402
  | .secureEntryPoint => 0x9402
  | .secureIntegrity => 0x9402
  | .secureExceptionReturn => 0x9402
  | .secureAttribution => 0x9402
  | .secureTransition => 0x9402
  | .secureLazyPreservation => 0x9402
  | .secureLazyError => 0x9402

/-- `__wrap_z_fatal_error`, memfault_fault_handler.c:185-225, up to `memfault_coredump_save`. `regs`: the address of
the local variable `reg`. -/
def zephyrFatal (mem : Nat → Nat) (regs : Nat) (x : ExtraInfo) (reason : ZephyrReason) (mspNow pspNow : Nat) (s : CortexM.State) :
    CortexM.State × CortexM.Regs × Nat × Nat :=
  CortexM.faultHandler (Spec.CortexM.store mem regs (armRegs x)) regs (zephyrReason reason) mspNow pspNow s

/-! ## Zephyr, RISC-V -/

/-- The exception stack frame of Zephyr on RISC-V; `t0` … `t6` and `a0` … `a7` by their numbers. -/
structure RiscvEsf where
  mepc : Nat
  ra : Nat
  /-- only with CONFIG_USERSPACE -/
  sp : Nat
  t : Nat → Nat
  s0 : Nat
  a : Nat → Nat
  mstatus : Nat

/-- `reg` of `__wrap_z_fatal_error`, memfault_fault_handler_riscv.c:53-93; `e`: CONFIG_RISCV_ISA_RV32E. What is not
set is zero. -/
def riscvRegs (userspace e : Bool) (f : RiscvEsf) : RiscvRegs where
  mepc := f.mepc
  ra := f.ra
  sp := if userspace then f.sp else f.s0
  gp := 0
  tp := 0
  t i := if i < (if e then 3 else 7) then f.t i else 0
  s i := if i = 0 then f.s0 else 0
  a i := if i < (if e then 6 else 8) then f.a i else 0
  mstatus := f.mstatus
  mtvec := 0
  mcause := 0
  mtval := 0
  mhartid := 0

/-- `__wrap_z_fatal_error`, memfault_fault_handler_riscv.c:43-96, up to `memfault_coredump_save`. -/
def riscvFatal (userspace e : Bool) (f : RiscvEsf) (s : CortexAR.State) : CortexAR.State × Nat × Nat :=
  FaultArch.faultRiscv (riscvRegs userspace e f) 0x9400 s

/-! ## ESP8266 -/

/-- `XtExcFrame`, memfault_fault_handler.c:16-38; `a0` … `a15` by their numbers. -/
structure Lx106Frame where
  pc : Nat
  ps : Nat
  a : Nat → Nat
  sar : Nat
  exccause : Nat

/-- `regs` of `__wrap_panicHandler`, memfault_fault_handler.c:73-107, without loop registers (the processor has none).
`PS_EXCM_MASK` is bit 4. -/
def lx106Regs (f : Lx106Frame) : XtensaRegs where
  collectionType := 2
  pc := f.pc
  ps := f.ps &&& 0xffffffef
  a i := if i < 16 then f.a i else 0
  sar := f.sar
  lbeg := 0
  lend := 0
  lcount := 0
  exccause := f.exccause
  excvaddr := 0

/-- `s_coredump_save_in_progress` and the rest. -/
structure Esp8266 where
  inProgress : Bool
  crash : CortexAR.State

/-- `__wrap_panicHandler`, memfault_fault_handler.c:56-116, up to `memfault_coredump_save`, or without it: the state and
what is given to the coredump (registers, trace reason, stack address). -/
def panicHandler (f : Lx106Frame) (s : Esp8266) : Option (Esp8266 × Option (XtensaRegs × Nat × Nat)) :=
  if !s.inProgress then
    (FaultArch.faultXtensa [lx106Regs f] 0 0x9400 s.crash).map fun r =>
      (⟨true, r.1⟩, some (lx106Regs f, r.2.1, r.2.2))
  else some (s, none)

/-- `memfault_fault_handling_assert` and `memfault_fault_handling_assert_extra`, memfault_fault_handler.c:43-50: nothing but
`abort`, which leads to the panic handler. -/
def assertEsp8266 (_pc _lr _reason : Nat) (s : Esp8266) : Esp8266 := s

/-- Panics one inside the other: each one while the coredump of the one before it is being saved. -/
def panics (s : Esp8266) : List Lx106Frame → Option (Esp8266 × List (XtensaRegs × Nat × Nat))
  | [] => some (s, [])
  | f :: fs => (panicHandler f s).bind fun r => (panics r.1 fs).map fun q => (q.1, r.2.toList ++ q.2)

/-! ## Mynewt -/

/-- `s_reboot_reason` of memfault_platform_port.c:170 and the rest. -/
structure Mynewt where
  reason : Nat
  crash : CortexM.State

/-- After startup, memfault_platform_port.c:170: `kMfltRebootReason_UnknownError`. -/
def Mynewt.init (t : RebootTracking.State) : Mynewt := ⟨0x8000, ⟨0, t⟩⟩

/-- `os_assert_cb`, memfault_platform_port.c:173-175: Mynewt calls it when an assertion fails, and then raises an NMI. -/
def osAssert (s : Mynewt) : Mynewt := { s with reason := 0x8001 }

/-- `prv_resolve_reason_from_active_isr`, memfault_platform_port.c:178-198; `xpsr`: the program status register now. -/
def mynewtReason (xpsr : Nat) : Nat :=
  match xpsr &&& 0xff with
  | 2 => 0x8004
  | 3 => 0x9400
  | 4 => 0x9200
  | 5 => 0x9100
  | 6 => 0x9300
  | _ => 0x9400

/-- `os_coredump_cb`, memfault_platform_port.c:200-206, up to `memfault_coredump_save`; `tf`: the address of the trap
frame. -/
def osCoredump (mem : Nat → Nat) (tf xpsr mspNow pspNow : Nat) (s : Mynewt) : Mynewt × CortexM.Regs × Nat × Nat :=
  let reason := if s.reason = 0x8000 then mynewtReason xpsr else s.reason
  let r := CortexM.faultHandler mem tf reason mspNow pspNow s.crash
  (⟨reason, r.1⟩, r.2)

end Mflt.PortFaults
