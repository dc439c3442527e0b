/-!
# Model of the architecture code for Cortex-M

`components/core/src/arch_arm_cortex_m.c`. A register is its value at the time of the read.
-/

namespace Mflt.ArchCortexM

/-- `memfault_arch_is_inside_isr`, arch_arm_cortex_m.c:14-20; the parameter is the value of ICSR. -/
def isInsideIsr (icsr : BitVec 32) : Bool := icsr &&& 0xFF#32 != 0#32

/-- `memfault_arch_disable_configurable_faults`, arch_arm_cortex_m.c:22-28; the value of SHCSR before and after. -/
def disableConfigurableFaults (shcsr : BitVec 32) : BitVec 32 := shcsr &&& ~~~0x000F0000#32

/-- `memfault_platform_halt_if_debugging`, arch_arm_cortex_m.c:30-43: the breakpoints that are executed; the parameter is DHCSR. -/
def haltIfDebugging (dhcsr : BitVec 32) : List Nat := if dhcsr &&& 0x1#32 = 0#32 then [] else [77]

end Mflt.ArchCortexM
