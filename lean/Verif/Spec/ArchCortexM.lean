/-!
# Registers of a Cortex-M that the SDK looks at

From the architecture manuals of ARM: ICSR.VECTACTIVE are the nine lowest bits, the number of the exception that is handled, 0 for
none. Numbers below 16 are faults and calls, number `16 + n` is interrupt `n`. ARMv6-M and ARMv7-M have at most 240 interrupts, so
their largest number is 255; ARMv8-M has at most 480. SHCSR has in bits 16 to 19 the enables of the four configurable faults.
DHCSR has in bit 0 whether a debugger is attached.
-/

namespace Mflt.Spec.ArchCortexM

/-- The number of the exception that is handled. -/
def exceptionNumber (icsr : BitVec 32) : Nat := icsr.toNat % 512

/-- The code runs in the handler of an exception. -/
def InHandler (icsr : BitVec 32) : Prop := exceptionNumber icsr ≠ 0

end Mflt.Spec.ArchCortexM
