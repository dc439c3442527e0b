/-!
# Memory and resets of the boards that QEMU emulates for the FreeRTOS example
-/

namespace Mflt.Spec.QemuPlatform

/-- A region of memory that may be read. -/
structure Region where
  start : Nat
  length : Nat

/-- The address is in the region. -/
def Region.Has (r : Region) (a : Nat) : Prop := r.start ≤ a ∧ a < r.start + r.length

/-- The memory of the boards AN385 and AN386: 8 MB. -/
def board385 : Region := ⟨0x20000000, 0x800000⟩

/-- The memory of the board AN505 that is collected: 64 kB. -/
def board505 : Region := ⟨0x38000000, 0x10000⟩

/-- What resets the chip, according to the application note AN385. -/
inductive Cause where
  | powerOn | softwareRequest | watchdog | lockup
  deriving DecidableEq, Repr

/-- What the chip does at a reset to the register that keeps the causes: power on clears it, the others set their bit. -/
def resetRegister : Cause → BitVec 32 → BitVec 32
  | .powerOn, _ => 0#32
  | .softwareRequest, r => r ||| 1#32
  | .watchdog, r => r ||| 2#32
  | .lockup, r => r ||| 4#32

/-- What the chip does at a write to the register: any write clears the causes. -/
def writeRegister (_ : BitVec 32) : BitVec 32 := 0#32

/-- The code of a reset in Memfault. -/
def code : Cause → Nat
  | .powerOn => 0x0007
  | .softwareRequest => 0x0008
  | .watchdog => 0x8005
  | .lockup => 0x9401

end Mflt.Spec.QemuPlatform
