import Verif.Spec.QemuPlatform

/-!
# Model of the platform functions of the boards of the FreeRTOS example

`examples/freertos/boards/qemu_mps2_an385/memfault_platform_impl.c`; the board AN386 has the same code, and the board AN505 the same
`memfault_platform_sanitize_address_range` with another table. Addresses and sizes are numbers below `2 ^ 32`.
-/

namespace Mflt.QemuPlatform

open Spec.QemuPlatform

/-- The table of the boards AN385 and AN386, qemu_mps2_an385/memfault_platform_impl.c:28-33. -/
def regions385 : List Region := [⟨0x20000000, 0x800000⟩]

/-- The table of the board AN505, qemu_mps2_an505/memfault_platform_impl.c:30-35. -/
def regions505 : List Region := [⟨0x38000000, 64 * 1024⟩]

/-- `memfault_platform_sanitize_address_range`, qemu_mps2_an385/memfault_platform_impl.c:27-44; the first parameter is the table. -/
def sanitize : List Region → Nat → Nat → Nat
  | [], _, _ => 0
  | r :: rs, addr, desired =>
    let lower := r.start
    let upper := (lower + r.length) % 2 ^ 32
    if addr ≥ lower ∧ addr < upper then min desired (upper - addr) else sanitize rs addr desired

/-- `prv_decode_reboot_reg`, qemu_mps2_an385/memfault_platform_impl.c:63-77: the reason. -/
def decode (reg : BitVec 32) : Nat :=
  if reg &&& 1#32 ≠ 0#32 then 0x0008 else if reg &&& 2#32 ≠ 0#32 then 0x8005 else if reg &&& 4#32 ≠ 0#32 then 0x9401 else 0x0007

/-- `memfault_reboot_reason_get` with `prv_read_reboot_reg` and `prv_clear_reboot_reg`,
qemu_mps2_an385/memfault_platform_impl.c:48-58, 79-87: from the register, the value and the reason that are reported, and the
register after it. -/
def rebootReasonGet (hw : BitVec 32) : (BitVec 32 × Nat) × BitVec 32 :=
  let reg := hw &&& 0x07#32
  ((reg, decode reg), writeRegister 1#32)

/-- A device that is reset for each of the causes in turn and starts the SDK after each: the reasons that are reported. -/
def boots : List Cause → BitVec 32 → List Nat
  | [], _ => []
  | c :: cs, hw =>
    let hw := resetRegister c hw
    (rebootReasonGet hw).1.2 :: boots cs (rebootReasonGet hw).2

end Mflt.QemuPlatform
