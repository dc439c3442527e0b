import Verif.Spec.MbedHexdump

/-!
# Model of the hex dump of the Mbed example

`examples/mbed/libraries/memfault/platform_reference_impl/memfault_platform_log.c`. Simplifications: the lines "Hexdump Start" and
"Hexdump End" are left out; a read beyond the parameter, which the language does not define, reads the stack.
-/

namespace Mflt.MbedHexdump

open Spec.MbedHexdump

/-- `max_bytes_per_line`, memfault_platform_log.c:70. -/
def maxBytesPerLine : Nat := (78 - 15) / 3

/-- The loop over the bytes and the end of the last line, memfault_platform_log.c:75-91; the number is
`bytes_on_current_line`. -/
def dump : List UInt8 → Nat → List Out
  | [], n => if n > 0 then [Out.newline] else []
  | b :: bs, n =>
    (if n = 0 then [Out.header] else []) ++
      Out.byte b :: if n + 1 = maxBytesPerLine then Out.newline :: dump bs 0 else dump bs (n + 1)

/-- The parameter `data`, four bytes at `sp` on the stack, lowest first, memfault_platform_log.c:63. -/
def pushParameter (m : Memory) (sp p : Nat) : Memory := fun a =>
  if sp ≤ a ∧ a < sp + 4 then UInt8.ofNat (p / 256 ^ (a - sp)) else m a

/-- `memfault_platform_hexdump`, memfault_platform_log.c:63-93: `byte_reader` is the address of the parameter. -/
def hexdump (m : Memory) (sp p len : Nat) : List Out :=
  dump ((List.range len).map fun i => pushParameter m sp p (sp + i)) 0

end Mflt.MbedHexdump
