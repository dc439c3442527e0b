import Verif.Spec.ExampleStartup

/-!
# Model of the start and the console of the FreeRTOS example

`examples/freertos/boards/qemu_mps2_an386/startup.c`, and the same code for the board AN385. Simplifications: pointers are numbers of
words; a loop that takes more steps than `fuel` is `none`; the UART is a queue of bytes of which the first is ready.
-/

namespace Mflt.ExampleStartup

open Spec.ExampleStartup

/-- A write to memory. -/
def write (m : Memory) (a : Nat) (v : BitVec 32) : Memory := fun b => if b = a then v else m b

/-- The first loop of `prv_cinit`, startup.c:94-96. -/
def copyData (edata : Nat) : Nat → Nat → Nat → Memory → Option Memory
  | 0, _, _, _ => none
  | fuel + 1, dst, src, m => if dst < edata then copyData edata fuel (dst + 1) (src + 1) (write m dst (m src)) else some m

/-- The second loop of `prv_cinit`, startup.c:99-101. -/
def zeroBss (bssEnd : Nat) : Nat → Nat → Memory → Option Memory
  | 0, _, _ => none
  | fuel + 1, dst, m => if dst < bssEnd then zeroBss bssEnd fuel (dst + 1) (write m dst 0#32) else some m

/-- `prv_cinit`, startup.c:91-102. -/
def cinit (l : Layout) (fuel : Nat) (m : Memory) : Option Memory :=
  (copyData l.edata fuel l.sdata l.sidata m).bind fun m => zeroBss l.bssEnd fuel l.bssStart m

/-- The two assignments to `data`, startup.c:46-47. -/
def remap (data : UInt8) : UInt8 :=
  let data := if data = 0x7F then 8 else data
  if data = 0x7E then 0x7F else data

/-- `_read`, startup.c:40-54: the bytes in the buffer, as many as are returned, and the bytes that the UART has left. -/
def read : Nat → List UInt8 → List UInt8 × List UInt8
  | 0, uart => ([], uart)
  | _ + 1, [] => ([], [])
  | len + 1, b :: uart => (remap b :: (read len uart).1, (read len uart).2)

end Mflt.ExampleStartup
