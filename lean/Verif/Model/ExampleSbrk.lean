import Verif.Spec.ExampleSbrk

/-!
# Model of growing the heap of the FreeRTOS example

`_sbrk`, `examples/freertos/src/main.c`, on a device with 32-bit pointers. Simplification: arithmetic on pointers outside of the
heap, which C leaves undefined, wraps as on the device.
-/

namespace Mflt.ExampleSbrk

/-- `_sbrk`, main.c:102-121. `heapEnd`: the static variable, 0 at first. The results are its new value and the return value. -/
def sbrk (heapBottom heapTop heapEnd incr : BitVec 32) : BitVec 32 × BitVec 32 :=
  let heapEnd := if heapEnd = 0 then heapBottom else heapEnd
  if heapTop < heapEnd + incr then (heapEnd, -1#32) else (heapEnd + incr, heapEnd)

/-- One request after the other: the return values. -/
def calls (heapBottom heapTop : BitVec 32) : BitVec 32 → List (BitVec 32) → List (BitVec 32)
  | _, [] => []
  | heapEnd, i :: l =>
    (sbrk heapBottom heapTop heapEnd i).2 :: calls heapBottom heapTop (sbrk heapBottom heapTop heapEnd i).1 l

end Mflt.ExampleSbrk
