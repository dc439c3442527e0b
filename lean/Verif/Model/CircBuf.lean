import Verif.Model.Mem

/-!
# Model of `components/util/src/memfault_circular_buffer.c`

Offsets and sizes (`size_t`) are `Nat`: sums are not reduced modulo `2^32`/`2^64`.
(The only place in the SDK passing an offset near `SIZE_MAX` is the log component,
which is treated separately in `Verif.Model.Log`.)
NULL-pointer arguments (each function returns `false` for them) are not modelled.
Every function returns `Option`: `none` stands for undefined behaviour (out of bounds
`memcpy`, or `% 0`).
-/

namespace Mflt

/-- `sMfltCircularBuffer`, components/include/memfault/util/circular_buffer.h:24-29. -/
structure CircBuf where
  readOffset : Nat
  readSize : Nat
  totalSpace : Nat
  storage : Bytes
deriving Repr, DecidableEq

namespace CircBuf

/-- `a % b` with division by zero as undefined behaviour. -/
def umod (a b : Nat) : Option Nat := if b = 0 then none else some (a % b)

/-- `memfault_circular_buffer_init`, memfault_circular_buffer.c:17-31. The storage area is
given by its length: it is `memset` to zero. Returns `none` for the `return false` branch. -/
def init (storageLen : Nat) : Option CircBuf :=
  if storageLen = 0 then none
  else some { readOffset := 0, readSize := 0, totalSpace := storageLen,
              storage := List.replicate storageLen 0 }

/-- `memfault_circular_buffer_read`, memfault_circular_buffer.c:33-57.
Outer `none`: undefined behaviour; inner `none`: `return false`. -/
def read (cb : CircBuf) (offset dataLen : Nat) : Option (Option Bytes) :=
  if cb.readSize < offset + dataLen then some none
  else do
    let readIdx ← umod (cb.readOffset + offset) cb.totalSpace
    let contiguous := cb.totalSpace - readIdx
    let bytesToRead := if contiguous > dataLen then dataLen else contiguous
    let first ← memcpyOut cb.storage readIdx bytesToRead
    let bytesRem := dataLen - bytesToRead
    if bytesRem ≠ 0 then
      let second ← memcpyOut cb.storage 0 bytesRem
      return some (first ++ second)
    else
      return some first

/-- `memfault_circular_buffer_get_read_pointer`, memfault_circular_buffer.c:59-76. The
returned pointer is the index into `storage`, with the length readable from it. -/
def getReadPointer (cb : CircBuf) (offset : Nat) : Option (Option (Nat × Nat)) :=
  if cb.readSize < offset then some none
  else do
    let readIdx ← umod (cb.readOffset + offset) cb.totalSpace
    let maxBytesToRead := cb.readSize - offset
    let contiguous := cb.totalSpace - readIdx
    return some (readIdx, min contiguous maxBytesToRead)

/-- The `while (bytes_left)` loop of `memfault_circular_buffer_read_with_callback`,
memfault_circular_buffer.c:94-108. The user callback and its context are `callback : σ →
Nat → Bytes → σ × Bool` (`dst_offset`, the pointed-to bytes); it is a pure function of its
arguments. `fuel` bounds the number of iterations: running out of it means that the C loop
would not have stopped within that many iterations and is reported as `none`.
Result: `(returned bool, context)`. -/
def readCallbackLoop {σ : Type} (cb : CircBuf) (offset dataLen : Nat)
    (callback : σ → Nat → Bytes → σ × Bool) : Nat → Nat → σ → Option (Bool × σ)
  | 0, bytesLeft, ctx => if bytesLeft = 0 then some (true, ctx) else none
  | fuel + 1, bytesLeft, ctx =>
    if bytesLeft = 0 then some (true, ctx)
    else
      let dstOffset := dataLen - bytesLeft
      match cb.getReadPointer (offset + dstOffset) with
      | none => none
      | some none => some (false, ctx)
      | some (some (readPtr, readPtrLen)) =>
        let bytesToRead := min bytesLeft readPtrLen
        match memcpyOut cb.storage readPtr bytesToRead with
        | none => none
        | some piece =>
          match callback ctx dstOffset piece with
          | (ctx', false) => some (false, ctx')
          | (ctx', true) =>
            readCallbackLoop cb offset dataLen callback fuel (bytesLeft - bytesToRead) ctx'

/-- `memfault_circular_buffer_read_with_callback`, memfault_circular_buffer.c:78-110.
`dataLen + 1` iterations are allowed (see `readCallbackLoop`). -/
def readWithCallback {σ : Type} (cb : CircBuf) (offset dataLen : Nat)
    (callback : σ → Nat → Bytes → σ × Bool) (ctx : σ) : Option (Bool × σ) :=
  if cb.readSize < offset + dataLen then some (false, ctx)
  else readCallbackLoop cb offset dataLen callback (dataLen + 1) dataLen ctx

/-- `memfault_circular_buffer_consume`, memfault_circular_buffer.c:112-124. -/
def consume (cb : CircBuf) (consumeLen : Nat) : Option (Bool × CircBuf) :=
  if cb.readSize < consumeLen then some (false, cb)
  else do
    let ro ← umod (cb.readOffset + consumeLen) cb.totalSpace
    return (true, { cb with readOffset := ro, readSize := cb.readSize - consumeLen })

/-- `memfault_circular_buffer_consume_from_end`, memfault_circular_buffer.c:126-138. -/
def consumeFromEnd (cb : CircBuf) (consumeLen : Nat) : Bool × CircBuf :=
  if cb.readSize < consumeLen then (false, cb)
  else (true, { cb with readSize := cb.readSize - consumeLen })

/-- `memfault_circular_buffer_get_write_size` / `prv_get_space_available`,
memfault_circular_buffer.c:140-150. -/
def getWriteSize (cb : CircBuf) : Nat := cb.totalSpace - cb.readSize

/-- `memfault_circular_buffer_get_read_size`, memfault_circular_buffer.c:198-203. -/
def getReadSize (cb : CircBuf) : Nat := cb.readSize

/-- `prv_write_at_offset_from_end`, memfault_circular_buffer.c:152-185 (and
`memfault_circular_buffer_write_at_offset`, 192-196). -/
def writeAtOffset (cb : CircBuf) (offsetFromEnd : Nat) (data : Bytes) :
    Option (Bool × CircBuf) :=
  if cb.readSize < offsetFromEnd then some (false, cb)
  else
    let newBytes := if data.length > offsetFromEnd then data.length - offsetFromEnd else 0
    if cb.getWriteSize < newBytes then some (false, cb)
    else do
      let writeIdx ← umod (cb.readOffset + cb.readSize - offsetFromEnd) cb.totalSpace
      let contiguous := cb.totalSpace - writeIdx
      let bytesToWrite := if contiguous > data.length then data.length else contiguous
      let st1 ← memcpyIn cb.storage writeIdx (data.take bytesToWrite)
      let bytesRem := data.length - bytesToWrite
      let st2 ← if bytesRem ≠ 0 then memcpyIn st1 0 (data.drop bytesToWrite) else some st1
      return (true, { cb with storage := st2, readSize := cb.readSize + newBytes })

/-- `memfault_circular_buffer_write`, memfault_circular_buffer.c:187-190. -/
def write (cb : CircBuf) (data : Bytes) : Option (Bool × CircBuf) := cb.writeAtOffset 0 data

end CircBuf
end Mflt
