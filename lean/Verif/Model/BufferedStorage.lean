import Verif.Model.Mem
import Verif.Model.U32

/-!
# Model of `ports/include/memfault/ports/buffered_coredump_storage.h`

`W` is MEMFAULT_COREDUMP_STORAGE_WRITE_SIZE. `memfault_platform_coredump_storage_buffered_write`, which
the port provides, writes one block; it is given by the blocks it accepts, depending on the ones written
before. 32-bit `size_t`. Simplification: the four lines that put data into a working buffer and try to
flush, which the file has twice, are one definition (`put`).
-/

namespace Mflt.BufferedStorage

/-- `struct CoredumpWorkingBuffer`, buffered_coredump_storage.h:69-77. -/
structure Buf where
  data : Bytes
  writeOffset : Nat
  bytesWritten : Nat
  deriving Repr, DecidableEq

/-- The working buffers, buffered_coredump_storage.h:79-80, and the blocks written so far. -/
structure State where
  hdr : Buf
  dat : Buf
  log : List (Nat × Bytes)
  deriving Repr, DecidableEq

/-- `(sCoredumpWorkingBuffer){ 0 }`. -/
def zeroBuf (W : Nat) : Buf := ⟨List.replicate W 0, 0, 0⟩

/-- After a reset. -/
def init (W : Nat) : State := ⟨zeroBuf W, zeroBuf W, []⟩

/-- Whether the port writes a block, given the blocks written before. -/
abbrev Port := List (Nat × Bytes) → Nat × Bytes → Bool

/-- `prv_write_blk(&s_working_buffer_header)`, buffered_coredump_storage.h:86-92. -/
def writeHdr (W : Nat) (port : Port) (s : State) : Bool × State :=
  if !port s.log (s.hdr.writeOffset, s.hdr.data) then (false, s)
  else (true, { s with hdr := zeroBuf W, log := s.log ++ [(s.hdr.writeOffset, s.hdr.data)] })

/-- `prv_write_blk(&s_working_buffer)`, buffered_coredump_storage.h:86-92. -/
def writeDat (W : Nat) (port : Port) (s : State) : Bool × State :=
  if !port s.log (s.dat.writeOffset, s.dat.data) then (false, s)
  else (true, { s with dat := zeroBuf W, log := s.log ++ [(s.dat.writeOffset, s.dat.data)] })

/-- The last part of `prv_try_flush`, buffered_coredump_storage.h:117-123. -/
def flushFullDat (W : Nat) (port : Port) (s : State) : Bool × State :=
  if s.dat.bytesWritten = W then writeDat W port s else (true, s)

/-- `prv_try_flush`, buffered_coredump_storage.h:94-123. -/
def tryFlush (W : Nat) (port : Port) (s : State) : Bool × State :=
  if s.hdr.bytesWritten = W then
    match (if s.dat.bytesWritten ≠ 0 then writeDat W port s else (true, s)) with
    | (false, s) => (false, s)
    | (true, s) =>
      match writeHdr W port s with
      | (false, s) => (false, s)
      | (true, s) => flushFullDat W port s
  else flushFullDat W port s

/-- `prv_get_working_buf`, buffered_coredump_storage.h:82-84, and the use made of it,
buffered_coredump_storage.h:143-151 and 162-168: `data` is put into the working buffer of the block at
`page`, at index `at`. `none` is a write outside of the buffer. -/
def put (W : Nat) (port : Port) (s : State) (page idx : Nat) (data : Bytes) : Option (Bool × State) :=
  if page = 0 then
    (memcpyIn s.hdr.data idx data).map fun d =>
      tryFlush W port { s with hdr := ⟨d, page, add32 s.hdr.bytesWritten data.length⟩ }
  else
    (memcpyIn s.dat.data idx data).map fun d =>
      tryFlush W port { s with dat := ⟨d, page, add32 s.dat.bytesWritten data.length⟩ }

/-- The loop, buffered_coredump_storage.h:160-172: `i` counts the bytes of `data` that are done. `none`:
undefined behaviour, or a loop that does not end. -/
def loop (W : Nat) (port : Port) (startAddr : Nat) (data : Bytes) :
    Nat → State → Nat → Option (Bool × State)
  | fuel, s, i =>
    if i < data.length then
      match fuel with
      | 0 => none
      | fuel + 1 =>
        match put W port s (startAddr + i) 0 ((data.drop i).take (min W (data.length - i))) with
        | none => none
        | some (false, s) => some (false, s)
        | some (true, s) => loop W port startAddr data fuel s (i + W)
    else some (true, s)

/-- `memfault_coredump_storage_buffered_write`, buffered_coredump_storage.h:125-172. -/
def bufferedWrite (W size : Nat) (port : Port) (s : State) (offset : Nat) (data : Bytes) :
    Option (Bool × State) :=
  if add32 offset data.length > size ∨ size % W ≠ 0 ∨ size < W then some (false, s)
  else
    let page := offset / W * W
    if page ≠ offset then
      let n := min (page + W - offset) data.length
      match put W port s page (offset - page) (data.take n) with
      | none => none
      | some (false, s) => some (false, s)
      | some (true, s) => loop W port (offset + n) (data.drop n) (data.length + 1) s 0
    else loop W port offset data (data.length + 1) s 0

end Mflt.BufferedStorage
