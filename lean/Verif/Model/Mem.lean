/-!
# Memory primitives

`memcpy` on byte buffers.  A buffer is a `List UInt8`; an access outside of it is
undefined behaviour in C and is the distinct outcome `none` here.
-/

namespace Mflt

/-- Bytes of memory. -/
abbrev Bytes := List UInt8

/-- `memcpy(dst, &mem[idx], len)`: the bytes copied out of `mem`; `none` (undefined
behaviour) when the range is not inside the object. -/
def memcpyOut (mem : Bytes) (idx len : Nat) : Option Bytes :=
  if idx + len ≤ mem.length then some ((mem.drop idx).take len) else none

/-- `memcpy(&mem[idx], data, data_len)`: the new contents of `mem`; `none` (undefined
behaviour) when the range is not inside the object. -/
def memcpyIn (mem : Bytes) (idx : Nat) (data : Bytes) : Option Bytes :=
  if idx + data.length ≤ mem.length then
    some (mem.take idx ++ data ++ mem.drop (idx + data.length))
  else none

end Mflt
