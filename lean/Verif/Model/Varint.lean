import Verif.Model.Mem

/-!
# Model of `components/util/src/memfault_varint.c`

`uint32_t` values are naturals below 2^32 manipulated with the same bit operations; the signed
variant works on `BitVec 32`.
-/

namespace Mflt.Varint

/-- The loop and final store of `memfault_encode_varint_u32`, memfault_varint.c:8-18. The result
is the list of bytes stored through `res`, in order. `fuel` bounds the number of loop iterations;
`none` would be a loop that has not ended. -/
def encodeLoop : Nat → Nat → Option Bytes
  | 0, _ => none
  | fuel + 1, value =>
    if value ≥ 128 then do
      let rest ← encodeLoop fuel (value >>> 7)
      return UInt8.ofNat (0x80 ||| (value &&& 0x7f)) :: rest
    else some [UInt8.ofNat (value &&& 0xff)]

/-- `memfault_encode_varint_u32`, memfault_varint.c:8-18: the bytes written; the return value is
their number. Five is `MEMFAULT_UINT32_MAX_VARINT_LENGTH` (util/varint.h), the size of the buffers
callers provide, so `none` also covers an overflow of such a buffer. -/
def encodeU32 (value : BitVec 32) : Option Bytes := encodeLoop 5 value.toNat

/-- `memfault_encode_varint_si32`, memfault_varint.c:20-33. `value >> 31` on `int32_t` is an
arithmetic shift on every supported compiler. -/
def encodeSi32 (value : BitVec 32) : Option Bytes :=
  encodeU32 ((value <<< 1) ^^^ (value.sshiftRight 31))

end Mflt.Varint
