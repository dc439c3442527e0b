import Verif.Model.Mem

/-!
# Model of `components/util/src/memfault_base64.c`

Buffers are byte lists; an access outside a buffer is `none`. 32-bit words are naturals (every
value computed here is below 2^24).
-/

namespace Mflt.Base64

/-- `MEMFAULT_BASE64_ENCODE_LEN`, util/base64.h:19. -/
def encodeLen (binLen : Nat) : Nat := 4 * ((binLen + 2) / 3)

/-- `base64_table`, memfault_base64.c:12, as ASCII codes. -/
def table : Bytes :=
  "ABCDEFGHIJKLMNOPQRSTUVWXYZabcdefghijklmnopqrstuvwxyz0123456789+/".toUTF8.toList

/-- `prv_get_char_from_word`, memfault_base64.c:11-15; `none` would be an out-of-bounds table
access. -/
def getChar (word offset : Nat) : Option UInt8 := table[(word >>> (offset * 6)) &&& 0x3f]?

/-- ASCII '='. -/
def pad : UInt8 := 61

/-- The loop of `memfault_base64_encode`, memfault_base64.c:23-33. `fuel` bounds the iterations. -/
def encodeLoop (inp : Bytes) : Nat → Nat → Nat → Bytes → Option Bytes
  | 0, _, _, _ => none
  | fuel + 1, binIdx, currIdx, out =>
    if binIdx < inp.length then do
      let byte0 ← inp[binIdx]?
      let byte1 ← if binIdx + 1 < inp.length then inp[binIdx + 1]? else some 0
      let byte2 ← if binIdx + 2 < inp.length then inp[binIdx + 2]? else some 0
      let triple := (byte0.toNat <<< 16) + (byte1.toNat <<< 8) + byte2.toNat
      let out ← memcpyIn out currIdx [← getChar triple 3]
      let out ← memcpyIn out (currIdx + 1) [← getChar triple 2]
      let out ← memcpyIn out (currIdx + 2)
        [← if binIdx + 1 < inp.length then getChar triple 1 else some pad]
      let out ← memcpyIn out (currIdx + 3)
        [← if binIdx + 2 < inp.length then getChar triple 0 else some pad]
      encodeLoop inp fuel (binIdx + 3) (currIdx + 4) out
    else some out

/-- `memfault_base64_encode`, memfault_base64.c:17-34: new contents of the output buffer.
Simplification: `curr_idx` is an unbounded index (it is an `int` in C, so this is the behaviour for
outputs below 2^31 bytes). -/
def encode (inp out : Bytes) : Option Bytes := encodeLoop inp (inp.length + 1) 0 0 out

/-- Conversion of a `size_t`/`uint32_t` to `int` on a 32-bit target. -/
def toI32 (n : Nat) : Int := Int.bmod n (2 ^ 32)

/-- Read of `buf[i]` for an `int` index; `none` outside the buffer. -/
def readAt (buf : Bytes) (i : Int) : Option UInt8 := if 0 ≤ i then buf[i.toNat]? else none

/-- Store to `buf[i]` for an `int` index; `none` outside the buffer. -/
def writeAt (buf : Bytes) (i : Int) (b : UInt8) : Option Bytes :=
  if 0 ≤ i then memcpyIn buf i.toNat [b] else none

/-- The loop of `memfault_base64_encode_inplace`, memfault_base64.c:52-62. -/
def inplaceLoop (binLen : Int) : Nat → Int → Int → Bytes → Option Bytes
  | 0, _, _, _ => none
  | fuel + 1, binIdx, currIdx, buf =>
    if binIdx ≥ 0 then do
      let byte0 ← readAt buf binIdx
      let byte1 ← if binIdx + 1 < binLen then readAt buf (binIdx + 1) else some 0
      let byte2 ← if binIdx + 2 < binLen then readAt buf (binIdx + 2) else some 0
      let triple := (byte0.toNat <<< 16) + (byte1.toNat <<< 8) + byte2.toNat
      let buf ← writeAt buf currIdx (← if binIdx + 2 < binLen then getChar triple 0 else some pad)
      let buf ← writeAt buf (currIdx - 1)
        (← if binIdx + 1 < binLen then getChar triple 1 else some pad)
      let buf ← writeAt buf (currIdx - 2) (← getChar triple 2)
      let buf ← writeAt buf (currIdx - 3) (← getChar triple 3)
      inplaceLoop binLen fuel (binIdx - 3) (currIdx - 4) buf
    else some buf

/-- `memfault_base64_encode_inplace`, memfault_base64.c:36-63, on a 32-bit target: `size_t`
arithmetic wraps modulo 2^32 (relevant for `bin_len - 3` with an empty input). -/
def encodeInplace (buf : Bytes) (binLen : Nat) : Option Bytes :=
  let remainder := binLen % 3
  let startIdx := if remainder = 0 then (binLen + 2 ^ 32 - 3) % 2 ^ 32 else binLen - remainder
  let encodedLen := encodeLen binLen
  inplaceLoop (toI32 binLen) (binLen + 1) (toI32 startIdx) (toI32 encodedLen - 1) buf

end Mflt.Base64
