import Verif.Spec.Crc16
import Verif.Spec.Varint

/-!
# Specification: the chunk format, from the receiver's side

As documented at the top of memfault_chunk_transport.c: the first chunk is `0x08 ‖ message ‖ crc`
if the message fits, else `0x48 ‖ varint(total length) ‖ data`; every further chunk is
`0xC0 ‖ varint(offset) ‖ data`, the last one `0x80 ‖ varint(offset) ‖ data ‖ crc`. The 16-bit CRC of
the message follows it, least significant byte first.
-/

namespace Mflt.Spec.Chunk

/-- Split the CRC off and check it. -/
def checkCrc (acc : Bytes) : Option Bytes :=
  let n := acc.length - 2
  let body := acc.take n
  match acc.drop n with
  | [lo, hi] => if lo.toNat + 256 * hi.toNat = (Crc16.crc 0 body).toNat then some body else none
  | _ => none

/-- Append continuation chunks to the bytes collected so far. Each has to carry the right offset,
and only the last one may (and must) say that no more data follows. -/
def collect (acc : Bytes) : List Bytes → Option Bytes
  | [] => none
  | [] :: _ => none
  | (h :: r) :: cs => do
    let (offset, data) ← Varint.decode r
    if offset ≠ acc.length then none
    else if h = 0x80 then
      if cs = [] then some (acc ++ data) else none
    else if h = 0xC0 then collect (acc ++ data) cs
    else none

/-- Reassemble a message from its chunks. -/
def reassemble : List Bytes → Option Bytes
  | (h :: r) :: cs =>
    if h = 0x08 then
      if cs = [] then checkCrc r else none
    else if h = 0x48 then do
      let (total, data) ← Varint.decode r
      let acc ← collect data cs
      if acc.length = total + 2 then checkCrc acc else none
    else none
  | _ => none

/-- The same for a receiver that is sent whole fixed-size buffers: in a message of several chunks it
ignores what follows the announced length and the CRC. -/
def reassemblePadded : List Bytes → Option Bytes
  | (h :: r) :: cs =>
    if h = 0x08 then
      if cs = [] then checkCrc r else none
    else if h = 0x48 then do
      let (total, data) ← Varint.decode r
      let acc ← collect data cs
      if total + 2 ≤ acc.length then checkCrc (acc.take (total + 2)) else none
    else none
  | _ => none

end Mflt.Spec.Chunk
