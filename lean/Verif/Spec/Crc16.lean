import Verif.Model.Mem

/-!
# Specification: CRC-16/XMODEM

The textbook bit-serial shift register: generator polynomial x^16 + x^12 + x^5 + 1 (0x1021),
message bits most significant first, no reflection, no final exclusive-or.
-/

namespace Mflt.Spec.Crc16

/-- Shift one message bit into the register. -/
def shiftBit (reg : BitVec 16) (bit : Bool) : BitVec 16 :=
  if xor reg.msb bit then (reg <<< 1) ^^^ 0x1021#16 else reg <<< 1

/-- The bits of a byte, most significant first. -/
def bitsOf (b : UInt8) : List Bool :=
  [7, 6, 5, 4, 3, 2, 1, 0].map fun i => b.toBitVec.getLsbD i

/-- CRC of a byte string, starting from register contents `init`. -/
def crc (init : BitVec 16) (data : Bytes) : BitVec 16 :=
  (data.flatMap bitsOf).foldl shiftBit init

end Mflt.Spec.Crc16
