/-!
# What the registers of an ESP32 in a coredump taken with GDB are to be
-/

namespace Mflt.Spec.GdbXtensa

abbrev Text := List Char
abbrev Bytes := List UInt8

/-- The registers of a core. `others`: the 31 that a server sends after `ps` and that a coredump does not have. -/
structure Core where
  pc : BitVec 32
  ar : Nat → BitVec 32
  lbeg : BitVec 32
  lend : BitVec 32
  lcount : BitVec 32
  sar : BitVec 32
  windowbase : BitVec 32
  windowstart : BitVec 32
  configid0 : BitVec 32
  configid1 : BitVec 32
  ps : BitVec 32
  others : List (BitVec 32)

/-- In the order in which the server for the ESP32 sends registers. -/
def Core.sent (c : Core) : List (BitVec 32) :=
  c.pc :: ((List.range 64).map c.ar ++ [c.lbeg, c.lend, c.lcount, c.sar, c.windowbase, c.windowstart, c.configid0, c.configid1,
    c.ps] ++ c.others)

/-- In the order in which a coredump has them, after the word that says that all windows are there. -/
def Core.dumped (c : Core) : List (BitVec 32) :=
  0#32 :: c.pc :: c.ps :: ((List.range 64).map c.ar ++ [c.sar, c.lbeg, c.lend, c.lcount, c.windowbase, c.windowstart])

/-- Little-endian. -/
def bytes (w : BitVec 32) : Bytes :=
  [UInt8.ofNat w.toNat, UInt8.ofNat (w.toNat / 256), UInt8.ofNat (w.toNat / 65536), UInt8.ofNat (w.toNat / 16777216)]

/-- Two digits. -/
def hex (b : UInt8) : Text := ["0123456789abcdef".toList.getD (b.toNat / 16) '0', "0123456789abcdef".toList.getD (b.toNat % 16) '0']

/-- What GDB prints for a request of all registers; `extra`: digits of registers that the server has in addition. -/
def printed (words : List (BitVec 32)) (extra : Text) : Text :=
  "sending: \"g\"\nreceived: \"".toList ++ (words.flatMap bytes).flatMap hex ++ extra ++ "\"\n".toList

end Mflt.Spec.GdbXtensa
