/-!
# What a hex dump on Mbed is to print
-/

namespace Mflt.Spec.MbedHexdump

/-- What is printed. -/
inductive Out where
  | header
  | byte (b : UInt8)
  | newline
  deriving DecidableEq, Repr

/-- Memory, by address. -/
abbrev Memory := Nat → UInt8

/-- A line. -/
def line (bytes : List UInt8) : List Out := Out.header :: bytes.map Out.byte ++ [Out.newline]

/-- The bytes that are printed. -/
def bytesOf (out : List Out) : List UInt8 := out.filterMap fun
  | .byte b => some b
  | _ => none

/-- The bytes of the caller. -/
def data (m : Memory) (p len : Nat) : List UInt8 := (List.range len).map fun i => m (p + i)

end Mflt.Spec.MbedHexdump
