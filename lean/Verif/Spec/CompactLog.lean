import Verif.Spec.Cbor
import Verif.Model.CompactLog

/-!
# Specification: what a compact log says

A compact log is a CBOR array: the position of the format string in the table of format strings,
then the arguments. 64-bit integers are wrapped in an array of one element so that the receiver can
tell them from 32-bit ones. From the model only the type of the arguments is used.
-/

namespace Mflt.Spec.CompactLog

open Mflt.Spec.Cbor
open Mflt.CompactLog (Arg)

/-- What the receiver learns about an argument. -/
inductive Value
  | int32 (v : Int)
  | int64 (v : Int)
  | double (bits : Nat)
  | str (s : Bytes)
  deriving Repr, DecidableEq

/-- `"(null)"`. -/
def nullText : Bytes := [0x28, 0x6e, 0x75, 0x6c, 0x6c, 0x29]

/-- The value of an argument; a null pointer is reported like `printf` does. -/
def value : Arg → Value
  | .int32 v => .int32 v.toInt
  | .int64 v => .int64 v.toInt
  | .double b => .double b.toNat
  | .str none => .str nullText
  | .str (some s) => .str s

/-- A CBOR integer. -/
def readInt : Item → Option Int
  | .uint n => some n
  | .negint n => some (-1 - n)
  | _ => none

/-- How the receiver reads one argument. -/
def readValue : Item → Option Value
  | .uint n => some (.int32 n)
  | .negint n => some (.int32 (-1 - n))
  | .array [i] => (readInt i).map .int64
  | .float64 b => some (.double b)
  | .text s => some (.str s)
  | _ => none

/-- How the receiver reads a list of arguments. -/
def readValues : List Item → Option (List Value)
  | [] => some []
  | i :: is => (readValue i).bind fun v => (readValues is).map fun vs => v :: vs

/-- How the receiver reads a compact log: position of the format string, and arguments. -/
def readLog (bytes : Bytes) : Option (Nat × List Value) :=
  match decode bytes with
  | some (.array (.uint off :: is)) => (readValues is).map fun vs => (off, vs)
  | _ => none

/-- Arguments a C program can pass: strings end at their first NUL and are shorter than 4 GiB. -/
def ArgOk : Arg → Prop
  | .str (some s) => s.length < 4294967296 ∧ 0 ∉ s
  | _ => True

end Mflt.Spec.CompactLog
