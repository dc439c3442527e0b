import Verif.Spec.Log

/-!
# Specification: how lines lie in memory

A line is a header byte, a length byte and that many bytes: a little-endian 32-bit time if there is
one, then the text. The header holds level (bits 0-2), type (bit 3), "has a time" (bit 4), sent
(bit 6) and read (bit 7).
-/

namespace Mflt.Log

open Spec.Log (Line Entry)

/-- The stored header byte of an entry. -/
def hdrOf (e : Entry) : UInt8 :=
  UInt8.ofNat (e.line.level + 8 * e.line.type + (if e.line.timestamp.isSome then 16 else 0) +
    (if e.sent then 64 else 0) + (if e.read then 128 else 0))

/-- The stored message of a line. -/
def body (l : Line) : Bytes :=
  (match l.timestamp with
    | some t => [UInt8.ofNat t, UInt8.ofNat (t / 2 ^ 8), UInt8.ofNat (t / 2 ^ 16), UInt8.ofNat (t / 2 ^ 24)]
    | none => []) ++ l.text

/-- The stored form of an entry. -/
def enc (e : Entry) : Bytes := hdrOf e :: UInt8.ofNat (body e.line).length :: body e.line

/-- The stored form of a log, oldest line first. -/
def encAll (es : List Entry) : Bytes := es.flatMap enc

end Mflt.Log
