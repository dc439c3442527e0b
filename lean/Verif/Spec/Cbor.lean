import Verif.Model.Mem

/-!
# Specification: CBOR (RFC 7049), the part without tags and indefinite lengths

Data items and a reader. The reader is written from the RFC and shares nothing with the encoder.
-/

namespace Mflt.Spec.Cbor

/-- Data items. `negint n` is the integer -1 - n. A map is a list of alternating keys and values. -/
inductive Item
  | uint (n : Nat)
  | negint (n : Nat)
  | bytes (b : Bytes)
  | text (b : Bytes)
  | array (items : List Item)
  | map (kvs : List Item)
  | simple (n : Nat)
  | float64 (bits : Nat)
  deriving Repr, BEq

/-- `null` of RFC 7049 section 2.3. -/
def Item.null : Item := .simple 22

/-- The integer item for a number. -/
def Item.int (i : Int) : Item := if 0 ≤ i then .uint i.toNat else .negint (-1 - i).toNat

/-- Big-endian value. -/
def beNat (bs : Bytes) : Nat := bs.foldl (fun acc b => acc * 256 + b.toNat) 0

/-- The first `n` bytes and the rest. -/
def splitBytes (n : Nat) (bs : Bytes) : Option (Bytes × Bytes) :=
  if n ≤ bs.length then some (bs.take n, bs.drop n) else none

/-- The head of a data item: major type, additional information, argument, remaining bytes. -/
def head : Bytes → Option (Nat × Nat × Nat × Bytes)
  | [] => none
  | b :: bs =>
    let major := b.toNat / 32
    let info := b.toNat % 32
    if info < 24 then some (major, info, info, bs)
    else if info = 24 then (splitBytes 1 bs).map fun (a, r) => (major, info, beNat a, r)
    else if info = 25 then (splitBytes 2 bs).map fun (a, r) => (major, info, beNat a, r)
    else if info = 26 then (splitBytes 4 bs).map fun (a, r) => (major, info, beNat a, r)
    else if info = 27 then (splitBytes 8 bs).map fun (a, r) => (major, info, beNat a, r)
    else none

/-- Read `n` consecutive data items. The first argument bounds the recursion (items plus nesting
never exceed the number of bytes, see `decode`). -/
def decodeSeq : Nat → Nat → Bytes → Option (List Item × Bytes)
  | 0, _, _ => none
  | _ + 1, 0, bs => some ([], bs)
  | fuel + 1, n + 1, bs => do
    let (major, info, arg, r) ← head bs
    let (item, r) ←
      if major = 0 then some (Item.uint arg, r)
      else if major = 1 then some (Item.negint arg, r)
      else if major = 2 then (splitBytes arg r).map fun (b, r) => (Item.bytes b, r)
      else if major = 3 then (splitBytes arg r).map fun (b, r) => (Item.text b, r)
      else if major = 4 then (decodeSeq fuel arg r).map fun (l, r) => (Item.array l, r)
      else if major = 5 then (decodeSeq fuel (2 * arg) r).map fun (l, r) => (Item.map l, r)
      else if major = 7 then
        if info < 24 then some (Item.simple info, r)
        else if info = 27 then some (Item.float64 arg, r)
        else none
      else none
    let (items, r) ← decodeSeq fuel n r
    return (item :: items, r)

/-- Read one data item that fills the input exactly. -/
def decode (bs : Bytes) : Option Item :=
  match decodeSeq (bs.length + 1) 1 bs with
  | some ([item], []) => some item
  | _ => none

end Mflt.Spec.Cbor
