import Verif.Model.BuildId

/-!
# Specification: build id in hexadecimal, and a version that is chosen once

From the model only the record of the build id is used.
-/

namespace Mflt.Spec.BuildId

open Mflt.BuildId (Id)

/-- "0123456789abcdef". -/
def digits : Bytes :=
  [0x30, 0x31, 0x32, 0x33, 0x34, 0x35, 0x36, 0x37, 0x38, 0x39, 0x61, 0x62, 0x63, 0x64, 0x65, 0x66]

def digit (n : Nat) : UInt8 := digits.getD n 0

/-- Hexadecimal text, two digits per byte, high one first. -/
def hex (bs : Bytes) : Bytes := bs.flatMap fun b => [digit (b.toNat / 16), digit (b.toNat % 16)]

/-- Value of a hexadecimal digit. -/
def undigit (c : UInt8) : Option Nat := digits.findIdx? (· == c)

/-- Reader of hexadecimal text. -/
def unhex : Bytes → Option Bytes
  | [] => some []
  | a :: b :: rest =>
    (undigit a).bind fun x => (undigit b).bind fun y => (unhex rest).map fun bs =>
      UInt8.ofNat (x * 16 + y) :: bs
  | _ => none

/-- Where a 20 byte build id is found. Type 3: at the start of its storage. Type 2: behind the name in
an ELF note, which begins with the size of the name in little-endian. -/
inductive HasId : Id → Bytes → Prop
  | memfault (id rest : Bytes) (h : id.length = 20) : HasId ⟨3, id ++ rest⟩ id
  | gnu (n0 n1 n2 n3 : UInt8) (sizes name id rest : Bytes) (hs : sizes.length = 8)
      (hn : name.length = n0.toNat + 256 * n1.toNat + 65536 * n2.toNat + 16777216 * n3.toNat)
      (h : id.length = 20) :
      HasId ⟨2, [n0, n1, n2, n3] ++ sizes ++ name ++ id ++ rest⟩ id

/-- No build id was put into the binary. -/
def NoId (g : Id) : Prop := g.type ≠ 2 ∧ g.type ≠ 3

/-- The unique version: the version, a plus sign, six characters of the build id. -/
def unique (id : Option Bytes) (version : Bytes) : Bytes :=
  version ++ [0x2b] ++ match id with
    | some id => (hex id).take 6
    | none => [0x6e, 0x6f, 0x2d, 0x69, 0x64]

/-- A module that remembers the first version that fits `cap` bytes with its terminator. -/
def create (cap : Nat) (id : Option Bytes) (chosen version : Option Bytes) : Option Bytes :=
  match chosen, version with
  | some s, _ => some s
  | none, none => none
  | none, some v => if v.length + 1 + 6 + 1 ≤ cap then some (unique id v) else none

/-- The answers to a list of calls. -/
def answers (cap : Nat) (id : Option Bytes) : Option Bytes → List (Option Bytes) → List (Option Bytes)
  | _, [] => []
  | chosen, v :: vs => create cap id chosen v :: answers cap id (create cap id chosen v) vs

end Mflt.Spec.BuildId
