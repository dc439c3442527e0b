import Verif.Model.Mem

/-! # Specification: base64 of RFC 4648 section 4 -/

namespace Mflt.Spec.Base64

/-- The alphabet: A-Z, a-z, 0-9, +, /. -/
def letter (n : Nat) : UInt8 :=
  if n < 26 then UInt8.ofNat (65 + n)
  else if n < 52 then UInt8.ofNat (97 + (n - 26))
  else if n < 62 then UInt8.ofNat (48 + (n - 52))
  else if n = 62 then 43 else 47

/-- Every 24-bit group becomes four letters; a final group of one or two bytes is zero-extended
and the missing letters are '='. -/
def encode : Bytes → Bytes
  | [] => []
  | [a] => [letter (a.toNat / 4), letter (a.toNat % 4 * 16), 61, 61]
  | [a, b] => [letter (a.toNat / 4), letter (a.toNat % 4 * 16 + b.toNat / 16),
      letter (b.toNat % 16 * 4), 61]
  | a :: b :: c :: r => [letter (a.toNat / 4), letter (a.toNat % 4 * 16 + b.toNat / 16),
      letter (b.toNat % 16 * 4 + c.toNat / 64), letter (c.toNat % 64)] ++ encode r

/-- Value of a letter. -/
def value (c : UInt8) : Option Nat :=
  if 65 ≤ c.toNat ∧ c.toNat ≤ 90 then some (c.toNat - 65)
  else if 97 ≤ c.toNat ∧ c.toNat ≤ 122 then some (c.toNat - 97 + 26)
  else if 48 ≤ c.toNat ∧ c.toNat ≤ 57 then some (c.toNat - 48 + 52)
  else if c.toNat = 43 then some 62
  else if c.toNat = 47 then some 63
  else none

/-- A reader: groups of four letters, padding only in the last group. -/
def decode : Bytes → Option Bytes
  | [] => some []
  | w :: x :: y :: z :: r => do
    let vw ← value w
    let vx ← value x
    if z = 61 then
      if r ≠ [] then none
      else if y = 61 then
        return [UInt8.ofNat (vw * 4 + vx / 16)]
      else do
        let vy ← value y
        return [UInt8.ofNat (vw * 4 + vx / 16), UInt8.ofNat (vx % 16 * 16 + vy / 4)]
    else do
      let vy ← value y
      let vz ← value z
      let rest ← decode r
      return UInt8.ofNat (vw * 4 + vx / 16) :: UInt8.ofNat (vx % 16 * 16 + vy / 4) ::
        UInt8.ofNat (vy % 4 * 64 + vz) :: rest
  | _ => none

end Mflt.Spec.Base64
