/-!
# What the examples with libcurl are to ask a server for
-/

namespace Mflt.Spec.CurlExamples

abbrev Text := List Char
abbrev Bytes := List UInt8

/-- The value of a hexadecimal digit in an address. -/
def hexValue (c : Char) : Option Nat :=
  if '0' ≤ c ∧ c ≤ '9' then some (c.toNat - 48)
  else if 'A' ≤ c ∧ c ≤ 'F' then some (c.toNat - 55)
  else if 'a' ≤ c ∧ c ≤ 'f' then some (c.toNat - 87)
  else none

/-- How a server reads a value in an address: `%` and two digits are a byte. -/
def decode : Text → Option Bytes
  | [] => some []
  | '%' :: a :: b :: s =>
    match hexValue a, hexValue b, decode s with
    | some x, some y, some r => some (UInt8.ofNat (16 * x + y) :: r)
    | _, _, _ => none
  | c :: s => if c = '%' then none else (decode s).map fun r => UInt8.ofNat c.toNat :: r

/-- The parts between separators. -/
def parts (sep : Char) (cur : Text) : Text → List Text
  | [] => [cur]
  | c :: s => if c = sep then cur :: parts sep [] s else parts sep (cur ++ [c]) s

/-- How a server reads a field: the name is what is before the first `=`. -/
def field (t : Text) : Option (Text × Bytes) :=
  (decode ((t.dropWhile fun c => c != '=').drop 1)).map fun v => (t.takeWhile fun c => c != '=', v)

/-- How a server reads an address: what is before the first `?`, and the fields after it, which are separated by `&`. A `#` ends
the address. -/
def parse (url : Text) : Text × List (Option (Text × Bytes)) :=
  let u := url.takeWhile fun c => c != '#'
  (u.takeWhile fun c => c != '?', (parts '&' [] ((u.dropWhile fun c => c != '?').drop 1)).map field)

/-- What came of a request: an error of libcurl (1 to 255), or a status of the server. -/
inductive Outcome where
  | error (code : Nat)
  | status (http : Nat)

end Mflt.Spec.CurlExamples
