/-!
# A CMSIS pack

A pack has a description with the sources of the SDK and a list of all releases, the newest first. The description of the
latest release is on a server.
-/

namespace Mflt.Spec.CmsisPack

abbrev Text := List Char
abbrev Path := List Text

structure Release where
  version : Text
  date : Text
  deriving Repr, DecidableEq

/-- A text has a word in it. -/
def Has (w s : Text) : Prop := ∃ a b, s = a ++ w ++ b

/-- A number: digits, at least one. -/
def Number (s : Text) : Prop := s ≠ [] ∧ ∀ c ∈ s, '0' ≤ c ∧ c ≤ '9'

/-- A path in the pack, as text. -/
def name : Path → Text
  | [] => []
  | [p] => p
  | p :: q :: l => p ++ '/' :: name (q :: l)

/-- One use of the script, for a release. `status`: an error of the server, if there is one; otherwise it has what it was
given last, and the error 404 before that. `skip`: the user said that there may be no earlier release. `packOnly`: no
description is written. -/
structure Run where
  version : Text
  date : Text
  status : Option Nat
  skip : Bool
  packOnly : Bool

end Mflt.Spec.CmsisPack
