/-!
# An Arduino library

An Arduino library has its sources below `src`, which is the only place where headers are looked for, and every `.c` and
`.cpp` file in it is compiled.
-/

namespace Mflt.Spec.ArduinoLibrary

abbrev Text := List Char
abbrev Path := List Text

/-- A file: its path and what is in it. -/
abbrev File := Path × Text

def Space (c : Char) : Prop := c ∈ [' ', '\t', '\n', '\r', Char.ofNat 11, Char.ofNat 12]

/-- An include of a header of the SDK, as it is written in the SDK. -/
def oldInclude (w : Char) : Text := "#include".toList ++ w :: "\"memfault/".toList

/-- The same include in the library. -/
def newInclude : Text := "#include \"memfault-firmware-sdk/components/include/memfault/".toList

/-- A text starts with such an include. -/
def Starts (s : Text) : Prop := ∃ w rest, Space w ∧ s = oldInclude w ++ rest

/-- A text where all such includes were replaced and nothing else. -/
inductive Replaced : Text → Text → Prop
  | done : Replaced [] []
  | keep (c : Char) (s t : Text) : ¬ Starts (c :: s) → Replaced s t → Replaced (c :: s) (c :: t)
  | swap (w : Char) (s t : Text) : Space w → Replaced s t → Replaced (oldInclude w ++ s) (newInclude ++ t)

/-- The name of a path ends so. -/
def EndsWith (e : String) (p : Path) : Prop := e.toList <:+ p.getLastD []

/-- No part of the path is hidden. -/
def Visible (p : Path) : Prop := ∀ x ∈ p, x.head? ≠ some '.'

/-- Where the SDK is in the library. -/
def place (p : Path) : Path := "src".toList :: "memfault-firmware-sdk".toList :: p

/-- A path in a directory that the library does not take: examples, tests and ports (other than the part for panics). -/
def LeftOut (p : Path) : Prop :=
  (∃ d x rest, p = d :: x :: rest ∧ d ∈ [".circleci".toList, "examples".toList, "tests".toList]) ∨
    ∃ f x rest, p = "ports".toList :: f :: x :: rest ∧ f ≠ "panics".toList

end Mflt.Spec.ArduinoLibrary
