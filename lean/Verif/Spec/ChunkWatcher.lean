/-!
# Running the commands that a device prints

A device prints a chunk as a command for a shell, between `echo \` and `print_chunk done`. A tool that shows the output of
the device finds the command, and runs it if the user agrees.
-/

namespace Mflt.Spec.ChunkWatcher

abbrev Text := List Char

/-- The start and the end of what is printed. -/
def start : Text := "echo \\".toList
def done : Text := "print_chunk done".toList

/-- The text that stands for a project key that was not set. -/
def noKey : Text := "<YOUR PROJECT KEY HERE>".toList

/-- A text has a word in it. -/
def Has (w s : Text) : Prop := ∃ a b, s = a ++ w ++ b

/-- A word is in a text, first after `pre`. -/
def FirstAt (w s pre : Text) : Prop := (∃ b, s = pre ++ w ++ b) ∧ ∀ a b, s = a ++ w ++ b → pre.length ≤ a.length

/-- The end of a line. -/
def EndOfLine (c : Char) : Prop := c = '\n' ∨ c = '\r'

/-- The lines of a text that are not empty. -/
inductive Lines : Text → List Text → Prop where
  | nil : Lines [] []
  | skip (c : Char) (s : Text) (l : List Text) : EndOfLine c → Lines s l → Lines (c :: s) l
  | line (p s : Text) (l : List Text) : p ≠ [] → (∀ c ∈ p, ¬ EndOfLine c) → (∀ c r, s = c :: r → EndOfLine c) →
    Lines s l → Lines (p ++ s) (p :: l)

/-- The script for a command: its lines, with the same ends. -/
def Script (cmd out : Text) : Prop := ∃ l, Lines cmd l ∧ out = l.flatMap fun p => p ++ ['\n']

/-- What the user is asked: whether to run a script; and whether it was run. -/
structure Ask where
  script : Text
  ran : Bool
  deriving Repr, DecidableEq

/-- Output with one command in it, as it is read: `reads` without the end, then `last`. -/
structure Printed where
  reads : List Text
  last : Text
  body : Text

/-- The whole text. -/
def Printed.text (p : Printed) : Text := p.reads.flatten ++ p.last

/-- The command is in the text, and its end is in the last part that is read. -/
def Printed.Ok (p : Printed) : Prop :=
  (∃ pre, FirstAt start p.text pre ∧ FirstAt done p.text (pre ++ start ++ p.body)) ∧ ¬ Has done p.reads.flatten

end Mflt.Spec.ChunkWatcher
