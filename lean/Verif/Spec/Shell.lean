import Verif.Model.Shell

/-!
# Specification: a line-oriented shell

From the model only the configuration and the observable events are used.
-/

namespace Mflt.Spec.Shell

open Mflt.Shell (Ev Config)

/-- Characters as sent to the terminal. -/
def text (b : Bytes) : List Ev := b.map .send

/-- The pieces between spaces. -/
def split : Bytes → List Bytes
  | [] => [[]]
  | c :: l =>
    if c = 32 then [] :: split l
    else match split l with
      | [] => [[c]]
      | w :: ws => (c :: w) :: ws

/-- The words of a line. -/
def words (l : Bytes) : List Bytes := (split l).filter (fun w => !w.isEmpty)

/-- A word as a C string: a NUL character ends it. -/
def cString (w : Bytes) : Bytes := w.takeWhile (· ≠ 0)

/-- At most the first sixteen words are arguments. -/
def arguments (l : Bytes) : List Bytes := ((words l).take 16).map cString

/-- The first command of that name. -/
def lookup (commands : List Bytes) (name : Bytes) : Option Nat := commands.findIdx? (· == name)

/-- "Unknown command: " -/
def unknown : Bytes := "Unknown command: ".toUTF8.toList
/-- "Type 'help' to list all commands" -/
def hint : Bytes := "Type 'help' to list all commands".toUTF8.toList
/-- "mflt> " -/
def prompt : Bytes := "mflt> ".toUTF8.toList

/-- What entering a line does: nothing without words; the command with its arguments, exactly once;
or a message. -/
def enter (commands : List Bytes) (l : Bytes) : List Ev :=
  match arguments l with
  | [] => []
  | name :: rest =>
    match lookup commands name with
    | some k => [.run k (name :: rest)]
    | none => text (unknown ++ name ++ [13, 10] ++ hint ++ [13, 10])

/-- Which end-of-line character counts. -/
inductive Eol
  /-- None seen yet. -/
  | open
  /-- Carriage return was first: line feeds are ignored. -/
  | cr
  /-- Line feed was first: carriage returns are ignored. -/
  | lf
  deriving Repr, DecidableEq

/-- The line being edited. -/
structure State where
  line : Bytes
  eol : Eol
  deriving Repr, DecidableEq

/-- Everything that happens at the end of a line. A line that fills the buffer gets one more line
break on the terminal. -/
def endLine (c : Config) (l : Bytes) (full : Bool) : List Ev :=
  (if full then text [13, 10] else []) ++ enter c.commands l ++ text prompt

/-- An end of line is entered. -/
def newline (c : Config) (s : State) (eol : Eol) : List Ev × State :=
  (text [13, 10] ++ endLine c s.line (s.line.length + 1 == c.size), { line := [], eol := eol })

/-- One character. An ordinary character that fills the last place of the buffer is lost and the
line is entered without it. -/
def key (c : Config) (s : State) (ch : UInt8) : List Ev × State :=
  if ch = 13 then
    if s.eol = .lf then ([], s) else newline c s .cr
  else if ch = 10 then
    if s.eol = .cr then ([], s) else newline c s .lf
  else if ch = 8 then
    if s.line = [] then ([], s)
    else (text [8, 32, 8], { s with line := s.line.dropLast })
  else if s.line.length + 1 < c.size then (text [ch], { s with line := s.line ++ [ch] })
  else (text [ch] ++ endLine c s.line true, { s with line := [] })

/-- A character stream. -/
def keys (c : Config) : State → Bytes → List Ev × State
  | s, [] => ([], s)
  | s, ch :: chs =>
    let (out, s) := key c s ch
    let (outs, s) := keys c s chs
    (out ++ outs, s)

/-! ### Whole lines -/

/-- The line that remains when the typed characters are edited with backspaces. -/
def edit (l : Bytes) : Bytes :=
  l.foldl (fun acc ch => if ch = 8 then acc.dropLast else acc ++ [ch]) []

/-- A typed line: no end-of-line characters, and the edited line stays shorter than the buffer at
all times. -/
def LineOk (size : Nat) (l : Bytes) : Prop :=
  13 ∉ l ∧ 10 ∉ l ∧ ∀ n, (edit (l.take n)).length < size

/-- The four end-of-line conventions. -/
def Convention (eol : Bytes) : Prop := eol = [13] ∨ eol = [10] ∨ eol = [13, 10] ∨ eol = [10, 13]

/-- What a terminal shows while a line is typed: every character, and for a backspace that deletes
something the character is wiped. -/
def typed (l : Bytes) : List Ev :=
  (List.range l.length).flatMap fun n =>
    match l[n]? with
    | none => []
    | some ch =>
      if ch = 8 then (if edit (l.take n) = [] then [] else text [8, 32, 8]) else text [ch]

end Mflt.Spec.Shell
