/-!
# Posting chunks with GDB

A device under a debugger calls a function with each chunk. GDB stops in it, posts the chunk to the server, and lets the
device go on.
-/

namespace Mflt.Spec.GdbChunks

abbrev Text := List Char
abbrev Byte := BitVec 8

/-- The type of a parameter. -/
inductive Kind where
  | pointer
  | integer
  | other
  deriving Repr, DecidableEq

/-- A call of the function: the values of the parameters, the memory of the device, and the status with which the server
answers a post, if it can be reached. -/
structure Call where
  value : Text → Nat
  mem : Nat → Option Byte
  answer : Option Nat

/-- What GDB does at a call: what the server gets, and whether the device stays halted. -/
structure Outcome where
  post : Option (List Byte)
  halted : Bool
  deriving Repr, DecidableEq

/-- All posts, in order. -/
def posts (l : List Outcome) : List (List Byte) := l.filterMap fun o => o.post

/-- The parameters of the function with a type. -/
def ofKind (k : Kind) (sig : List (Text × Kind)) : List Text := (sig.filter fun a => decide (a.2 = k)).map fun a => a.1

/-- The call hands over a chunk, with its address in `p` and its length in `n`. -/
def Exports (p n : Text) (c : Call) (chunk : List Byte) : Prop :=
  c.value p < 2 ^ 32 ∧ c.value n = chunk.length ∧ ∀ i (h : i < chunk.length), c.mem (c.value p + i) = some chunk[i]

/-- The server was reached. -/
def reached (c : Call) : Bool := c.answer.isSome

/-- The server was reached and did not accept the chunk. -/
def refused (c : Call) : Bool :=
  match c.answer with
  | some s => decide (s ≠ 202)
  | none => false

/-- A function of the program. `file`: where it is from, if that is known. -/
structure Function where
  file : Option Text
  name : Text
  deriving Repr, DecidableEq

/-- A text has a word in it. -/
def Has (w s : Text) : Prop := ∃ a b, s = a ++ w ++ b

/-- No white space. -/
def Plain (s : Text) : Prop := ∀ c ∈ s, c ≠ ' ' ∧ c ≠ '\t' ∧ c ≠ '\n' ∧ c ≠ '\r' ∧ c.toNat ≠ 11 ∧ c.toNat ≠ 12

end Mflt.Spec.GdbChunks
