import Verif.Model.ZephyrLog

/-!
# Specification: which messages of Zephyr's logging reach the log of the SDK, and as what

From the model only the records of what happens (`Op`, `LegacyOp`) and of what is saved (`Call`) are used.
-/

namespace Mflt.Spec.ZephyrLog

open Mflt.ZephyrLog (Op LegacyOp Call)

/-- Zephyr's levels (1 error, 2 warning, 3 info, 4 debug, 0 none) as levels of the SDK (3 error, 2 warning, 1 info,
0 debug). -/
def level : Nat → Nat
  | 1 => 3
  | 2 => 2
  | 3 => 1
  | _ => 0

/-- Carriage return or line feed. -/
def eol (c : UInt8) : Bool := c == 13 || c == 10

/-- The line of a message: its first 128 characters without the ends of line behind the first character. -/
def line (text : Bytes) : Bytes :=
  match text.take 128 with
  | [] => []
  | c :: cs => c :: (cs.reverse.dropWhile eol).reverse

/-- The messages that are taken: those that come while none is processed, which takes `cost` steps, and, unless
interrupts are allowed to log, that do not come from an interrupt. The first argument is the number of
steps that are left. -/
def taken (interrupts : Bool) (cost : Bytes → Nat) : Nat → List Op → List (Nat × Bytes)
  | _, [] => []
  | 0, .log isr l t :: ops =>
    if isr = true ∧ interrupts = false then taken interrupts cost 0 ops
    else (l, t) :: taken interrupts cost (cost t) ops
  | k + 1, .log _ _ _ :: ops => taken interrupts cost (k + 1) ops
  | k, .step :: ops => taken interrupts cost (k - 1) ops
  | k, .dropped _ :: ops => taken interrupts cost k ops

/-- The steps that are left in the end. -/
def left (interrupts : Bool) (cost : Bytes → Nat) : Nat → List Op → Nat
  | k, [] => k
  | 0, .log isr _ t :: ops =>
    if isr = true ∧ interrupts = false then left interrupts cost 0 ops
    else left interrupts cost (cost t) ops
  | k + 1, .log _ _ _ :: ops => left interrupts cost (k + 1) ops
  | k, .step :: ops => left interrupts cost (k - 1) ops
  | k, .dropped _ :: ops => left interrupts cost k ops

/-- A message takes a step for every character and one for its end. -/
def perCharacter (text : Bytes) : Nat := text.length + 1

/-- All messages, in the order in which they came. -/
def logged : List Op → List (Nat × Bytes)
  | [] => []
  | .log _ l t :: ops => (l, t) :: logged ops
  | _ :: ops => logged ops

/-- One message after the other, each of them to its end. -/
def oneByOne (cost : Bytes → Nat) (messages : List (Nat × Bytes)) : List Op :=
  messages.flatMap fun m => .log false m.1 m.2 :: List.replicate (cost m.2) .step

/-- A text in pieces of 128 bytes, of which only the last may be shorter; an empty text is one empty piece. -/
def Pieces (text : Bytes) (ps : List Bytes) : Prop :=
  ps.flatten = text ∧ ∃ full last, ps = full ++ [last] ∧ (∀ p ∈ full, p.length = 128) ∧ last.length ≤ 128 ∧
    (last = [] → full = [])

/-- The text is saved in these pieces, each cut to the length of a line. -/
def SavedAs (maxLine : Nat) : List (Nat × Bytes) → List Call → Prop
  | [], cs => cs = []
  | (l, t) :: ms, cs => ∃ ps rest, Pieces t ps ∧ cs = ps.map (fun p => ⟨level l, p.take maxLine⟩) ++ rest ∧
      SavedAs maxLine ms rest

/-- The messages of the legacy logging that are taken: not those of level none, nor from interrupts. -/
def legacyTaken : List LegacyOp → List (Nat × Bytes)
  | [] => []
  | .put isr l t :: ops => if isr = true ∨ l = 0 then legacyTaken ops else (l, t) :: legacyTaken ops
  | _ :: ops => legacyTaken ops

end Mflt.Spec.ZephyrLog
