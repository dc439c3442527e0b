import Verif.Spec.Http

/-!
# Specification: HTTP requests as a server reads them

A reader for requests (RFC 7230) and for query strings, and what it means to send a request through a
callback that may refuse. Nothing here refers to the code that builds requests.
-/

namespace Mflt.Spec.HttpRequest

open Mflt.Spec.Http (percentDecode)

/-- The text in front of the first `c` and the text behind it. -/
def cut (c : UInt8) : Bytes → Option (Bytes × Bytes)
  | [] => none
  | x :: xs => if x = c then some ([], xs) else (cut c xs).map fun r => (x :: r.1, r.2)

/-- A line that ends with CR LF, and what follows. -/
def line : Bytes → Option (Bytes × Bytes)
  | [] => none
  | x :: xs =>
    if x = 13 ∧ xs.head? = some 10 then some ([], xs.tail) else (line xs).map fun r => (x :: r.1, r.2)

/-- Header fields up to the empty line: names and values. At most `n`. -/
def fields : Nat → Bytes → Option (List (Bytes × Bytes) × Bytes)
  | 0, _ => none
  | n + 1, b =>
    match line b with
    | none => none
    | some ([], rest) => some ([], rest)
    | some (l, rest) =>
      match cut 58 l, fields n rest with
      | some f, some (fs, rest) => some (f :: fs, rest)
      | _, _ => none

structure Request where
  method : Bytes
  target : Bytes
  version : Bytes
  fields : List (Bytes × Bytes)
  deriving Repr, DecidableEq

/-- The request at the beginning of `b`, and what follows it. The request line has three words. -/
def parse (b : Bytes) : Option (Request × Bytes) :=
  match line b with
  | none => none
  | some (l, rest) =>
    match cut 32 l with
    | none => none
    | some (method, l) =>
      match cut 32 l with
      | none => none
      | some (target, version) =>
        if 32 ∈ version then none
        else (fields (b.length + 1) rest).map fun r => (⟨method, target, version, r.1⟩, r.2)

/-- The text between the `c`s. -/
def split (c : UInt8) : Bytes → List Bytes
  | [] => [[]]
  | x :: xs =>
    if x = c then [] :: split c xs
    else match split c xs with
      | [] => [[x]]
      | p :: ps => (x :: p) :: ps

/-- A parameter `name=value`, decoded. -/
def parameter (p : Bytes) : Option (Bytes × Bytes) :=
  match cut 61 p with
  | none => none
  | some (n, v) =>
    match percentDecode n, percentDecode v with
    | some n, some v => some (n, v)
    | _, _ => none

/-- The parameters of a query string; empty ones are skipped. -/
def query (q : Bytes) : Option (List (Bytes × Bytes)) := ((split 38 q).filter (· ≠ [])).mapM parameter

/-- `log` is what is written when `request` is sent in some pieces through a callback, which answers
`accept` after what was written before. -/
structure Sent (accept : List Bytes → Bytes → Bool) (request : Bytes) (ok : Bool) (log : List Bytes) :
    Prop where
  /-- Nothing but the request is written, in order. -/
  begins : log.flatten <+: request
  /-- Success means that all of it was written. -/
  complete : ok = true → log.flatten = request
  /-- Every write was taken, except the last one of a failure. -/
  taken : ∀ pre x post, log = pre ++ x :: post → (ok = true ∨ post ≠ []) → accept pre x = true
  refused : ok = false → ∃ pre x, log = pre ++ [x] ∧ accept pre x = false

/-- A word: no space, no line break. -/
def Word (s : Bytes) : Prop := ∀ c ∈ s, c ≠ 32 ∧ c ≠ 13 ∧ c ≠ 10

/-- The letters of a name used by the protocol. -/
def text (s : String) : Bytes := s.toList.map fun c => UInt8.ofNat c.toNat

end Mflt.Spec.HttpRequest
