import Verif.Model.BufferedStorage

/-!
# Specification: writing a coredump in blocks

A coredump is written in order, except for its header, which comes last. The storage can be written in
whole, aligned blocks only, and each block once.
-/

namespace Mflt.Spec.BufferedStorage

/-- Block number `k` of a coredump, zeros behind its end. -/
def block (W : Nat) (dump : Bytes) (k : Nat) : Bytes :=
  let b := (dump.drop (k * W)).take W
  b ++ List.replicate (W - b.length) 0

/-- Number of blocks. -/
def numBlocks (W : Nat) (dump : Bytes) : Nat := (dump.length + W - 1) / W

/-- The blocks with their offsets: all but the first one in order, the first one last. -/
def blocks (W : Nat) (dump : Bytes) : List (Nat × Bytes) :=
  ((List.range (numBlocks W dump - 1)).map fun k => ((k + 1) * W, block W dump (k + 1))) ++
    [(0, block W dump 0)]

/-- The writes a coredump is made of: pieces behind a header of `h` bytes, in order. -/
def pieces (offset : Nat) : List Bytes → List (Nat × Bytes)
  | [] => []
  | d :: ds => (offset, d) :: pieces (offset + d.length) ds

/-- A storage with a block written to it. -/
def program (mem : Bytes) (b : Nat × Bytes) : Bytes :=
  mem.take b.1 ++ b.2 ++ mem.drop (b.1 + b.2.length)

end Mflt.Spec.BufferedStorage

namespace Mflt.BufferedStorage

/-- Writes one after the other, until one fails: whether all succeeded. -/
def writes (W size : Nat) (port : Port) (s : State) : List (Nat × Bytes) → Option (Bool × State)
  | [] => some (true, s)
  | (o, d) :: ws =>
    match bufferedWrite W size port s o d with
    | none => none
    | some (false, s) => some (false, s)
    | some (true, s) => writes W size port s ws

end Mflt.BufferedStorage
