import Verif.Model.Mem

/-!
# Specification: a bounded FIFO byte queue

The oldest byte is first.  Failing operations leave the queue unchanged.
-/

namespace Mflt.Spec

/-- A byte queue of fixed capacity. -/
structure ByteQueue where
  cap : Nat
  bytes : Bytes
deriving Repr, DecidableEq

/-- The operations of the circular buffer API. -/
inductive BufOp where
  | write (data : Bytes)
  | writeAtOffset (offsetFromEnd : Nat) (data : Bytes)
  | consume (n : Nat)
  | consumeFromEnd (n : Nat)
  | read (offset len : Nat)
  | readSize
  | writeSize
deriving Repr, DecidableEq

/-- What a caller of the API sees. -/
inductive BufOut where
  | ok (b : Bool)
  | data (d : Option Bytes)
  | size (n : Nat)
deriving Repr, DecidableEq

namespace ByteQueue

/-- Overwrite starting `off` bytes before the end with `d`, growing the queue if `d` is longer. -/
def overwrite (q : Bytes) (off : Nat) (d : Bytes) : Bytes :=
  q.take (q.length - off) ++ d ++ q.drop (q.length - off + d.length)

/-- One operation on the queue. -/
def step (q : ByteQueue) : BufOp → ByteQueue × BufOut
  | .write d =>
    if q.bytes.length + d.length ≤ q.cap then ({ q with bytes := q.bytes ++ d }, .ok true)
    else (q, .ok false)
  | .writeAtOffset off d =>
    if off ≤ q.bytes.length ∧ q.bytes.length - off + d.length ≤ q.cap then
      ({ q with bytes := overwrite q.bytes off d }, .ok true)
    else (q, .ok false)
  | .consume n =>
    if n ≤ q.bytes.length then ({ q with bytes := q.bytes.drop n }, .ok true)
    else (q, .ok false)
  | .consumeFromEnd n =>
    if n ≤ q.bytes.length then ({ q with bytes := q.bytes.take (q.bytes.length - n) }, .ok true)
    else (q, .ok false)
  | .read off n =>
    (q, .data (if off + n ≤ q.bytes.length then some ((q.bytes.drop off).take n) else none))
  | .readSize => (q, .size q.bytes.length)
  | .writeSize => (q, .size (q.cap - q.bytes.length))

/-- A sequence of operations with all results. -/
def run (q : ByteQueue) : List BufOp → ByteQueue × List BufOut
  | [] => (q, [])
  | op :: ops =>
    let (q1, o) := q.step op
    let (q2, os) := run q1 ops
    (q2, o :: os)

end ByteQueue
end Mflt.Spec
