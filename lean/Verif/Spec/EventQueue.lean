import Verif.Model.Mem

/-!
# Specification: a bounded queue of events with one writer and one reader

What a user of the event storage sees. Nothing here refers to the ring buffer, its offsets or its
headers, except that an event is charged two bytes of bookkeeping.
-/

namespace Mflt.Spec.EventQueue

/-- `committed`: finished events, oldest first. `pending`: the event being written. `reading`: how
many of the oldest events make up the message being read (0: no read has begun). -/
structure State where
  cap : Nat
  committed : List Bytes
  pending : Option Bytes
  reading : Nat
  deriving Repr, DecidableEq

def empty (cap : Nat) : State := ⟨cap, [], none, 0⟩

/-- Bytes occupied: two per event plus its payload. -/
def used (q : State) : Nat :=
  (q.committed.map fun e => e.length + 2).sum +
    match q.pending with
    | none => 0
    | some p => p.length + 2

/-- How many further events join a batch that already holds `size` bytes. -/
def moreEvents (max : Nat) (size : Nat) : List Bytes → Nat
  | [] => 0
  | e :: es => if size + e.length ≤ max then 1 + moreEvents max (size + e.length) es else 0

/-- How many of the oldest events one message carries: at most one without batching (`none`);
otherwise the first event and as many of the following ones as keep the total within `max`. -/
def batchCount (batchMax : Option Nat) (events : List Bytes) : Nat :=
  match batchMax, events with
  | _, [] => 0
  | none, _ :: _ => 1
  | some max, e :: es => 1 + moreEvents max e.length es

/-- The head of a CBOR array of `n` items (RFC 7049 section 2.1, major type 4). -/
def arrayHead (n : Nat) : Bytes :=
  if n < 24 then [UInt8.ofNat (0x80 + n)]
  else if n < 0x100 then [0x98, UInt8.ofNat n]
  else if n < 0x10000 then [0x99, UInt8.ofNat (n / 0x100), UInt8.ofNat n]
  else [0x9a, UInt8.ofNat (n / 0x1000000), UInt8.ofNat (n / 0x10000), UInt8.ofNat (n / 0x100),
    UInt8.ofNat n]

/-- The message made of `events`: a lone event is sent as it is, several as one CBOR array. -/
def messageOf (events : List Bytes) : Bytes :=
  (if events.length ≤ 1 then [] else arrayHead events.length) ++ events.flatten

/-- The message being read. -/
def message (q : State) : Bytes := messageOf (q.committed.take q.reading)

/-- Calls to the storage. -/
inductive Op
  | begin
  | append (d : Bytes)
  | finish (rollback : Bool)
  | hasData
  | read (offset len : Nat)
  | markRead
  | bytesUsed
  | bytesFree
  deriving Repr, DecidableEq

/-- What a call returns. -/
inductive Out
  | unit
  | size (n : Nat)
  | ok (b : Bool)
  | avail (b : Bool) (n : Nat)
  | data (d : Option Bytes)
  deriving Repr, DecidableEq

/-- What each call does to the queue. `none`: the call breaks the storage's contract, which is that
data is appended only between a `begin` that succeeded and its `finish`, and that a committed event
has at least 1 and at most 65532 bytes. -/
def step (batchMax : Option Nat) (q : State) : Op → Option (Out × State)
  | .begin =>
    if q.pending.isSome ∨ q.cap < used q + 2 then some (.size 0, q)
    else some (.size (q.cap - used q - 2), { q with pending := some [] })
  | .append d =>
    match q.pending with
    | none => none
    | some p =>
      if used q + d.length ≤ q.cap then some (.ok true, { q with pending := some (p ++ d) })
      else some (.ok false, q)
  | .finish rollback =>
    match q.pending with
    | none => some (.unit, q)
    | some p =>
      if rollback then some (.unit, { q with pending := none })
      else if 1 ≤ p.length ∧ p.length ≤ 65532 then
        some (.unit, { q with committed := q.committed ++ [p], pending := none })
      else none
  | .hasData =>
    let n := if q.reading = 0 then batchCount batchMax q.committed else q.reading
    let q := { q with reading := n }
    some (.avail (decide (n ≠ 0)) (message q).length, q)
  | .read offset len =>
    if offset + len ≤ (message q).length then
      some (.data (some (((message q).drop offset).take len)), q)
    else some (.data none, q)
  | .markRead => some (.unit, { q with committed := q.committed.drop q.reading, reading := 0 })
  | .bytesUsed => some (.size (used q), q)
  | .bytesFree => some (.size (q.cap - used q), q)

/-- The results of a sequence of calls. -/
def run (batchMax : Option Nat) (q : State) : List Op → Option (List Out × State)
  | [] => some ([], q)
  | op :: ops => do
    let (o, q) ← step batchMax q op
    let (os, q) ← run batchMax q ops
    return (o :: os, q)

end Mflt.Spec.EventQueue
