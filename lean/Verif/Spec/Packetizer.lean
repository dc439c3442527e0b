import Verif.Model.Packetizer
import Verif.Spec.Chunk
import Verif.Spec.Rle

/-!
# Specification: the packetizer

The sources are queues. At most one transfer is in progress; it has a fixed message and remembers
the chunks handed out so far. The specification is a relation because it leaves open how the message
is cut into chunks; it says what a receiver can rely on.
-/

namespace Mflt.Spec.Packetizer

open Mflt.Packetizer (Src Config Status NextOut BeginOut)

/-- The message types of the chunk API, which are also the bits of the enable mask. -/
def code : Src → Nat
  | .coredump => 1
  | .event => 2
  | .log => 3
  | .cdr => 4

/-- Coredumps are sent run-length encoded, if that is built in. -/
def encoded (cfg : Config) (src : Src) : Bool := decide (src = .coredump) && cfg.rleEnabled

/-- The message sent for `m` of source `src`: type byte with the RLE and project key flags, the key,
then the bytes of `m` or, if the source is sent run-length encoded, an encoding of `m`. -/
def IsMessage (cfg : Config) (src : Src) (m message : Bytes) : Prop :=
  ∃ body, message =
      UInt8.ofNat (code src + (if encoded cfg src then 128 else 0) +
        (if cfg.key.isSome then 64 else 0)) :: (cfg.key.getD [] ++ body) ∧
    (if encoded cfg src then Rle.expand body = some m else body = m)

/-- A transfer: the message, the mode and the pieces handed out so far. -/
structure Transfer where
  src : Src
  message : Bytes
  multi : Bool
  pieces : List Bytes

/-- What a receiver makes of the pieces: each is a chunk, or in multi-call mode together they are
one chunk. -/
def received (multi : Bool) (pieces : List Bytes) : Option Bytes :=
  if multi then Chunk.reassemble [pieces.flatten] else Chunk.reassemble pieces

/-- The abstract state. `delivered` records the messages whose transfer was completed. -/
structure State where
  queue : Src → List Bytes
  mask : Nat
  cur : Option Transfer
  delivered : List (Src × Bytes)

/-- Nothing stored, everything enabled, no transfer. -/
def init : State := ⟨fun _ => [], 0x1E, none, []⟩

/-- A source may be sent from: its bit is set and it holds a message. -/
def sendable (s : State) (src : Src) : Bool := s.mask.testBit (code src) && !(s.queue src).isEmpty

/-- The source to send from: the first one in priority order. -/
def pick (s : State) : Option Src :=
  [Src.coredump, Src.event, Src.log, Src.cdr].find? (sendable s)

/-- Beginning: continue the transfer in progress, else start one from the picked source. -/
inductive Begin (cfg : Config) (multi : Bool) : State → BeginOut → State → Prop
  | nothing (s : State) : s.cur = none → pick s = none → Begin cfg multi s ⟨false, 0, false⟩ s
  | start (s : State) (src : Src) (m : Bytes) (rest : List Bytes) (message : Bytes) :
      s.cur = none → pick s = some src → s.queue src = m :: rest → IsMessage cfg src m message →
      Begin cfg multi s ⟨true, message.length + 3, false⟩
        { s with cur := some ⟨src, message, multi, []⟩ }
  | resume (s : State) (t : Transfer) : s.cur = some t →
      Begin cfg multi s ⟨true, t.message.length + 3, decide (t.pieces ≠ [])⟩ s

/-- The next piece. -/
inductive Next : State → Bytes → NextOut → State → Prop
  | idle (s : State) (buf : Bytes) : s.cur = none →
      Next s buf ⟨.noMoreData, buf, buf.length⟩ s
  | small (s : State) (t : Transfer) (buf : Bytes) : s.cur = some t → buf.length < 9 →
      Next s buf ⟨.noMoreData, buf, 0⟩ s
  | more (s : State) (t : Transfer) (buf buf' : Bytes) (len : Nat) : s.cur = some t →
      9 ≤ buf.length → buf'.length = buf.length → 1 ≤ len → len ≤ buf.length →
      t.pieces.length < t.message.length / 3 + 2 →
      Next s buf ⟨if t.multi then .moreDataForChunk else .endOfChunk, buf', len⟩
        { s with cur := some { t with pieces := t.pieces ++ [buf'.take len] } }
  | last (s : State) (t : Transfer) (buf buf' : Bytes) (len : Nat) (m : Bytes) (rest : List Bytes) :
      s.cur = some t → 9 ≤ buf.length → buf'.length = buf.length → 1 ≤ len → len ≤ buf.length →
      received t.multi (t.pieces ++ [buf'.take len]) = some t.message →
      s.queue t.src = m :: rest →
      Next s buf ⟨.endOfChunk, buf', len⟩
        { s with cur := none
                 queue := fun x => if x = t.src then rest else s.queue x
                 delivered := s.delivered ++ [(t.src, m)] }

/-- The operations: a source gets a new message, and the API calls. -/
inductive Op
  | enqueue (src : Src) (m : Bytes)
  | begin (multi : Bool)
  | getNext (buf : Bytes)
  | getChunk (buf : Bytes)
  | abort
  | setActiveSources (mask : Nat)
  | dataAvailable
  deriving Repr, DecidableEq

/-- What an operation returns. -/
inductive Out
  | unit
  | begin (o : BeginOut)
  | next (o : NextOut)
  | chunk (ok : Bool) (buf : Bytes) (len : Nat)
  | avail (b : Bool)
  deriving Repr, DecidableEq

/-- One operation. -/
inductive Step (cfg : Config) : State → Op → Out → State → Prop
  | enqueue (s : State) (src : Src) (m : Bytes) :
      Step cfg s (.enqueue src m) .unit
        { s with queue := fun x => if x = src then s.queue x ++ [m] else s.queue x }
  | begin (s s' : State) (multi : Bool) (o : BeginOut) :
      Begin cfg multi s o s' → Step cfg s (.begin multi) (.begin o) s'
  | getNext (s s' : State) (buf : Bytes) (o : NextOut) :
      Next s buf o s' → Step cfg s (.getNext buf) (.next o) s'
  | getChunkNone (s s' : State) (buf : Bytes) (b : BeginOut) :
      Begin cfg false s b s' → b.ok = false →
      Step cfg s (.getChunk buf) (.chunk false buf buf.length) s'
  | getChunk (s s' s'' : State) (buf : Bytes) (b : BeginOut) (o : NextOut) :
      Begin cfg false s b s' → b.ok = true → Next s' buf o s'' →
      Step cfg s (.getChunk buf) (.chunk (decide (o.status = .endOfChunk)) o.buf o.len) s''
  | abort (s : State) : Step cfg s .abort .unit { s with cur := none }
  | setActiveSources (s : State) (mask : Nat) :
      Step cfg s (.setActiveSources mask) .unit { s with cur := none, mask := mask }
  | dataAvailable (s : State) :
      Step cfg s .dataAvailable (.avail (s.cur.isSome || (pick s).isSome)) s

/-- A history of operations with their results. -/
inductive Trace (cfg : Config) : State → List Op → List Out → State → Prop
  | nil (s : State) : Trace cfg s [] [] s
  | cons {s s' s'' : State} {op : Op} {o : Out} {ops : List Op} {os : List Out} :
      Step cfg s op o s' → Trace cfg s' ops os s'' → Trace cfg s (op :: ops) (o :: os) s''

/-- The messages a source was given in a history. -/
def enqueued (src : Src) : List Op → List Bytes
  | [] => []
  | .enqueue x m :: ops => if x = src then m :: enqueued src ops else enqueued src ops
  | _ :: ops => enqueued src ops

/-- The messages of a source that were delivered. -/
def deliveredFrom (src : Src) (d : List (Src × Bytes)) : List Bytes :=
  (d.filter (fun p => p.1 = src)).map (·.2)

end Mflt.Spec.Packetizer

namespace Mflt.Packetizer

open Mflt.Spec.Packetizer (Op Out)

/-- Run one operation of the model. -/
def step (cfg : Config) (s : State) : Op → Option (Out × State)
  | .enqueue src m =>
    some (.unit, { s with queue := fun x => if x = src then s.queue x ++ [m] else s.queue x })
  | .begin multi => (begin' cfg multi s).map fun r => (.begin r.1, r.2)
  | .getNext buf => (getNext cfg s buf).map fun r => (.next r.1, r.2)
  | .getChunk buf => (getChunk cfg s buf).map fun r => (.chunk r.1 r.2.1 r.2.2.1, r.2.2.2)
  | .abort => some (.unit, abort cfg s)
  | .setActiveSources mask => some (.unit, setActiveSources cfg s mask)
  | .dataAvailable => (dataAvailable cfg s).map fun r => (.avail r.1, r.2)

/-- Run a history. -/
def run (cfg : Config) (s : State) : List Op → Option (List Out × State)
  | [] => some ([], s)
  | op :: ops => do
    let (o, s) ← step cfg s op
    let (os, s) ← run cfg s ops
    return (o :: os, s)

end Mflt.Packetizer

namespace Mflt.Spec.Packetizer

/-- The pieces the caller of `getNext` collected. -/
def pieces : List Out → List Bytes
  | [] => []
  | .next o :: os => if o.status = .noMoreData then pieces os else o.buf.take o.len :: pieces os
  | _ :: os => pieces os

end Mflt.Spec.Packetizer
