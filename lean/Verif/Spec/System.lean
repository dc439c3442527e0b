import Verif.Model.System
import Verif.Spec.Packetizer
import Verif.Spec.EventQueue
import Verif.Spec.LogUpload
import Verif.Spec.Cdr

/-!
# Specification: from the device to the server

The application writes events, saves and collects log lines and makes recordings; some task takes chunks from the
packetizer and sends them. Everything the theorems say is about what these see: the calls and their results. The
server puts the chunks together again.
-/

namespace Mflt.Spec.System

open Mflt.Packetizer (Src Status NextOut BeginOut)
open Mflt.Cdr (Recording)

/-- The calls. -/
inductive Op
  /-- An event is begun, gets data, and is finished (or taken back). -/
  | evBegin
  | evAppend (d : Bytes)
  | evFinish (rollback : Bool)
  | logSave (level type : Nat) (text : Bytes) (now : Option Nat)
  | logMinLevel (level : Nat)
  | logTrigger (now : Option Nat)
  | cdrRegister (source : Nat)
  | cdrRecord (source : Nat) (r : Recording)
  | begin (multi : Bool)
  | getNext (buf : Bytes)
  | getChunk (buf : Bytes)
  | abort
  | setActiveSources (mask : Nat)
  | dataAvailable
  deriving Repr, DecidableEq

/-- Their results. -/
inductive Out
  | unit
  | size (n : Nat)
  | ok (b : Bool)
  | begin (o : BeginOut)
  | next (o : NextOut)
  | chunk (ok : Bool) (buf : Bytes) (len : Nat)
  deriving Repr, DecidableEq

/-! ## The writer of events -/

/-- What the writer of events knows: the bytes of the event it is writing, and the events it has finished. -/
structure Writer where
  acc : Option Bytes
  done : List Bytes
  deriving Repr, DecidableEq

/-- What the event storage asks of its writer: an event is begun when none is being written; it gets data only if
there was room for it; an event has 1 to 65532 bytes. -/
def Writer.may (v : Writer) : Op → Bool
  | .evBegin => v.acc.isNone
  | .evAppend _ => v.acc.isSome
  | .evFinish false => decide (1 ≤ (v.acc.getD []).length ∧ (v.acc.getD []).length ≤ 65532)
  | _ => true

/-- The result of a call. -/
def Writer.sees (v : Writer) : Op → Out → Writer
  | .evBegin, .size n => { v with acc := if n = 0 then none else some [] }
  | .evAppend d, .ok true => { v with acc := v.acc.map (· ++ d) }
  | .evFinish true, _ => { v with acc := none }
  | .evFinish false, _ => ⟨none, v.done ++ v.acc.toList⟩
  | _, _ => v

/-! ## The server -/

/-- Bytes of a chunk that was not handed out whole yet, chunks of a message that is not complete, complete
messages. -/
structure Receiver where
  part : Bytes
  chunks : List Bytes
  messages : List Bytes
  deriving Repr, DecidableEq

/-- The first chunk of a message, by its first byte. -/
def starts (c : Bytes) : Bool := decide (c.head? = some 0x08 ∨ c.head? = some 0x48)

/-- A chunk arrives at the server: the first one of a message makes it forget what it has of another. -/
def Receiver.chunk (r : Receiver) (c : Bytes) : Receiver :=
  let cs := if starts c then [c] else r.chunks ++ [c]
  match Chunk.reassemble cs with
  | some m => ⟨[], [], r.messages ++ [m]⟩
  | none => ⟨[], cs, r.messages⟩

/-- The sender gets a piece: it sends a chunk when it is whole. -/
def Receiver.piece (r : Receiver) (status : Status) (d : Bytes) : Receiver :=
  match status with
  | .noMoreData => r
  | .moreDataForChunk => { r with part := r.part ++ d }
  | .endOfChunk => r.chunk (r.part ++ d)

/-- What the sender does with the result of a call. When it aborts it forgets the pieces it has. -/
def Receiver.sees (r : Receiver) : Op → Out → Receiver
  | .getNext _, .next o => r.piece o.status (o.buf.take o.len)
  | .getChunk _, .chunk true buf len => r.piece .endOfChunk (buf.take len)
  | .abort, _ => { r with part := [] }
  | .setActiveSources _, _ => { r with part := [] }
  | _, _ => r

/-- Everyone who looks at the calls and their results. -/
structure View where
  writer : Writer
  receiver : Receiver
  deriving Repr, DecidableEq

/-- Before the first call. -/
def View.init : View := ⟨⟨none, []⟩, ⟨[], [], []⟩⟩

def View.sees (v : View) (op : Op) (o : Out) : View := ⟨v.writer.sees op o, v.receiver.sees op o⟩

/-! ## The history -/

/-- What the calls have to keep to: levels and types of log lines, recordings that fit 32 bits, chunks are taken
either with `getChunk` and `begin` for single chunks, or with `begin` for messages in one chunk. -/
def Op.Ok (limit : Nat) (multi : Bool) : Op → Prop
  | .logSave level type _ _ => level < 8 ∧ type < 2
  | .cdrRecord _ r => Cdr.Ok limit r ∧ r.data.length < 2 ^ 29
  | .begin m => m = multi
  | .getChunk _ => multi = false
  | _ => True

/-- The recordings of a source. -/
def recorded (i : Nat) : List Op → List Recording
  | [] => []
  | .cdrRecord j r :: ops => if j = i then r :: recorded i ops else recorded i ops
  | _ :: ops => recorded i ops

/-- The sources of recordings, in the order in which they were registered. -/
def registered : List Op → List Nat
  | [] => []
  | .cdrRegister i :: ops => i :: registered ops
  | _ :: ops => registered ops

/-- The lines that were saved, as they are kept: those below the minimum level, which is `lvl` at first, are not. -/
def saved (cfg : Mflt.Log.Config) : Nat → List Op → List Log.Line
  | _, [] => []
  | lvl, .logSave level type text now :: ops =>
    if level < lvl then saved cfg lvl ops else Log.lineOf cfg level type text now :: saved cfg lvl ops
  | _, .logMinLevel lvl :: ops => saved cfg lvl ops
  | lvl, _ :: ops => saved cfg lvl ops

/-- The lines fit a buffer of `cap` bytes side by side, and none of them is empty. (Lines that wrap around the end of
the buffer and empty lines break uploads, see C26.) -/
def Fits (cap : Nat) (ls : List Log.Line) : Prop :=
  (ls.map Log.lineSize).sum ≤ cap ∧ ∀ l ∈ ls, l.text ≠ [] ∨ l.timestamp.isSome = true

/-- The event that carries log lines. -/
def report (cfg : Mflt.Log.Config) (dev : SerializerHelper.Device) (time : Option Nat) (ls : List Log.Line) : Cbor.Item :=
  Event.event dev (if cfg.timestamps then 6 else 4) time (.array (ls.flatMap (Log.lineItems cfg)))

/-- The size of the coredump in a storage: it begins with the letters CORE, and has its size at byte 8. -/
def storedSize : Bytes → Option Nat
  | x :: y :: z :: u :: _ :: _ :: _ :: _ :: a :: b :: c :: d :: _ =>
    if x = 0x43 ∧ y = 0x4F ∧ z = 0x52 ∧ u = 0x45 then
      some (a.toNat + b.toNat * 0x100 + c.toNat * 0x10000 + d.toNat * 0x1000000)
    else none
  | _ => none

/-- No source was ever disabled. -/
def Enabled (ops : List Op) : Prop := ∀ mask, .setActiveSources mask ∈ ops → ∀ x, mask.testBit (Packetizer.code x) = true

/-- The coredump in a storage. -/
def stored (mem : Bytes) : Option Bytes := (storedSize mem).map mem.take

/-! ## What the server has -/

/-- What was delivered: coredumps, events as they were put together, recordings with their source, log lines as they
were collected with the time of the collection. -/
structure Parts where
  core : List Bytes
  events : List (List Bytes)
  recordings : List (Nat × Recording)
  logs : List (Option Nat × List Log.Line)

/-- The bytes the messages of a source carry. Each message is given with its source and these bytes. -/
def payloads (x : Src) (l : List (Src × Bytes × Bytes)) : List Bytes :=
  (l.filter fun m => m.1 = x).map (·.2.1)

/-- The messages `ms` carry the parts `p`: a coredump as it is; events alone, or several of them in an array; a
recording after a description `head`; log lines (if `fits`) in a report. -/
def Carry (cfg : Mflt.Sys.Config) (head : Recording → Bytes) (fits : Prop) (ms : List Bytes) (p : Parts) : Prop :=
  ∃ l : List (Src × Bytes × Bytes), l.map (·.2.2) = ms ∧
    (∀ m ∈ l, Packetizer.IsMessage cfg.pk m.1 m.2.1 m.2.2) ∧
    payloads .coredump l = p.core ∧
    payloads .event l = p.events.map EventQueue.messageOf ∧ (∀ es ∈ p.events, es ≠ []) ∧
    payloads .cdr l = p.recordings.map (fun r => head r.2 ++ r.2.data) ∧
    (fits → (payloads .log l).map Cbor.decode = p.logs.map (fun x => some (report cfg.log cfg.dev x.1 x.2)) ∧
      ∀ x ∈ p.logs, x.2 ≠ [])

/-- The recordings of a source. -/
def Parts.of (p : Parts) (i : Nat) : List Recording := (p.recordings.filter fun r => r.1 = i).map (·.2)

/-- The lines in all the reports. -/
def Parts.lines (p : Parts) : List Log.Line := (p.logs.map (·.2)).flatten

end Mflt.Spec.System

namespace Mflt.Sys

open Spec.System (Op Out View)

/-- One call on the model. -/
def step (cfg : Config) (s : State) : Op → Option (Out × State)
  | .evBegin => (EventStorage.beginWrite s.w.ev).map fun r => (.size r.1, { s with w := { s.w with ev := r.2 } })
  | .evAppend d => (EventStorage.appendData s.w.ev d).map fun r => (.ok r.1, { s with w := { s.w with ev := r.2 } })
  | .evFinish rollback =>
    (EventStorage.finishWrite s.w.ev rollback).map fun e => (.unit, { s with w := { s.w with ev := e } })
  | .logSave level type text now =>
    (Log.save cfg.log s.w.log level type text now).map fun l => (.unit, { s with w := { s.w with log := l } })
  | .logMinLevel level => some (.unit, { s with w := { s.w with log := Log.setMinLevel s.w.log level } })
  | .logTrigger now =>
    (Log.triggerCollection s.w.log now).map fun l => (.unit, { s with w := { s.w with log := l } })
  | .cdrRegister i =>
    some (.ok (Cdr.register cfg.cdr s.w.cdr i).1, { s with w := { s.w with cdr := (Cdr.register cfg.cdr s.w.cdr i).2 } })
  | .cdrRecord i r => some (.unit, { s with w := { s.w with cdr := Cdr.push s.w.cdr i r } })
  | .begin multi => (begin' cfg multi s).map fun r => (.begin r.1, r.2)
  | .getNext buf => (getNext cfg s buf).map fun r => (.next r.1, r.2)
  | .getChunk buf => (getChunk cfg s buf).map fun r => (.chunk r.1 r.2.1 r.2.2.1, r.2.2.2)
  | .abort => some (.unit, reset cfg s)
  | .setActiveSources mask => some (.unit, setActiveSources cfg s mask)
  | .dataAvailable => (dataAvailable cfg s).map fun r => (.ok r.1, r.2)

/-- A history: calls that the writer of events may not make are left out. The results are what everyone saw. -/
def play (cfg : Config) : State → View → List Op → Option (State × View)
  | s, v, [] => some (s, v)
  | s, v, op :: ops =>
    if v.writer.may op then (step cfg s op).bind fun r => play cfg r.2 (v.sees op r.1) ops
    else play cfg s v ops

end Mflt.Sys
