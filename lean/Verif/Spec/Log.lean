import Verif.Model.Log

/-!
# Specification: a bounded log that forgets its oldest lines

A list of lines, oldest first, each with two marks: read (by `memfault_log_read`) and sent (by the
upload). The last fields are history: what was accepted and returned so far, and counts. From the
model only the configuration and the record type are used.
-/

namespace Mflt.Spec.Log

open Mflt.Log (Config Record)

/-- A line as it is kept: level, type (0 text, 1 compact), time of day if it was taken, text. -/
structure Line where
  level : Nat
  type : Nat
  timestamp : Option Nat
  text : Bytes
  deriving Repr, DecidableEq

structure Entry where
  line : Line
  read : Bool
  sent : Bool
  deriving Repr, DecidableEq

structure State where
  cap : Nat
  minLevel : Nat
  /-- lines kept, oldest first -/
  entries : List Entry
  /-- an upload is in progress: number of lines in it and its time -/
  frozen : Option (Nat × Option Nat)
  /-- number of drops at the last report to the reader -/
  reported : Nat
  /-- every line that was ever kept -/
  accepted : List Line
  /-- every line that was returned to the reader -/
  returned : List Line
  /-- lines that were not kept -/
  refused : Nat
  /-- lines that were forgotten before being read or sent -/
  forgotten : Nat
  /-- a line was forgotten that was sent, but never read -/
  lost : Bool
  deriving Repr, DecidableEq

def init (minLevel cap : Nat) : State := ⟨cap, minLevel, [], none, 0, [], [], 0, 0, false⟩

/-- Bytes a line takes: two of bookkeeping, four for a time. -/
def lineSize (l : Line) : Nat := 2 + (if l.timestamp.isSome then 4 else 0) + l.text.length

def total (es : List Entry) : Nat := (es.map fun e => lineSize e.line).sum

/-- Dropped lines, as reported by `memfault_log_get_dropped_count`. -/
def dropped (S : State) : Nat := S.refused + S.forgotten

/-- What is kept of a saved text: time and text together have at most `maxLine` bytes. -/
def lineOf (cfg : Config) (level type : Nat) (text : Bytes) (now : Option Nat) : Line :=
  if cfg.timestamps ∧ now.isSome then
    ⟨level, type, now.map (· % 2 ^ 32), text.take (cfg.maxLine - 4)⟩
  else ⟨level, type, none, text.take cfg.maxLine⟩

/-- Forget as few of the oldest lines as possible to have `need` bytes free. -/
def makeRoom (cap need : Nat) : List Entry → List Entry
  | [] => []
  | e :: es => if total (e :: es) + need ≤ cap then e :: es else makeRoom cap need es

/-- The lines `makeRoom` forgets. -/
def evicted (cap need : Nat) (es : List Entry) : List Entry :=
  es.take (es.length - (makeRoom cap need es).length)

def save (cfg : Config) (S : State) (level type : Nat) (text : Bytes) (now : Option Nat) : State :=
  if level < S.minLevel then S
  else
    let l := lineOf cfg level type text now
    if total S.entries + lineSize l ≤ S.cap then
      { S with entries := S.entries ++ [⟨l, false, false⟩], accepted := S.accepted ++ [l] }
    else if S.cap < lineSize l ∨ S.frozen.isSome then { S with refused := S.refused + 1 }
    else
      let out := evicted S.cap (lineSize l) S.entries
      { S with
        entries := makeRoom S.cap (lineSize l) S.entries ++ [⟨l, false, false⟩]
        accepted := S.accepted ++ [l]
        forgotten := S.forgotten + out.countP fun e => !e.read && !e.sent
        lost := S.lost || out.any fun e => e.sent && !e.read }

/-- The first unread line, and the list with it marked as read. -/
def takeUnread : List Entry → Option (Line × List Entry)
  | [] => none
  | e :: es =>
    if e.read then (takeUnread es).map fun r => (r.1, e :: r.2)
    else some (e.line, { e with read := true } :: es)

/-- Mark the first `n` unsent lines as sent. -/
def markSent : Nat → List Entry → List Entry
  | 0, es => es
  | _, [] => []
  | n + 1, e :: es => if e.sent then e :: markSent (n + 1) es else { e with sent := true } :: markSent n es

def unsent (es : List Entry) : Nat := es.countP fun e => !e.sent

/-- What a client does. -/
inductive Op
  | save (level type : Nat) (text : Bytes) (now : Option Nat)
  | setMinLevel (level : Nat)
  | read
  | trigger (now : Option Nat)
  | markSent
  | unsentCount
  | droppedCount
  | recordedCount
  deriving Repr, DecidableEq

/-- What it sees. A returned line without a time has time 0. -/
inductive Out
  | unit
  | nothing
  | droppedLine (n : Nat)
  | log (r : Record)
  | count (n : Nat)
  deriving Repr, DecidableEq

def record (l : Line) : Record := ⟨l.level, l.type, l.timestamp.getD 0, l.text⟩

/-- Returning the first unread line. -/
def readLine (S : State) : Out × State :=
  match takeUnread S.entries with
  | none => (.nothing, S)
  | some (l, es) => (.log (record l), { S with entries := es, returned := S.returned ++ [l] })

/-- One call. `none`: outside of what is specified (levels above 7, finishing an upload that was not
started, uploads in a build without them, reading after a sent but unread line was forgotten).
Counters are 32 bits wide. -/
def step (cfg : Config) (S : State) : Op → Option (Out × State)
  | .save level type text now =>
    if level < 8 ∧ type < 2 then some (.unit, save cfg S level type text now) else none
  | .setMinLevel level => some (.unit, { S with minLevel := level })
  | .read =>
    if S.lost then none
    else if dropped S % 2 ^ 32 ≠ S.reported % 2 ^ 32 ∧ dropped S % 2 ^ 32 ≠ 0 then
      some (.droppedLine (dropped S % 2 ^ 32), { S with reported := dropped S })
    else some (readLine { S with reported := dropped S })
  | .trigger now =>
    if ¬ cfg.dataSource then none
    else if S.frozen.isSome ∨ unsent S.entries = 0 then some (.unit, S)
    else some (.unit, { S with frozen := some (unsent S.entries, now) })
  | .markSent =>
    S.frozen.map fun f => (.unit, { S with entries := markSent f.1 S.entries, frozen := none })
  | .unsentCount => some (.count (unsent S.entries), S)
  | .droppedCount => some (.count (dropped S % 2 ^ 32), S)
  | .recordedCount => some (.count (S.accepted.length % 2 ^ 32), S)

def run (cfg : Config) (S : State) : List Op → Option (List Out × State)
  | [] => some ([], S)
  | op :: ops =>
    (step cfg S op).bind fun r => (run cfg r.2 ops).map fun q => (r.1 :: q.1, q.2)

end Mflt.Spec.Log
