import Verif.Spec.Base64
import Verif.Spec.Log
import Verif.Spec.CompactLog
import Verif.Spec.Event
import Verif.Model.LogExport

/-! # Specification: exported logs; events with a compact log -/

namespace Mflt.Spec.LogExport

open Mflt.LogExport (Printed)
open Spec.Log (Line Entry State)

/-- Reading back a printed line: "ML:", base64, ":". -/
def parseLine (l : Bytes) : Option Bytes :=
  if l.take 3 = "ML:".toUTF8.toList ∧ l.getLast? = some 58 ∧ 4 ≤ l.length then
    Base64.decode ((l.drop 3).dropLast)
  else none

/-- The printed lines carry these log lines: a text line as it is; a compact one in pieces of at most `max` bytes. -/
inductive Prints (max : Nat) : List Line → List Printed → Prop
  | done : Prints max [] []
  | text (l : Line) (ls : List Line) (ps : List Printed) : l.type = 0 → Prints max ls ps →
      Prints max (l :: ls) (.msg l.level l.text :: ps)
  | compact (l : Line) (ls : List Line) (ps : List Printed) (texts pieces : List Bytes) : l.type = 1 →
      texts.map parseLine = pieces.map some → pieces.flatten = l.text → (∀ p ∈ pieces, 0 < p.length ∧ p.length ≤ max) →
      Prints max ls ps → Prints max (l :: ls) (texts.map (.msg l.level) ++ ps)

/-- Lines not returned to a reader. -/
def unread (es : List Entry) : List Line := (es.filter fun e => !e.read).map (·.line)

/-- The notice that lines were dropped, if there are any since the last one. -/
def notice (S : State) : List Printed :=
  if Log.dropped S % 2 ^ 32 ≠ S.reported % 2 ^ 32 ∧ Log.dropped S % 2 ^ 32 ≠ 0 then [.notice (Log.dropped S % 2 ^ 32)] else []

/-- After all lines were read. -/
def allRead (S : State) : State :=
  { S with entries := S.entries.map fun e => { e with read := true }
           reported := Log.dropped S
           returned := S.returned ++ unread S.entries }

open Cbor (Item)

/-- How the receiver reads the compact log in an event. -/
def readItem : Item → Option (Nat × List CompactLog.Value)
  | .array (.uint off :: is) => (CompactLog.readValues is).map fun vs => (off, vs)
  | _ => none

end Mflt.Spec.LogExport
