import Verif.Spec.Event
import Verif.Spec.Log

/-!
# Specification: an upload of the log

An event of type 4 (6 if lines carry times) whose information is one array, with for each of the
collected lines: its time (0 if none was taken) in builds with times, its level and its text.
-/

namespace Mflt.Spec.Log

open Cbor (Item)
open Mflt.Log (Config)

/-- The lines of an upload of `n` lines: the oldest unsent ones. -/
def collected (n : Nat) (es : List Entry) : List Line :=
  ((es.filter fun e => !e.sent).take n).map Entry.line

def lineItems (cfg : Config) (l : Line) : List Item :=
  (if cfg.timestamps then [.uint (l.timestamp.getD 0)] else []) ++
  [.uint l.level, if l.type = 0 then .text l.text else .bytes l.text]

def upload (cfg : Config) (dev : SerializerHelper.Device) (n : Nat) (time : Option Nat)
    (es : List Entry) : Item :=
  Event.event dev (if cfg.timestamps then 6 else 4) time
    (.array ((collected n es).flatMap (lineItems cfg)))

end Mflt.Spec.Log
