import Verif.Spec.Base64
import Verif.Spec.Packetizer

/-! # Specification: exported chunks -/

namespace Mflt.Spec.DataExport

open Mflt.Packetizer (Src Config)
open Spec.Packetizer (State IsMessage pick received)

/-- Reading back a line: "MC:", base64, ":". -/
def parseLine (l : Bytes) : Option Bytes :=
  if l.take 3 = "MC:".toUTF8.toList ∧ l.getLast? = some 58 ∧ 4 ≤ l.length then
    Base64.decode ((l.drop 3).dropLast)
  else none

/-- A source has delivered its oldest message. -/
def delivered (S : State) (src : Src) (m : Bytes) (rest : List Bytes) : State :=
  { S with cur := none
           queue := fun x => if x = src then rest else S.queue x
           delivered := S.delivered ++ [(src, m)] }

/-- The chunks are complete transfers of all messages the enabled sources hold, in the order of the
packetizer's priorities: each group of chunks reassembles to one message. A transfer that was already
in progress is completed first. -/
inductive Exported (cfg : Config) : State → List Bytes → State → Prop
  | nothing (S : State) : S.cur = none → pick S = none → Exported cfg S [] S
  | message (S S' : State) (src : Src) (m message : Bytes) (rest group chunks : List Bytes) :
      S.cur = none → pick S = some src → S.queue src = m :: rest → IsMessage cfg src m message →
      Chunk.reassemble group = some message →
      Exported cfg (delivered S src m rest) chunks S' → Exported cfg S (group ++ chunks) S'
  | continued (S S' : State) (t : Packetizer.Transfer) (m : Bytes) (rest group chunks : List Bytes) :
      S.cur = some t → S.queue t.src = m :: rest →
      Chunk.reassemble (t.pieces ++ group) = some t.message →
      Exported cfg (delivered S t.src m rest) chunks S' → Exported cfg S (group ++ chunks) S'

end Mflt.Spec.DataExport
