import Verif.Spec.DataExport
import Verif.Model.PortLog

/-!
# Specification: log messages on the console

From the model only the names of the ports and the records of the configuration and of what is logged
are used.
-/

namespace Mflt.Spec.PortLog

open Mflt.PortLog (Port Cfg Op)

def text (s : String) : Bytes := s.toUTF8.data.toList

/-- What is in front of the text of a message with level debug, info, warning or error (0 to 3). -/
def header (p : Port) (ts : Bytes) (level : Nat) : Bytes :=
  let letter := text (["D", "I", "W", "E"].getD level "")
  let name := text (["dbg", "inf", "wrn", "err"].getD level "")
  match p with
  | .da145xx | .da1469x => text "[" ++ letter ++ text "] MFLT: "
  | .esp8266 | .espIdf => letter ++ text " (" ++ ts ++ text ") mflt: "
  | .zephyr => text "[" ++ ts ++ text "] <" ++ name ++ text "> mflt: "
  | .zephyrPrintk => text "<" ++ name ++ text "> mflt: "

/-- The end of a line. -/
def lineEnd : Port → Bytes
  | .da145xx | .da1469x | .zephyr => [13, 10]
  | _ => [10]

/-- Messages of a level reach the console. -/
def Enabled (p : Port) (c : Cfg) (level : Nat) : Prop :=
  match p with
  | .da145xx | .da1469x => c.console = true
  | .zephyrPrintk => True
  | _ => 4 ≤ c.shown + level

/-- A letter of base64, or '='. -/
def inBase64 (b : UInt8) : Bool := (Spec.Base64.value b).isSome || b == 61

/-- The chunk whose line begins here: "MC:", base64, ":". -/
def here (b : Bytes) : Option Bytes :=
  if b.take 3 = text "MC:" ∧ ((b.drop 3).dropWhile inBase64).head? = some 58 then
    Spec.Base64.decode ((b.drop 3).takeWhile inBase64)
  else none

/-- The chunks a reader finds in what was written to the console. -/
def found : Bytes → List Bytes
  | [] => []
  | c :: cs =>
    match here (c :: cs) with
    | some chunk => chunk :: found cs
    | none => found cs

/-- There is no "MC:" in a text. -/
def NoMark (b : Bytes) : Prop := ∀ i, (b.drop i).take 3 ≠ text "MC:"

/-- The chunks that were exported, in their order. -/
def chunks : List (Bytes × Op) → List Bytes
  | [] => []
  | (_, .chunk b) :: ops => b :: chunks ops
  | (_, .message _ _) :: ops => chunks ops

end Mflt.Spec.PortLog
