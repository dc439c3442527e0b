import Verif.Model.ZephyrOta

/-
What an update handler may rely on, independent of how the download is done. Only the calls of the
handler are shared with the model.
-/
namespace Mflt.Spec.ZephyrOta
open Mflt.ZephyrOta (Call Recv)

/-- The handler's view of the download of `body`: nothing at all; or the size and then bytes from the
start of the body, in order and without gaps; or the size, all of the body and the completion, which
the handler's answer (`accept`, given all its calls) makes a success or not. -/
inductive Seen (accept : List Call → Bool) (body : Bytes) : List Call → Bool → Prop
  | nothing : Seen accept body [] false
  | part (pieces : List Bytes) (h : pieces.flatten <+: body) :
      Seen accept body (.available body.length :: pieces.map .data) false
  | all (pieces : List Bytes) (h : pieces.flatten = body) :
      Seen accept body (.available body.length :: pieces.map .data ++ [.complete])
        (accept (.available body.length :: pieces.map .data ++ [.complete]))

/-- Data arrives at least `n` times, and no wait for it fails. -/
def Arrives (script : List Recv) (n : Nat) : Prop :=
  Recv.fail ∉ script ∧ n ≤ script.countP fun r => match r with
    | .data _ => true
    | _ => false

end Mflt.Spec.ZephyrOta
