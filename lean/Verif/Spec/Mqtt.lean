/-!
# Sending messages as chunks over MQTT

A message is a list of chunks. Chunks are handed over one after the other, over the borders of messages.
-/

namespace Mflt.Spec.Mqtt

abbrev Bytes := List (BitVec 8)

/-- What one can observe: a chunk is handed to the library, which has a connection (`up`) or not; the call returns. -/
inductive Ev
  | publish (up : Bool) (topic : List Char) (chunk : Bytes) (rv : Int)
  | returned (rv : Int)
  deriving Repr, DecidableEq

/-- The chunks that were handed over. -/
def published : List Ev → List Bytes
  | [] => []
  | .publish _ _ c _ :: l => c :: published l
  | _ :: l => published l

/-- The messages that are left after `n` chunks have been taken, if a message is deleted when its last chunk is taken
and sent again from its start otherwise. -/
def left : Nat → List (List Bytes) → List (List Bytes)
  | _, [] => []
  | n, m :: ms => if m.length ≤ n then left (n - m.length) ms else m :: ms

/-- How many chunks are tried if sending stops at the first that fails (a negative result). Results that are not listed
are successes. -/
def tries : Nat → List Int → Nat
  | 0, _ => 0
  | n + 1, [] => n + 1
  | n + 1, r :: rs => if r < 0 then 1 else tries n rs + 1

/-- The topic of a device. -/
def topic (serial : List Char) : List Char := "memfault/my_project/".toList ++ serial ++ "/chunks".toList

end Mflt.Spec.Mqtt
