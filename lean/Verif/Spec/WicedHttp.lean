/-!
# What one can observe of an upload with the WICED HTTP client

`include/memfault/http/platform/http_client.h`: a request carries one message, the callback is called with the
response or with nothing if the request failed, and it must always be called if posting was a success.
-/

namespace Mflt.Spec.WicedHttp

abbrev Bytes := List (BitVec 8)

/-- What happens, in order. `sent n body`: a request was handed to the network, announcing `n` bytes;
`cut n body`: a request was begun and then given up; `callback`: the caller of the post is told about a response with
that status, or about a failure; `returned`: the post returns; `reset`: an assertion failed. -/
inductive Ev
  | sent (n : Nat) (body : Bytes)
  | cut (n : Nat) (body : Bytes)
  | callback (status : Option Nat)
  | returned (rv : Int)
  | reset
  deriving Repr, DecidableEq

/-- The messages the server got, in order. -/
def delivered : List Ev → List Bytes
  | [] => []
  | .sent _ b :: l => b :: delivered l
  | _ :: l => delivered l

/-- Every request announces the number of bytes it carries. -/
def Honest (l : List Ev) : Prop := ∀ n b, Ev.sent n b ∈ l → n = b.length

/-- No request was given up half way. -/
def Uncut (l : List Ev) : Prop := ∀ n b, Ev.cut n b ∉ l

/-- Every request that does not directly follow one that was given up carries one of these messages, and announces as
many bytes. -/
def Intact (msgs : List Bytes) : Bool → List Ev → Prop
  | _, [] => True
  | _, .cut _ _ :: l => Intact msgs true l
  | false, .sent n b :: l => (n = b.length ∧ b ∈ msgs) ∧ Intact msgs false l
  | true, .sent _ _ :: l => Intact msgs false l
  | c, _ :: l => Intact msgs c l

def requests : List Ev → Nat
  | [] => 0
  | .sent _ _ :: l => requests l + 1
  | _ :: l => requests l

def callbacks : List Ev → Nat
  | [] => 0
  | .callback _ :: l => callbacks l + 1
  | _ :: l => callbacks l

/-- Where an orderly upload stands: no request is under way, one is, or one was refused by the server. -/
inductive Stage
  | ready
  | waiting
  | refused
  deriving Repr, DecidableEq

/-- An orderly upload: after each request the callback is called with its response before anything else happens,
and if the server did not accept the message (a status of 200 to 299) the post returns an error (-5) without sending
another. Otherwise it does not return that error. -/
def orderly : Stage → List Ev → Option Stage
  | g, [] => some g
  | .ready, .sent _ _ :: l => orderly .waiting l
  | .ready, .cut _ _ :: l => orderly .ready l
  | .ready, .returned rv :: l => if rv = -5 then none else orderly .ready l
  | .waiting, .callback (some c) :: l => orderly (if 200 ≤ c ∧ c ≤ 299 then .ready else .refused) l
  | .refused, .returned rv :: l => if rv = -5 then orderly .ready l else none
  | _, _ :: _ => none

end Mflt.Spec.WicedHttp
