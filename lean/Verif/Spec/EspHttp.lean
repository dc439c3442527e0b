import Verif.Model.EspHttp
import Verif.Spec.ZephyrUpload

/-
What is expected of the HTTP clients of the ESP ports.
-/
namespace Mflt.Spec.EspHttp

open Mflt.EspHttp (Perf Source Netif Act)

/-- The size `n` is the first of `max`, `max / 2`, `max / 4`, ... for which there is memory, and is above
`min`. -/
def Fits (heap : Nat → Bool) (max min n : Nat) : Prop :=
  ∃ k, n = max / 2 ^ k ∧ min < n ∧ heap n = true ∧ ∀ j < k, heap (max / 2 ^ j) = false

/-- A chunk of up to `size` bytes is taken from the packetizer. -/
def Takes {π : Type} (src : Source π) (size : Nat) (p : π) (d : Bytes) (q : π) : Prop :=
  src.chunk size p = (some d, q)

/-- A status with which the server says that it has the chunk. -/
def Accepted (status : Int) : Prop := status = 200 ∨ status = 202

/-- A client, what is held and what was asked for: each is given back at most once. -/
structure Held where
  clients : Nat := 0
  urls : Nat := 0
  bodies : Nat := 0
deriving Repr, DecidableEq

/-- What is held after what was asked for; `none` if something was given back that was not held. -/
def held : List Act → Held → Option Held
  | [], h => some h
  | .opened :: t, h => held t { h with clients := h.clients + 1 }
  | .url :: t, h => held t { h with urls := h.urls + 1 }
  | .body :: t, h => held t { h with bodies := h.bodies + 1 }
  | .closed :: t, h => if h.clients = 0 then none else held t { h with clients := h.clients - 1 }
  | .urlFreed :: t, h => if h.urls = 0 then none else held t { h with urls := h.urls - 1 }
  | .bodyFreed :: t, h => if h.bodies = 0 then none else held t { h with bodies := h.bodies - 1 }

end Mflt.Spec.EspHttp
