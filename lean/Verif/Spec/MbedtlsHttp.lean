import Verif.Model.MbedtlsHttp
import Verif.Spec.ZephyrUpload

/-
What is expected of the client on top of Mbed TLS. Posts, messages and responses are those of
`Spec.ZephyrUpload` and `Spec.Http`.
-/
namespace Mflt.Spec.MbedtlsHttp

open Mflt.MbedtlsHttp (Act Cx Op Net Rd Wr)

/-- What is held: contexts, descriptors, address lists. -/
structure Held where
  contexts : List Cx := []
  descriptors : List Nat := []
  lists : List Nat := []
deriving DecidableEq

/-- What is held after what was asked for; `none` if a context was initialised twice without being freed,
or something was given back that was not held. -/
def held : List Act → Held → Option Held
  | [], h => some h
  | .made c :: t, h =>
    if c ∈ h.contexts then none else held t { h with contexts := c :: h.contexts }
  | .freed c :: t, h =>
    if c ∈ h.contexts then held t { h with contexts := h.contexts.erase c } else none
  | .opened fd :: t, h => held t { h with descriptors := fd :: h.descriptors }
  | .closed fd :: t, h =>
    if 0 ≤ fd ∧ fd.toNat ∈ h.descriptors then
      held t { h with descriptors := h.descriptors.erase fd.toNat } else none
  | .looked i :: t, h => held t { h with lists := i :: h.lists }
  | .dropped i :: t, h => if i ∈ h.lists then held t { h with lists := h.lists.erase i } else none

/-- The network of a call. -/
def netOf : Op → Option Net
  | .create n => some n
  | .destroy _ => none
  | .post _ n _ => some n

/-- A lookup that gives a list is followed by a descriptor, and one that fails gives no list. -/
def SocketsGiven (n : Net) : Prop := n.list = true → n.dns = 0 ∧ n.socket = true

/-- Data arrives at least `n` times, and no read fails. -/
def Arrives (reads : List Rd) (n : Nat) : Prop :=
  Rd.fail ∉ reads ∧ n ≤ reads.countP fun r => match r with
    | .data _ => true
    | _ => false

/-- What arrives is not the beginning of some response that is cut. -/
def NotCut (incoming : Bytes) : Prop :=
  ∀ r : Mflt.Spec.Http.Response, r.Ok → ∀ k < r.bytes.length, incoming ≠ r.bytes.take k

end Mflt.Spec.MbedtlsHttp
