/-!
# What the MQTT demo for the Cypress kit is to do
-/

namespace Mflt.Spec.CypressMqtt

abbrev Bytes := List UInt8

/-- What sends data in chunks: whether there is more, and the next chunk for a buffer of a size of at least 9 bytes. -/
structure Packetizer (S : Type) where
  more : S → Bool
  chunk : S → Nat → Bytes × S

/-- What can be seen of the demo. -/
inductive Ev where
  | connect (ok : Bool)
  | publish (data : Bytes) (ok : Bool)
  | disconnect
  | close
  deriving DecidableEq, Repr

/-- `cs` are all chunks that are there, for buffers of `size` bytes. -/
inductive Drains {S : Type} (p : Packetizer S) (size : Nat) : S → List Bytes → Prop where
  | nil {s : S} : p.more s = false → Drains p size s []
  | cons {s : S} {cs : List Bytes} : p.more s = true → Drains p size (p.chunk s size).2 cs → Drains p size s ((p.chunk s size).1 :: cs)

/-- `cs` are chunks that follow each other, for buffers of at least 9 and at most `size` bytes. -/
inductive Follows {S : Type} (p : Packetizer S) (size : Nat) : S → List Bytes → Prop where
  | nil {s : S} : Follows p size s []
  | cons {s : S} {cs : List Bytes} {n : Nat} : 9 ≤ n → n ≤ size → p.more s = true → Follows p size (p.chunk s n).2 cs →
      Follows p size s ((p.chunk s n).1 :: cs)

/-- What was published, and whether it went well. -/
def published (evs : List Ev) : List (Bytes × Bool) :=
  evs.filterMap fun e => match e with
    | .publish d ok => some (d, ok)
    | _ => none

/-- How often a connection was tried. -/
def tries (evs : List Ev) : Nat := (evs.filter fun e => match e with
    | .connect _ => true
    | _ => false).length

end Mflt.Spec.CypressMqtt
