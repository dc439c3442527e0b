import Verif.Model.Particle
import Verif.Spec.Base64
import Verif.Spec.Packetizer

/-! # Specification: chunks published by the Particle port -/

namespace Mflt.Spec.Particle

open Mflt.Packetizer (Src Config)
open Mflt.Particle (Act Call)
open Mflt.Spec.Packetizer (IsMessage)

/-- The messages a source was given. -/
def given (src : Src) : List Act → List Bytes
  | [] => []
  | .enqueue x m :: as => if x = src then m :: given src as else given src as
  | _ :: as => given src as

/-- The calls of a history. -/
def calls : List Act → List Call
  | [] => []
  | .process c :: as => c :: calls as
  | _ :: as => calls as

/-- A call which finds events of a size for which the port works: `max % 4` is 0 or 1, and a chunk of at least nine
bytes fits. The heap gives blocks of the size asked for. -/
def Usable (c : Call) : Prop :=
  12 ≤ c.max ∧ c.max < 2 ^ 30 ∧ c.max % 4 ≤ 1 ∧ ∀ b, c.heap = some b → b.length = c.max + 1

/-- Time does not go back. -/
def Clock : Nat → List Call → Prop
  | _, [] => True
  | now, c :: cs => now ≤ c.t1 ∧ c.t1 ≤ c.t2 ∧ Clock c.t2 cs

/-- One after the other, at least a second apart. -/
def Spaced : List Nat → Prop
  | [] => True
  | [_] => True
  | a :: b :: l => a + 1000 ≤ b ∧ Spaced (b :: l)

/-- Each group of chunks reassembles to one of the messages, in this order. -/
def Carries (cfg : Config) : List (List Bytes) → List (Src × Bytes) → Prop
  | [], [] => True
  | g :: gs, (src, m) :: ms =>
    (∃ message, IsMessage cfg src m message ∧ Chunk.reassemble g = some message) ∧ Carries cfg gs ms
  | _, _ => False

end Mflt.Spec.Particle
