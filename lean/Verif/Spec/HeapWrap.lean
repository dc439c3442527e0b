import Verif.Model.HeapWrap

/-!
# Specification of the heap statistics behind the ports (C100)

The truth is `World.live`, the blocks of the allocator with the caller and the size of each.
-/

namespace Mflt.Spec.HeapWrap

open Mflt.HeapWrap (Op Port World Job)

/-- Only tasks use the heap, and only through the functions that are wrapped. -/
def wrapped : Op → Bool
  | .malloc .. => true
  | .free .. => true
  | .step _ => true
  | _ => false

/-- A call of a task. -/
inductive Call
  | malloc (t lr ptr size : Nat)
  | free (t ptr : Nat)

/-- A call that nobody interrupts: at most five more steps of the task. -/
def undisturbed : Call → List Op
  | .malloc t lr ptr size => .malloc t lr ptr size :: List.replicate 5 (.step t)
  | .free t ptr => .free t ptr :: List.replicate 5 (.step t)

/-- No call is in progress. -/
def quiet (w : World) : Prop := ∀ j ∈ w.tasks, j = Job.idle

/-- All the states that a schedule goes through. -/
def states (port : Port) (w : World) : List Op → List World
  | [] => [w]
  | op :: ops => w :: ((Mflt.HeapWrap.step port w op).map fun w' => states port w' ops).getD []

end Mflt.Spec.HeapWrap
