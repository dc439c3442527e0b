import Verif.Model.ThreadMetrics

/-! # Specification: thread metrics -/

namespace Mflt.Spec.ThreadMetrics

open Mflt.ThreadMetrics (Thread FTask TaskEntry)

variable {ν κ : Type} [DecidableEq ν]

/-- The usage of the thread with a name: of several, the one the kernel lists last; `none` if there is none. -/
def usageNamed (threads : List (Thread ν)) (n : ν) : Option Nat :=
  ((threads.filter fun t => t.name = n).map Thread.usage).getLast?

/-- The task an entry stands for: the one its function tells, if it tells one, else the first one with the name. -/
def IsTask (tasks : List (FTask ν)) (e : TaskEntry ν κ) (t : FTask ν) : Prop :=
  (∃ h, e.handle = some (some h) ∧ t ∈ tasks ∧ t.handle = h) ∨
  ((e.handle = none ∨ e.handle = some none) ∧
    ∃ before after, tasks = before ++ t :: after ∧ t.name = e.name ∧ ∀ x ∈ before, x.name ≠ e.name)

end Mflt.Spec.ThreadMetrics
