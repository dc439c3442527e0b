import Verif.Model.FreertosRegions

/-! # Specification: regions of the live tasks -/

namespace Mflt.Spec.FreertosRegions

open Mflt.FreertosRegions (Config Platform Region Op)

/-- The tasks that exist, after those that existed before. -/
def alive (l : List Nat) : List Op → List Nat
  | [] => l
  | .create t :: ops => alive (l ++ [t]) ops
  | .delete t :: ops => alive (l.erase t) ops
  | .regions _ :: ops => alive l ops

/-- What the kernel does: tasks have a control block, two tasks never share one; and there are never
more than `max` tasks. -/
def Kernel (max : Nat) (l : List Nat) : List Op → Prop
  | [] => True
  | .create t :: ops => t ≠ 0 ∧ t ∉ l ∧ l.length < max ∧ Kernel max (l ++ [t]) ops
  | .delete t :: ops => Kernel max (l.erase t) ops
  | .regions _ :: ops => Kernel max l ops

/-- A control block is in memory. -/
def valid (c : Config) (p : Platform) (t : Nat) : Bool := p.sanitize t c.tcbSize != 0

/-- The region of a control block. -/
def tcbRegion (c : Config) (p : Platform) (t : Nat) : Region := ⟨t, p.sanitize t c.tcbSize⟩

/-- The region of the saved stack of a task, if it is in memory. -/
def stackRegion (c : Config) (p : Platform) (t : Nat) : Option Region :=
  match p.pointer t with
  | some top => if p.sanitize top c.stackSize = 0 then none else some ⟨top, p.sanitize top c.stackSize⟩
  | none => none

/-- All regions of a list of tasks: first the control blocks, then the stacks, then the bookkeeping
if stack usage is recorded. -/
def allRegions (c : Config) (p : Platform) (ts : List Nat) : List Region :=
  ts.map (tcbRegion c p) ++ ts.filterMap (stackRegion c p) ++
    if c.stackUsage then [⟨c.tcbsAddr, 4 * c.maxTasks⟩, ⟨c.marksAddr, 4 * c.maxTasks⟩] else []

end Mflt.Spec.FreertosRegions
