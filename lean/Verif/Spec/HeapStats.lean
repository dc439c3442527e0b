/-!
# Specification of the heap statistics (C33)

The newest live allocations, most recent first, at most `n` of them, and how many blocks are in use.
A report that no allocator makes (a pointer that is still tracked is returned again, a free without an
allocation, 2^32 blocks in use) is outside of the specification.
-/

namespace Mflt.Spec.HeapStats

structure Alloc where
  lr : Nat
  ptr : Nat
  size : Nat
  deriving Repr, DecidableEq

structure State where
  tracked : List Alloc
  inUse : Nat
  maxInUse : Nat
  deriving Repr, DecidableEq

inductive Op
  | malloc (lr ptr size : Nat)
  | free (ptr : Nat)
  | reset
  deriving Repr, DecidableEq

def init : State := ⟨[], 0, 0⟩

/-- One report, with room for `n` allocations. -/
def step (n : Nat) (s : State) : Op → Option State
  | .malloc lr ptr size =>
    if ptr = 0 then some s
    else if (∃ a ∈ s.tracked, a.ptr = ptr) ∨ s.inUse + 1 = 4294967296 ∨ 2147483648 ≤ size then none
    else some ⟨(⟨lr, ptr, size⟩ :: s.tracked).take n, s.inUse + 1, max s.maxInUse (s.inUse + 1)⟩
  | .free ptr =>
    if ptr = 0 then some s
    else if s.inUse = 0 then none
    else some ⟨s.tracked.filter fun a => a.ptr ≠ ptr, s.inUse - 1, s.maxInUse⟩
  | .reset => some init

def run (n : Nat) (s : State) : List Op → Option State
  | [] => some s
  | op :: ops => (step n s op).bind fun s => run n s ops

/-- Whether an allocation was reported since the last reset (`b`: before these reports). -/
def reported (b : Bool) : List Op → Bool
  | [] => b
  | .malloc _ ptr _ :: ops => reported (if ptr = 0 then b else true) ops
  | .free _ :: ops => reported b ops
  | .reset :: ops => reported false ops

end Mflt.Spec.HeapStats
