import Verif.Model.ZephyrRegions

/-! # Specification: what a Zephyr coredump must contain -/

namespace Mflt.Spec.ZephyrRegions

open Mflt.FreertosRegions (Region)
open Mflt.ZephyrRegions (Config Thread Memory Crash Op)

/-- The threads that exist, after those that existed before. -/
def alive (l : List Nat) : List Op → List Nat
  | [] => l
  | .create t :: ops => alive (l ++ [t]) ops
  | .abort t :: ops => alive (l.erase t) ops
  | .regions .. :: ops => alive l ops

/-- What the kernel does: a thread has an address, and two that exist never share one. -/
def Kernel (l : List Nat) : List Op → Prop
  | [] => True
  | .create t :: ops => t ≠ 0 ∧ t ∉ l ∧ Kernel (l ++ [t]) ops
  | .abort t :: ops => Kernel (l.erase t) ops
  | .regions .. :: ops => Kernel l ops

/-- There are never more than `max` threads. -/
def AtMost (max : Nat) (l : List Nat) : List Op → Prop
  | [] => True
  | .create t :: ops => l.length < max ∧ AtMost max (l ++ [t]) ops
  | .abort t :: ops => AtMost max (l.erase t) ops
  | .regions .. :: ops => AtMost max l ops

/-- An address is in RAM. -/
def inRam (c : Config) (a : Nat) : Bool := decide (c.ramStart ≤ a) && decide (a < c.ramEnd)

/-- The part of a region that is in RAM: all up to the end of RAM if it starts there. -/
def part (c : Config) (r : Region) : Option Region :=
  if inRam c r.start = true ∧ 0 < r.size then
    some ⟨r.start, if r.start + r.size ≤ c.ramEnd then r.size else c.ramEnd - r.start⟩
  else none

/-- A region is in RAM. -/
def Within (c : Config) (r : Region) : Prop :=
  0 < r.size ∧ c.ramStart ≤ r.start ∧ r.start + r.size ≤ c.ramEnd

/-- A thread as the kernel keeps it: its stack pointer is in its stack, which is within 32 bits. -/
structure Sane (th : Thread) : Prop where
  low : th.start ≤ th.sp
  top : th.sp + th.delta ≤ th.start + th.size
  fits : th.start + th.size < 2 ^ 32

/-- The stack of a thread: from its stack pointer to its top, but not more than is configured; or all of
it. -/
def stackOf (c : Config) (th : Thread) : Region :=
  if c.info = true ∧ c.full = true then ⟨th.start, th.size - th.delta⟩
  else if c.info = true ∧ th.start + th.size - th.delta - th.sp ≤ c.stackSize then
    ⟨th.sp, th.start + th.size - th.delta - th.sp⟩
  else ⟨th.sp, c.stackSize⟩

/-- The control blocks of threads. -/
def tcbs (c : Config) (ts : List Nat) : List Region := ts.filterMap fun t => part c ⟨t, c.tcbSize⟩

/-- The stacks of threads; that of the running thread is only there with full stacks, it is collected with the
crash. -/
def stacks (c : Config) (m : Memory) (current : Nat) (ts : List Nat) : List Region :=
  ts.filterMap fun t =>
    if c.full = false ∧ current = t then none else (m.thread t).bind fun th => part c (stackOf c th)

/-- The bookkeeping. -/
def bookkeeping (c : Config) : List Region :=
  (if c.usage = true then [⟨c.marksAddr, 4 * c.maxTasks⟩] else []) ++ [⟨c.tcbsAddr, 4 * c.maxTasks⟩]

/-- A region of which the part in RAM is collected, and nothing of it otherwise. -/
def clipped (c : Config) (r : Region) : Region := (part c r).getD ⟨r.start, 0⟩

/-- The stacks that were in use at the crash: the interrupted one, and in an interrupt that of the thread, with
its exception frame. -/
def active (c : Config) (crash : Crash) : List Region :=
  if c.collectStacks = true then
    clipped c ⟨crash.stack, c.stackSize⟩ ::
      (if c.arm = true ∧ crash.mspActive = some true then [clipped c ⟨crash.psp, c.stackSize + 128⟩] else [])
  else []

/-- The registers of the crash are given where they are looked at. -/
def Registers (c : Config) (crash : Crash) : Prop :=
  c.collectStacks = true → c.arm = true → crash.mspActive ≠ none

/-- All regions of a coredump, for the threads `ts`. -/
def everything (c : Config) (m : Memory) (current : Nat) (crash : Crash) (ts : List Nat) : List Region :=
  active c crash ++ (if c.collectKernel = true then [c.kernel] else []) ++
    (if c.collectTasks = true then tcbs c ts ++ stacks c m current ts ++ bookkeeping c else []) ++
    (if c.collectData = true then [c.data] else []) ++ (if c.collectBss = true then [c.bss] else [])

/-- RAM can be read: its bytes, and the threads that start in it. -/
structure Readable (c : Config) (m : Memory) : Prop where
  bytes : ∀ a, inRam c a = true → (m.byte a).isSome = true
  threads : ∀ t, t ≠ 0 → inRam c t = true → (m.thread t).isSome = true

/-- The bytes from an address on. -/
def bytesFrom (m : Memory) (a n : Nat) : List (Option UInt8) := (List.range n).map fun i => m.byte (a + i)

/-- How many bytes of a stack have never been written: those at its low end that are still painted. -/
def unused (m : Memory) (start size : Nat) : Nat :=
  ((bytesFrom m start size).takeWhile (· == some 0xAA)).length

end Mflt.Spec.ZephyrRegions
