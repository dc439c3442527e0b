import Verif.Model.Coredump
import Verif.Model.BufferedStorage

/-!
# Specification: flash memory, and a coredump storage in it

Flash memory and the vendors' drivers are described here, they are not part of the repository. Flash is
addressed by bytes. Programming only clears bits; erasing sets all bits.
-/

namespace Mflt.Spec.Flash

/-- The contents of the flash by address. -/
abbrev Flash := Nat → UInt8

/-- `d` programmed at address `a`. -/
def program (m : Flash) (a : Nat) (d : Bytes) : Flash :=
  fun i => if a ≤ i ∧ i < a + d.length then m i &&& d.getD (i - a) 0xff else m i

/-- `n` bytes at address `a` erased. -/
def erase (m : Flash) (a n : Nat) : Flash := fun i => if a ≤ i ∧ i < a + n then 0xff else m i

/-- The `n` bytes at address `a`. -/
def read (m : Flash) (a n : Nat) : Bytes := (List.range n).map fun i => m (a + i)

/-- Flash with check bits: `n` bytes at a time, aligned, either erased before or programmed to zero. `none`:
the driver reports an error. -/
def programOnce (n : Nat) (m : Flash) (a : Nat) (d : Bytes) : Option Flash :=
  if a % n = 0 ∧ d.length = n ∧ (read m a n = List.replicate n 0xff ∨ d = List.replicate n 0) then
    some (program m a d)
  else none

/-- The functions a coredump storage consists of. `none`: the device reboots, or does not come back. A read
gives `none` if it fails. -/
structure Port where
  size : Nat
  read : Flash → Nat → Nat → Option Bytes
  write : Flash → Nat → Bytes → Option (Bool × Flash)
  erase : Flash → Nat → Nat → Option (Bool × Flash)
  clear : Flash → Option Flash

/-- Nothing but the `size` bytes at `start` differs. -/
def Only (start size : Nat) (m m' : Flash) : Prop := ∀ a, a < start ∨ start + size ≤ a → m' a = m a

/-- A coredump storage of `size` bytes at `start`, in a part of the flash (`len` bytes at `lo`) that is meant
for it: reads work, all of it can be erased, a clear takes the first byte of the header away; nothing outside
of this part is touched. -/
structure Medium (start size lo len : Nat) (p : Port) : Prop where
  inside : lo ≤ start ∧ start + size ≤ lo + len
  size_eq : p.size = size
  read_eq : ∀ m o n, o + n ≤ size → p.read m o n = some (read m (start + o) n)
  erase_all : ∀ m, ∃ m', p.erase m 0 size = some (true, m') ∧ Only lo len m m' ∧
    ∀ i, i < size → m' (start + i) = 0xff
  clear_eq : ∀ m, ∃ m', p.clear m = some m' ∧ Only lo len m m' ∧ (m' start = 0 ∨ m' start = 0xff)

/-- One in which any part can be written. -/
structure Storage (start size lo len : Nat) (p : Port) : Prop extends Medium start size lo len p where
  write_eq : ∀ m o d, d ≠ [] → o + d.length ≤ size → p.write m o d = some (true, program m (start + o) d)

/-- One in which aligned blocks of `W` bytes can be written where it is erased. -/
structure BlockStorage (start size lo len W : Nat) (p : Port) : Prop extends Medium start size lo len p where
  block_eq : ∀ m o d, o % W = 0 → d.length = W → o + W ≤ size →
    (∀ i, i < W → m (start + o + i) = 0xff) → p.write m o d = some (true, program m (start + o) d)

/-- Requests that do not lie inside the storage are refused and nothing is changed. -/
structure Refuses (size : Nat) (p : Port) : Prop where
  read_out : ∀ m o n, size < o + n → o + n < 2 ^ 32 → p.read m o n = none
  write_out : ∀ m o d, d ≠ [] → size < o + d.length → o + d.length < 2 ^ 32 → p.write m o d = some (false, m)
  erase_out : ∀ m o n, size < o + n → o + n < 2 ^ 32 → p.erase m o n = some (false, m)

/-- Storage operations one after the other, all of which succeed. -/
def runOps (p : Port) (m : Flash) : List Coredump.Op → Option Flash
  | [] => some m
  | .erase n :: ops =>
    match p.erase m 0 n with
    | some (true, m) => runOps p m ops
    | _ => none
  | .write o d :: ops =>
    match p.write m o d with
    | some (true, m) => runOps p m ops
    | _ => none

/-- Blocks as storage operations. -/
def blockOps (log : List (Nat × Bytes)) : List Coredump.Op := log.map fun b => .write b.1 b.2

/-- The block writer's view of flash `m`: a block is written if the port does so after the blocks before. -/
def answers (p : Port) (m : Flash) : BufferedStorage.Port := fun log b => (runOps p m (blockOps (log ++ [b]))).isSome

end Mflt.Spec.Flash
