import Verif.Model.CoredumpStorage

/-!
# Specification: coredump storage

A storage of fixed size that can be erased, written and read in place, and the pattern its self test
uses. From the model only the record of the functions is used.
-/

namespace Mflt.Spec.CoredumpStorage

open Mflt.CoredumpStorage (Platform)

/-- The bytes at `offset`. -/
def slice (mem : Bytes) (offset len : Nat) : Bytes := (mem.drop offset).take len

/-- The contents with `data` at `offset`. -/
def update (mem : Bytes) (offset : Nat) (data : Bytes) : Bytes :=
  mem.take offset ++ data ++ mem.drop (offset + data.length)

/-- A storage that works: within its bounds every operation succeeds and does what its name says; an
erased storage is all `0x00` or all `0xff`. `saveBegin` does not change it. `clear` erases (at least)
the first byte. -/
structure Works (p : Platform Bytes) : Prop where
  saveBegin : ∀ m, m.length = p.size → p.saveBegin m = some (true, m)
  erase : ∃ e : UInt8, (e = 0x00 ∨ e = 0xff) ∧
    ∀ m, m.length = p.size → p.erase m 0 p.size = some (true, List.replicate p.size e)
  write : ∀ m offset data, m.length = p.size → offset + data.length ≤ p.size →
    p.write m offset data = some (true, update m offset data)
  read : ∀ m offset len, m.length = p.size → offset + len ≤ p.size →
    p.read m offset len = some (some (slice m offset len), m)
  clear : ∀ m, m.length = p.size → 0 < p.size → ∃ m' : Bytes, p.clear m = some m' ∧
    m'.length = p.size ∧ (m'.getD 0 0x55 = 0x00 ∨ m'.getD 0 0x55 = 0xff)

/-- A storage that can be read back faithfully; erasing and writing may do anything at all. -/
structure Readable (p : Platform Bytes) : Prop where
  read : ∀ m offset len, m.length = p.size → offset + len ≤ p.size →
    p.read m offset len = some (some (slice m offset len), m)
  saveBegin : ∀ m b m', m.length = p.size → p.saveBegin m = some (b, m') → m'.length = p.size
  erase : ∀ m o l b m', m.length = p.size → p.erase m o l = some (b, m') → m'.length = p.size
  write : ∀ m o d b m', m.length = p.size → p.write m o d = some (b, m') → m'.length = p.size

/-- What the self test leaves in the storage: 19 bytes over and over. -/
def testByte (i : Nat) : UInt8 :=
  [0xa0, 0xa1, 0xa2, 0xa3, 0xa4, 0xa5, 0xa6, 0xa7, 0xa8, 0xa9, 0xaa, 0xab,
    0x5f, 0x5e, 0x5d, 0x5c, 0x5b, 0x5a, 0x59].getD (i % 19) 0

def testImage (size : Nat) : Bytes := (List.range size).map testByte

/-- Operations on a storage. -/
inductive Op
  | read (offset len : Nat)
  | write (offset : Nat) (data : Bytes)
  | erase (offset len : Nat)
  | clear
  deriving Repr, DecidableEq

/-- Answers: refused, done, or the bytes read. -/
inductive Out
  | refused
  | done
  | bytes (b : Bytes)
  deriving Repr, DecidableEq

/-- The range an operation is about. -/
def range : Op → Nat × Nat
  | .read o l => (o, l)
  | .write o d => (o, d.length)
  | .erase o l => (o, l)
  | .clear => (0, 1)

/-- A storage in memory whose erased bytes are zero. -/
def step (mem : Bytes) : Op → Out × Bytes
  | .read o l => if o + l ≤ mem.length then (.bytes (slice mem o l), mem) else (.refused, mem)
  | .write o d => if o + d.length ≤ mem.length then (.done, update mem o d) else (.refused, mem)
  | .erase o l =>
    if o + l ≤ mem.length then (.done, update mem o (List.replicate l 0)) else (.refused, mem)
  | .clear => (.done, if mem.length = 0 then mem else update mem 0 [0])

def run (mem : Bytes) : List Op → List Out × Bytes
  | [] => ([], mem)
  | op :: ops => ((step mem op).1 :: (run (step mem op).2 ops).1, (run (step mem op).2 ops).2)

end Mflt.Spec.CoredumpStorage
