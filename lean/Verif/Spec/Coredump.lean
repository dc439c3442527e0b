import Verif.Model.Coredump

/-!
# Specification: the coredump format and the storage

From the model only the records of what is to be saved and of storage operations are used.
-/

namespace Mflt.Spec.Coredump

open Mflt.Coredump (Region SaveInfo Op)

/-- A little-endian number. -/
def number : Bytes → Nat
  | [] => 0
  | b :: bs => b.toNat + 256 * number bs

/-- A block of a coredump. -/
structure Block where
  type : Nat
  address : Nat
  payload : Bytes
  deriving Repr, DecidableEq

/-- Blocks one after the other: type (1 byte, 3 reserved), address (4), length (4), payload. -/
def parseBlocks : Nat → Bytes → Option (List Block)
  | 0, _ => none
  | fuel + 1, bs =>
    if bs = [] then some []
    else if bs.length < 12 then none
    else
      let length := number ((bs.drop 8).take 4)
      if bs.length < 12 + length then none
      else (parseBlocks fuel (bs.drop (12 + length))).map fun rest =>
        { type := number (bs.take 1), address := number ((bs.drop 4).take 4),
          payload := (bs.drop 12).take length } :: rest

/-- A stored coredump: its blocks, its total size, and whether it says that it was truncated. -/
structure Dump where
  totalSize : Nat
  truncated : Bool
  blocks : List Block
  deriving Repr, DecidableEq

/-- Header: "CORE", version 2, total size. Footer, in the last 16 bytes of the total size: "DUMP",
flags. -/
def parse (mem : Bytes) : Option Dump :=
  let total := number ((mem.drop 8).take 4)
  if mem.take 4 = [0x43, 0x4f, 0x52, 0x45] ∧ number ((mem.drop 4).take 4) = 2 ∧ 28 ≤ total ∧
      total ≤ mem.length ∧ (mem.drop (total - 16)).take 4 = [0x44, 0x55, 0x4d, 0x50] then
    (parseBlocks mem.length ((mem.drop 12).take (total - 28))).map fun blocks =>
      { totalSize := total, truncated := number ((mem.drop (total - 12)).take 4) % 2 = 1, blocks }
  else none

/-- One operation. Erased bytes read as `e`. -/
def apply (e : UInt8) (mem : Bytes) : Op → Bytes
  | .erase n => List.replicate n e ++ mem.drop n
  | .write off d => mem.take off ++ d ++ mem.drop (off + d.length)

/-- The first `j` bytes of an operation. -/
def cut (j : Nat) : Op → Op
  | .erase n => .erase (min j n)
  | .write off d => .write off (d.take j)

/-- What operations did to the storage when those that failed (answer `false`) did some part of what they
were asked to. -/
def torn (answer : Nat → Bool) (part : Nat → Nat) : Nat → List Op → List Op
  | _, [] => []
  | i, op :: ops => (if answer i then op else cut (part i) op) :: torn answer part (i + 1) ops

/-- An operation stays inside a storage of a given size. -/
def Inside (size : Nat) : Op → Prop
  | .erase n => n ≤ size
  | .write off d => off + d.length ≤ size

/-- A block unless there is nothing to save. -/
def blockOf (type address : Nat) : Option Bytes → List Block
  | none => []
  | some d => if d = [] then [] else [⟨type, address, d⟩]

/-- The block of a region: 1 memory, 9 MPU registers; a cached region has the address of the memory it
was copied from, and none if the copy is not valid. -/
def regionBlock : Region → List Block
  | .memory a d => blockOf 1 a d
  | .wordAccessOnly a d => blockOf 1 a d
  | .imageIdentifier a d => blockOf 1 a d
  | .mpuUnrolled a d => blockOf 9 a d
  | .cached valid a d => if valid then blockOf 1 a (some d) else []

/-- Four bytes, the least significant first. -/
def fourBytes (n : Nat) : Bytes :=
  [UInt8.ofNat n, UInt8.ofNat (n / 2 ^ 8), UInt8.ofNat (n / 2 ^ 16), UInt8.ofNat (n / 2 ^ 24)]

/-- Registers (0) of each of `cpus` CPUs. -/
def registerBlocks : Option Bytes → Nat → List Block
  | none, _ => []
  | some regs, cpus => (List.range cpus).flatMap fun i =>
      blockOf 0 0 (some ((regs.drop (i * (regs.length / cpus))).take (regs.length / cpus)))

/-- What a coredump has to start with: registers, build id (12), serial (2), software version (10) and
type (11), hardware version (4), machine (7), reason (5). -/
def infoBlocks (i : SaveInfo) : List Block :=
  registerBlocks i.regs i.cpuCount ++ blockOf 12 0 i.buildId ++ blockOf 2 0 i.serial ++
  blockOf 10 0 i.softwareVersion ++ blockOf 11 0 i.softwareType ++ blockOf 4 0 i.hardwareVersion ++
  [⟨7, 0, fourBytes i.machineType⟩, ⟨5, 0, fourBytes i.traceReason⟩]

/-- The regions in the order they are saved. -/
def regionBlocks (i : SaveInfo) : List Block :=
  (i.archRegions ++ i.sdkRegions ++ i.regions).flatMap regionBlock

/-- Padding (6) does not count. -/
def content (bs : List Block) : List Block := bs.filter fun b => b.type != 6

/-- The blocks up to some point, where one block is missing or shortened. -/
def Shortened (full got : List Block) : Prop :=
  ∃ done b rest, full = done ++ b :: rest ∧
    (got = done ∨ ∃ n, 0 < n ∧ n < b.payload.length ∧ got = done ++ [{ b with payload := b.payload.take n }])

/-- The bytes blocks take. -/
def size (bs : List Block) : Nat := (bs.map fun b => 12 + b.payload.length).sum

/-- Addresses of 32 bits. -/
def AddressesFit (i : SaveInfo) : Prop := ∀ b ∈ regionBlocks i, b.address < 2 ^ 32

end Mflt.Spec.Coredump
