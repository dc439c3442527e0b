import Verif.Model.U32

/-!
# Model of `components/panics/src/memfault_coredump.c`

The platform's storage is the list of operations it is asked to do and its answers. Offsets and sizes
are natural numbers (the code's are 32 bits).
-/

namespace Mflt.Coredump

/-- The memory image of a `uint32_t`. -/
def le32 (n : Nat) : Bytes :=
  [UInt8.ofNat (n % 256), UInt8.ofNat (n / 256 % 256), UInt8.ofNat (n / 65536 % 256),
    UInt8.ofNat (n / 16777216 % 256)]

/-- The `uint32_t` stored in four bytes of memory. -/
def ofLe32 : Bytes → Nat
  | [a, b, c, d] => a.toNat + 256 * b.toNat + 65536 * c.toNat + 16777216 * d.toNat
  | _ => 0

/-- `sMfltCoredumpRegion`, platform/coredump.h:47-51, and `sMfltCachedBlock`, coredump_impl.h:43-50.
`data = none` is a null pointer, otherwise the `region_size` bytes at `region_start`. -/
inductive Region
  | memory (address : Nat) (data : Option Bytes)
  | wordAccessOnly (address : Nat) (data : Option Bytes)
  | imageIdentifier (address : Nat) (data : Option Bytes)
  | mpuUnrolled (address : Nat) (data : Option Bytes)
  | cached (valid : Bool) (cachedAddress : Nat) (data : Bytes)
  deriving Repr, DecidableEq

/-- `sMemfaultCoredumpSaveInfo` together with what the platform and the SDK add: device info, build
id, machine type, architecture and SDK regions. -/
structure SaveInfo where
  regs : Option Bytes
  cpuCount : Nat
  buildId : Option Bytes
  serial : Option Bytes
  softwareVersion : Option Bytes
  softwareType : Option Bytes
  hardwareVersion : Option Bytes
  machineType : Nat
  traceReason : Nat
  archRegions : List Region
  sdkRegions : List Region
  regions : List Region
  deriving Repr, DecidableEq

/-- A storage operation: `memfault_platform_coredump_storage_erase(0, size)`,
`memfault_platform_coredump_storage_write`. -/
inductive Op
  | erase (size : Nat)
  | write (offset : Nat) (data : Bytes)
  deriving Repr, DecidableEq

/-- The platform: storage size, whether a save may begin
(`memfault_port_coredump_save_begin() && memfault_platform_coredump_save_begin()`), whether the storage
can be read, and the answer to the n-th operation. -/
structure Plat where
  size : Nat
  beginOk : Bool
  readOk : Bool
  answer : Nat → Bool

/-- `sMfltCoredumpWriteCtx`, memfault_coredump.c:114-126, with the operations issued so far.
`computeOnly` is constant. -/
structure Ctx where
  computeOnly : Bool
  storageSize : Nat
  offset : Nat
  truncated : Bool
  writeError : Bool
  ops : List Op
  deriving Repr, DecidableEq

/-- `prv_platform_coredump_write`, memfault_coredump.c:158-170. -/
def platWrite (p : Plat) (c : Ctx) (data : Bytes) : Bool × Ctx :=
  if c.computeOnly then (true, { c with offset := c.offset + data.length })
  else if p.answer c.ops.length then
    (true, { c with offset := c.offset + data.length, ops := c.ops ++ [.write c.offset data] })
  else (false, { c with writeError := true, ops := c.ops ++ [.write c.offset data] })

/-- The 32-bit words of a payload whose length is a multiple of four. -/
def words : Bytes → List Bytes
  | a :: b :: c :: d :: r => [a, b, c, d] :: words r
  | _ => []

/-- The loop of memfault_coredump.c:218-226. -/
def writeWords (p : Plat) : Ctx → List Bytes → Bool × Ctx
  | c, [] => (true, c)
  | c, w :: ws =>
    match platWrite p c w with
    | (true, c) => writeWords p c ws
    | (false, c) => (false, c)

/-- `sMfltCoredumpBlock`, memfault_coredump.c:53-59. -/
def blockHeader (type address length : Nat) : Bytes :=
  [UInt8.ofNat type, 0, 0, 0] ++ le32 address ++ le32 length

/-- Whether the payload has to be cut, memfault_coredump.c:181-185. -/
def tooBig (c : Ctx) (n : Nat) : Bool :=
  !c.computeOnly && decide (c.storageSize - c.offset < 12 + n)

/-- The payload size that is written, memfault_coredump.c:185-198; `none` when nothing can be. -/
def fitSize (c : Ctx) (n : Nat) : Option Nat :=
  if tooBig c n then
    if c.storageSize - c.offset < 12 then none
    else if (c.storageSize - c.offset - 12) / 4 * 4 = 0 then none
    else some ((c.storageSize - c.offset - 12) / 4 * 4)
  else some n

/-- The writes of a block, memfault_coredump.c:200-226. -/
def putBlock (p : Plat) (c : Ctx) (type address : Nat) (payload : Bytes) (wordOnly : Bool) : Bool × Ctx :=
  match platWrite p c (blockHeader type address payload.length) with
  | (false, c) => (false, c)
  | (true, c) =>
    if !wordOnly || payload.length % 4 != 0 then platWrite p c payload
    else
      match writeWords p c (words payload) with
      | (false, c) => (false, c)
      | (true, c) => (!c.truncated, c)

/-- `prv_write_block_with_address`, memfault_coredump.c:172-227. -/
def writeBlock (p : Plat) (c : Ctx) (type address : Nat) (payload : Option Bytes) (wordOnly : Bool) :
    Bool × Ctx :=
  match payload with
  | none => (true, c)
  | some d =>
    if d.length = 0 then (true, c)
    else
      match fitSize c d.length with
      | none => (false, { c with truncated := c.truncated || tooBig c d.length })
      | some n =>
        putBlock p { c with truncated := c.truncated || tooBig c d.length } type address (d.take n) wordOnly

/-- `prv_insert_padding_if_necessary`, memfault_coredump.c:351-366. The result is ignored. -/
def pad (p : Plat) (c : Ctx) : Ctx :=
  if c.offset % 4 = 0 then c
  else (writeBlock p c 6 0 (some (List.replicate (4 - c.offset % 4) 0)) false).2

/-- One round of the loop of `prv_write_regions`, memfault_coredump.c:402-427, with
`prv_fixup_if_cached_block`, memfault_coredump.c:134-155, and `prv_region_type_to_storage_type`,
memfault_coredump.c:236-247. -/
def writeRegion (p : Plat) (c : Ctx) : Region → Bool × Ctx
  | .memory address data => writeBlock p (pad p c) 1 address data false
  | .wordAccessOnly address data => writeBlock p (pad p c) 1 address data true
  | .imageIdentifier address data => writeBlock p (pad p c) 1 address data false
  | .mpuUnrolled address data => writeBlock p (pad p c) 9 address data false
  | .cached valid address data =>
    if valid then writeBlock p (pad p c) 1 address (some data) false else (true, pad p c)

/-- `prv_write_regions`, memfault_coredump.c:402-427. -/
def writeRegions (p : Plat) : Ctx → List Region → Bool × Ctx
  | c, [] => (true, c)
  | c, r :: rs =>
    match writeRegion p c r with
    | (true, c) => writeRegions p c rs
    | (false, c) => (false, c)

/-- The registers of each CPU, memfault_coredump.c:477-498. -/
def regBlocks (info : SaveInfo) : List (Nat × Option Bytes) :=
  match info.regs with
  | none => []
  | some regs => (List.range info.cpuCount).map fun i =>
      (0, some ((regs.drop (i * (regs.length / info.cpuCount))).take (regs.length / info.cpuCount)))

/-- The blocks before the regions: memfault_coredump.c:477-507 and `prv_write_device_info_blocks`,
memfault_coredump.c:281-329. -/
def fixedBlocks (info : SaveInfo) : List (Nat × Option Bytes) :=
  regBlocks info ++
  [(12, info.buildId), (2, info.serial), (10, info.softwareVersion), (11, info.softwareType),
   (4, info.hardwareVersion), (7, some (le32 info.machineType)), (5, some (le32 info.traceReason))]

/-- A chain of `prv_write_non_memory_block`, memfault_coredump.c:229-234. -/
def writeFixed (p : Plat) : Ctx → List (Nat × Option Bytes) → Bool × Ctx
  | c, [] => (true, c)
  | c, b :: bs =>
    match writeBlock p c b.1 0 b.2 false with
    | (true, c) => writeFixed p c bs
    | (false, c) => (false, c)

/-- `write_completed`, memfault_coredump.c:509-517. -/
def writeAllRegions (p : Plat) (c : Ctx) (info : SaveInfo) : Bool × Ctx :=
  match writeRegions p c info.archRegions with
  | (false, c) => (false, c)
  | (true, c) =>
    match writeRegions p c info.sdkRegions with
    | (false, c) => (false, c)
    | (true, c) => writeRegions p c info.regions

/-- `sMfltCoredumpFooter`, memfault_coredump.c:41-51 and 523-526. -/
def footer (truncated : Bool) : Bytes :=
  le32 0x504d5544 ++ le32 (if truncated then 1 else 0) ++ le32 0 ++ le32 0

/-- `sMfltCoredumpHeader`, memfault_coredump.c:32-39 331-338. -/
def header (totalSize : Nat) : Bytes := le32 0x45524f43 ++ le32 2 ++ le32 totalSize

/-- The end of `prv_write_coredump_sections`, memfault_coredump.c:523-540: footer, then header. -/
def writeEnd (p : Plat) (c : Ctx) : Option Nat × Ctx :=
  match platWrite p c (footer c.truncated) with
  | (false, c) => (none, c)
  | (true, c) =>
    match platWrite p { c with offset := 0 } (header c.offset) with
    | (false, c') => (none, c')
    | (true, c') => (some c.offset, c')

/-- `prv_write_coredump_sections` from the first block on, memfault_coredump.c:477-540. -/
def writeSections (p : Plat) (c : Ctx) (info : SaveInfo) : Option Nat × Ctx :=
  match writeFixed p c (fixedBlocks info) with
  | (false, c) => (none, c)
  | (true, c) =>
    match writeAllRegions p c info with
    | (completed, c) => if !completed && c.writeError then (none, c) else writeEnd p c

/-- `prv_coredump_header_is_valid` on the header read from the storage, memfault_coredump.c:398-400. -/
def headerValid (hdr : Bytes) : Bool := ofLe32 (hdr.take 4) == 0x45524f43

/-- `prv_get_info_and_header`, memfault_coredump.c:371-391: the header, `none` when it cannot be
read. -/
def readHeader (readOk : Bool) (mem : Bytes) : Option Bytes :=
  if mem.length = 0 then none
  else if readOk && decide (12 ≤ mem.length) then some (mem.take 12)
  else none

/-- The write context before the first block, memfault_coredump.c:464-475. -/
def firstCtx (computeOnly : Bool) (size : Nat) (ops : List Op) : Ctx :=
  { computeOnly, storageSize := if size > 16 then size - 16 else size, offset := 12, truncated := false,
    writeError := false, ops }

/-- `memfault_coredump_get_save_size`, memfault_coredump.c:550-555, with
`prv_write_coredump_sections`, :429-540, computing the size only. The platform is not used. -/
def getSaveSize (info : SaveInfo) : Nat :=
  if info.regions = [] then 0
  else (writeSections ⟨0, true, true, fun _ => true⟩ (firstCtx true 0 []) info).1.getD 0

/-- `memfault_coredump_save`, memfault_coredump.c:557-561, with `prv_write_coredump_sections`,
:429-540, on a storage with contents `mem`: the size of the saved coredump or `none`, and the
operations issued. -/
def save (p : Plat) (mem : Bytes) (info : SaveInfo) : Option Nat × List Op :=
  if info.regions = [] then (none, [])
  else if !p.beginOk then (none, [])
  else
    match readHeader p.readOk mem with
    | none => (none, [])
    | some hdr =>
      if headerValid hdr then (none, [])
      else if !p.answer 0 then (none, [.erase mem.length])
      else
        ((writeSections p (firstCtx false mem.length [.erase mem.length]) info).1,
          (writeSections p (firstCtx false mem.length [.erase mem.length]) info).2.ops)

/-- `memfault_coredump_has_valid_coredump`, memfault_coredump.c:563-578: the total size. -/
def hasValid (readOk : Bool) (mem : Bytes) : Option Nat :=
  match readHeader readOk mem with
  | none => none
  | some hdr => if headerValid hdr then some (ofLe32 ((hdr.drop 8).take 4)) else none

/-- `memfault_coredump_storage_check_size`, memfault_coredump_utils.c:12-23. -/
def checkSize (sizeNeeded storageSize : Nat) : Bool := decide (sizeNeeded ≤ storageSize)

end Mflt.Coredump
