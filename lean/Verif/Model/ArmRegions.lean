import Verif.Model.Coredump

/-!
# Model of the regions the SDK adds to a coredump

`components/panics/src/memfault_coredump_regions_armv7.c` (Cortex-M registers) and
`components/panics/src/memfault_coredump_sdk_regions.c`. Registers are read a word at a time.
-/

namespace Mflt.ArmRegions

open Mflt.Coredump

/-- MEMFAULT_COLLECT_FAULT_REGS, MEMFAULT_CACHE_FAULT_REGS, MEMFAULT_COLLECT_INTERRUPT_STATE,
MEMFAULT_COLLECT_MPU_STATE, MEMFAULT_NVIC_INTERRUPTS_TO_COLLECT and MEMFAULT_MPU_REGIONS_TO_COLLECT. -/
structure Cfg where
  fault : Bool
  cache : Bool
  interrupts : Bool
  mpu : Bool
  nvic : Nat
  mpuRegions : Nat
  deriving Repr, DecidableEq

/-- The static assertions, memfault_coredump_regions_armv7.c:23-28. -/
def Cfg.ok (c : Cfg) : Prop := (c.nvic % 32 = 0 ∨ c.nvic = 496) ∧ c.nvic ≤ 512 ∧ c.mpuRegions ≤ 16

/-- Memory and registers by words, and the registers of each MPU region (RBAR, RASR). -/
structure Hw where
  word : Nat → Nat
  mpu : Nat → Nat × Nat

/-- The word read at an address; two registers show the MPU region selected by RNR. -/
def Hw.read (hw : Hw) (rnr a : Nat) : Nat :=
  if a = 0xE000ED9C then (hw.mpu rnr).1 else if a = 0xE000EDA0 then (hw.mpu rnr).2 else hw.word a

/-- `n` words from an address on, as bytes. -/
def wordsAt (hw : Hw) (a n : Nat) : Bytes := (List.range n).flatMap fun i => le32 (hw.word (a + 4 * i))

/-- `sMfltCachedBlock`, coredump_impl.h:43-49. -/
structure Cached where
  valid : Nat
  address : Nat
  size : Nat
  blk : List Nat
  deriving Repr, DecidableEq

/-- `s_cached_fault_regs` before anything was stored, memfault_coredump_regions_armv7.c:116. -/
def noCache : Cached := ⟨0, 0, 0, List.replicate 7 0⟩

/-- `memfault_coredump_cache_fault_regs`, memfault_coredump_regions_armv7.c:122-138. -/
def cacheFaultRegs (hw : Hw) : Cached :=
  let r (i : Nat) := hw.word (0xE000ED24 + 4 * i)
  ⟨1, 0xE000ED24, 28, [r 0, r 1, r 2, r 3, r 4, r 5, r 6]⟩

/-- `sMfltMpuRegs`, memfault_coredump_regions_armv7.c:94-102. -/
structure MpuRegs where
  type : Nat
  ctrl : Nat
  pair : List (Nat × Nat)
  deriving Repr, DecidableEq

/-- Before the first call. -/
def noMpu (c : Cfg) : MpuRegs := ⟨0, 0, List.replicate c.mpuRegions (0, 0)⟩

/-- The bytes of the structure. -/
def MpuRegs.bytes (r : MpuRegs) : Bytes := le32 r.type ++ le32 r.ctrl ++ r.pair.flatMap fun p => le32 p.1 ++ le32 p.2

/-- The loop, memfault_coredump_regions_armv7.c:163-167. `none`: outside of the array. `todo`: the iterations
to go. -/
def mpuLoop (hw : Hw) : Nat → Nat → List (Nat × Nat) → Option (List (Nat × Nat))
  | 0, _, pair => some pair
  | todo + 1, region, pair =>
    if region < pair.length then
      mpuLoop hw todo (region + 1) (pair.set region (hw.read region 0xE000ED9C, hw.read region 0xE000EDA0))
    else none

/-- memfault_coredump_regions_armv7.c:147-169. -/
def collectMpu (hw : Hw) (old : MpuRegs) : Option MpuRegs :=
  let type := hw.word 0xE000ED90
  if type ≠ 0 then
    let n := min (type / 256 % 256) old.pair.length
    (mpuLoop hw n 0 old.pair).map fun pair => ⟨type, hw.word 0xE000ED94, pair⟩
  else some { old with type := type }

/-- The bytes of memory from an address on, for the block of `prv_fixup_if_cached_block`. -/
def memory (hw : Hw) (a n : Nat) : Bytes := (wordsAt hw a ((n + 3) / 4)).take n

/-- The first region, memfault_coredump_regions_armv7.c:105-142, 172-175. Without fault registers it is a
cached block at address 0. -/
def faultRegion (c : Cfg) (hw : Hw) (cached : Cached) : Region :=
  if !c.fault then .cached (hw.word 0 ≠ 0) (hw.word 4) (memory hw 12 (hw.word 8))
  else if c.cache then .cached (cached.valid ≠ 0) cached.address ((cached.blk.flatMap le32).take cached.size)
  else .wordAccessOnly 0xE000ED24 (some (wordsAt hw 0xE000ED24 7))

/-- memfault_coredump_regions_armv7.c:176-201. -/
def interruptRegions (c : Cfg) (hw : Hw) : List Region :=
  let region (a n : Nat) : Region := .wordAccessOnly a (some (wordsAt hw a n))
  if c.interrupts then
    [region 0xE000ED18 3, region 0xE000E004 4, region 0xE000ED04 2, region 0xE000EDFC 1,
      region 0xE000E100 ((c.nvic + 31) / 32), region 0xE000E200 ((c.nvic + 31) / 32),
      region 0xE000E300 ((c.nvic + 31) / 32), region 0xE000E400 (c.nvic / 4)]
  else []

/-- `memfault_coredump_get_arch_regions`, memfault_coredump_regions_armv7.c:145-211. `mpuAddr`: the address of
the structure for the MPU. -/
def archRegions (c : Cfg) (hw : Hw) (cached : Cached) (old : MpuRegs) (mpuAddr : Nat) : Option (List Region) :=
  if c.mpu then
    (collectMpu hw old).map fun r =>
      faultRegion c hw cached :: interruptRegions c hw ++ [.mpuUnrolled mpuAddr (some r.bytes)]
  else some (faultRegion c hw cached :: interruptRegions c hw)

/-! ## The regions of the SDK -/

/-- MEMFAULT_COREDUMP_COLLECT_LOG_REGIONS, _HEAP_STATS, _TASK_WATCHDOG_REGION. -/
structure SdkCfg where
  logs : Bool
  heap : Bool
  task : Bool
  deriving Repr, DecidableEq

/-- What the other modules have: the logger and its buffer (`none`: `memfault_log_get_regions` fails), whether there
are no heap statistics, both regions of these, and the channels of the task watchdog. -/
structure Sdk where
  log : Option ((Nat × Bytes) × (Nat × Bytes))
  heapEmpty : Bool
  heap : (Nat × Bytes) × (Nat × Bytes)
  task : Nat × Bytes
  deriving Repr, DecidableEq

/-- NUM_REGIONS_TO_COLLECT, memfault_coredump_sdk_regions.c:33-42. -/
def sdkSlots (c : SdkCfg) : Nat :=
  max ((if c.logs then 2 else 0) + (if c.heap then 2 else 0) + (if c.task then 1 else 0)) 1

/-- `s_sdk_coredump_regions[total_regions] = ...; total_regions++;`. `none`: outside of the array. -/
def put (s : List (Option (Nat × Bytes)) × Nat) (r : Nat × Bytes) : Option (List (Option (Nat × Bytes)) × Nat) :=
  if s.2 < s.1.length then some (s.1.set s.2 (some r), s.2 + 1) else none

/-- `memfault_coredump_get_sdk_regions`, memfault_coredump_sdk_regions.c:43-79: the regions that are used. A slot
that was not written would be an empty region at address 0. -/
def sdkRegions (c : SdkCfg) (s : Sdk) : Option (List Region) := do
  let a : List (Option (Nat × Bytes)) × Nat := (List.replicate (sdkSlots c) none, 0)
  let a ← if c.logs then
      match s.log with
      | none => some a
      | some (x, y) => (put a x).bind (put · y)
    else some a
  let a ← if c.heap then (if !s.heapEmpty then (put a s.heap.1).bind (put · s.heap.2) else some a) else some a
  let a ← if c.task then put a s.task else some a
  some ((a.1.take a.2).map fun
    | none => .memory 0 none
    | some (x, d) => .memory x (some d))

end Mflt.ArmRegions
