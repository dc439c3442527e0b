import Verif.Model.FlashPorts

/-!
# Model of the coredump storages of the example applications

`examples/mbed/libraries/memfault/platform_reference_impl/memfault_platform_coredump.cpp` (cited as mbed),
`examples/wiced/libraries/memfault/platform_reference_impl/memfault_platform_coredump.c` (wiced),
`examples/cypress/CY8CKIT-064S0S2-4343W/src/memfault_platform_storage.c` (cypress) and
`examples/stm32/stm32h743i/platform_reference_impl/memfault_platform_coredump.c` (h7): the implementations
users are told to start from. Simplifications as in `Model.FlashPorts`. The flash of the cypress example is
described like the others (erased bytes are 0xff).
-/

namespace Mflt.ExampleStorage

open Spec.Flash
open FlashPorts (Area)
open BufferedStorage (State zeroBuf)

/-! ## mbed -/

/-- `memfault_platform_coredump_storage_write`, mbed:96-114. `c.stop - c.start` is CORE_REGION_LENGTH. -/
def mbedWrite (c : Area) (m : Flash) (offset : Nat) (data : Bytes) : Option (Bool × Flash) :=
  if add32 offset data.length > c.size then some (false, m)
  else some (true, program m (add32 c.start offset) data)

/-- `memfault_platform_coredump_storage_read`, mbed:116-132. -/
def mbedRead (c : Area) (m : Flash) (offset n : Nat) : Option Bytes :=
  if add32 offset n > c.size then none else some (read m (add32 c.start offset) n)

/-- The loop, mbed:150-161. -/
def mbedLoop (c : Area) (eraseSize : Nat) : Nat → Flash → Nat → Option Flash
  | fuel, m, sector =>
    if sector < eraseSize then
      match fuel with
      | 0 => none
      | fuel + 1 => mbedLoop c eraseSize fuel (erase m (add32 c.start sector) c.page) (add32 sector c.page)
    else some m

/-- `memfault_platform_coredump_storage_erase`, mbed:134-165. -/
def mbedErase (c : Area) (m : Flash) (offset n : Nat) : Option (Bool × Flash) :=
  if add32 offset n > c.size then some (false, m)
  else if offset % c.page ≠ 0 then some (false, m)
  else (mbedLoop c n (n + 1) m offset).map fun m => (true, m)

/-- `memfault_platform_coredump_storage_clear`, mbed:71-79: the complement of the value of erased flash. -/
def mbedClear (c : Area) (m : Flash) : Option Flash := some (program m c.start [~~~0xff])

/-- The mbed example; the size: mbed:81-94. -/
def mbed (c : Area) : Port := ⟨c.size, mbedRead c, mbedWrite c, mbedErase c, mbedClear c⟩

/-! ## WICED -/

/-- `sMemfaultPlatformCoredumpCtx`, wiced:60-65, with whether the checksum is right. -/
structure Ctx where
  flashStart : Nat
  flashEnd : Nat
  crcOk : Bool
  deriving Repr, DecidableEq

/-- `prv_init`, wiced:92-140: the context after `memfault_platform_coredump_boot`. `found`: the first sector and
the number of sectors of the application area, if it can be opened, read and is contiguous and there is memory;
`want`: MEMFAULT_PLATFORM_COREDUMP_STORAGE_SIZE_BYTES. A context that is left uninitialised is taken for one
whose checksum is wrong. -/
def wicedInit (found : Option (Nat × Nat)) (want : Nat) : Bool × Option Ctx :=
  match found with
  | none => (false, none)
  | some (first, count) =>
    let flashStart := mul32 4096 first
    let flashEnd := add32 flashStart (mul32 4096 count)
    if sub32 flashEnd flashStart < want then (false, some ⟨0, 0, false⟩)
    else (true, some ⟨flashStart, flashEnd, true⟩)
where
  /-- Multiplication of `uint32_t`. -/
  mul32 (a b : Nat) : Nat := a * b % 2 ^ 32

/-- What `prv_offset_to_addr` with `prv_get_start_and_end_addr`, wiced:146-173, gives: the device stops at the
null pointer, refuses, or an address. -/
inductive Addr where
  | fault
  | refused
  | at (a : Nat)
  deriving Repr, DecidableEq

/-- `prv_offset_to_addr`, wiced:161-173, with `prv_get_start_and_end_addr`, wiced:146-155. -/
def wicedAddr (x : Option Ctx) (offset n : Nat) : Addr :=
  match x with
  | none => .fault
  | some c =>
    if !c.crcOk then .refused
    else
      let startAddr := add32 c.flashStart offset
      if add32 startAddr n > c.flashEnd then .refused else .at startAddr

/-- `memfault_platform_coredump_storage_write`, wiced:202-208, with `prv_write`, wiced:194-200. -/
def wicedWrite (x : Option Ctx) (m : Flash) (offset : Nat) (data : Bytes) : Option (Bool × Flash) :=
  match wicedAddr x offset data.length with
  | .fault => none
  | .refused => some (false, m)
  | .at a => some (true, program m a data)

/-- `memfault_platform_coredump_storage_read`, wiced:218-224, with `prv_read`, wiced:210-216. -/
def wicedRead (x : Option Ctx) (m : Flash) (offset n : Nat) : Option Bytes :=
  match wicedAddr x offset n with
  | .fault => none
  | .refused => none
  | .at a => some (read m a n)

/-- `prv_erase`, wiced:226-235. -/
def wicedLoop (stop : Nat) : Nat → Flash → Nat → Option Flash
  | fuel, m, sector =>
    if sector < stop then
      match fuel with
      | 0 => none
      | fuel + 1 => wicedLoop stop fuel (erase m sector 4096) (add32 sector 4096)
    else some m

/-- `memfault_platform_coredump_storage_erase`, wiced:237-249. -/
def wicedErase (x : Option Ctx) (m : Flash) (offset n : Nat) : Option (Bool × Flash) :=
  if n % 4096 ≠ 0 then some (false, m)
  else
    match wicedAddr x offset n with
    | .fault => none
    | .refused => some (false, m)
    | .at a => (wicedLoop (add32 a n) (n + 1) m a).map fun m => (true, m)

/-- `memfault_platform_coredump_storage_clear`, wiced:175-178. -/
def wicedClear (x : Option Ctx) (m : Flash) : Option Flash := (wicedWrite x m 0 [0, 0, 0, 0]).map (·.2)

/-- `memfault_platform_coredump_storage_get_info`, wiced:180-192. `none`: the null pointer. -/
def wicedSize (x : Option Ctx) : Option Nat :=
  x.map fun c => if c.crcOk then sub32 c.flashEnd c.flashStart else 0

/-- The WICED example. -/
def wiced (x : Option Ctx) : Port :=
  ⟨(wicedSize x).getD 0, wicedRead x, wicedWrite x, wicedErase x, wicedClear x⟩

/-! ## Cypress -/

/-- Blocks of MEMFAULT_COREDUMP_STORAGE_WRITE_SIZE bytes. -/
def cypressW : Nat := 512

/-- The part of `memfault_platform_coredump_storage_write` behind the check, cypress:149-183, with
`prv_get_working_buf`, `prv_write_blk` and `prv_try_flush`, cypress:42-90, which are those of
buffered_coredump_storage.h. -/
def cypressBody (port : BufferedStorage.Port) (s : State) (offset : Nat) (data : Bytes) : Option (Bool × State) :=
  let page := offset / cypressW * cypressW
  if page ≠ offset then
    let n := min (page + cypressW - offset) data.length
    match BufferedStorage.put cypressW port s page (offset - page) (data.take n) with
    | none => none
    | some (false, s) => some (false, s)
    | some (true, s) => BufferedStorage.loop cypressW port (offset + n) (data.drop n) (data.length + 1) s 0
  else BufferedStorage.loop cypressW port offset data (data.length + 1) s 0

/-- `memfault_platform_coredump_storage_write`, cypress:144-184. -/
def cypressWrite (c : Area) (port : BufferedStorage.Port) (s : State) (offset : Nat) (data : Bytes) :
    Option (Bool × State) :=
  if add32 (add32 c.start offset) data.length > c.stop then some (false, s) else cypressBody port s offset data

/-- `cyhal_flash_write` in `prv_write_blk`, cypress:46-59: a page is erased and programmed. -/
def cypressBlock (c : Area) (m : Flash) (offset : Nat) (data : Bytes) : Option (Bool × Flash) :=
  let a := add32 c.start offset
  if a % cypressW = 0 ∧ data.length = cypressW then some (true, program (erase m a cypressW) a data)
  else some (false, m)

/-- `memfault_platform_coredump_storage_read`, cypress:120-131. -/
def cypressRead (c : Area) (m : Flash) (offset n : Nat) : Option Bytes :=
  if add32 (add32 c.start offset) n > c.stop then none else some (read m (add32 c.start offset) n)

/-- The loop of `memfault_platform_coredump_storage_clear`, cypress:193-197. -/
def cypressLoop (c : Area) : Nat → Flash → Nat → Flash
  | 0, m, _ => m
  | k + 1, m, i => cypressLoop c k (erase m (add32 c.start (i * cypressW)) cypressW) (i + 1)

/-- `memfault_platform_coredump_storage_clear`, cypress:186-198. -/
def cypressClear (c : Area) (m : Flash) : Option Flash :=
  some (cypressLoop c (sub32 c.stop c.start / cypressW) m 0)

/-- `memfault_platform_coredump_storage_erase`, cypress:133-141. -/
def cypressErase (c : Area) (m : Flash) (offset n : Nat) : Option (Bool × Flash) :=
  if add32 (add32 c.start offset) n > c.stop then some (false, m)
  else (cypressClear c m).map fun m => (true, m)

/-- The cypress example, with the function that writes a block; the size: cypress:109-118. -/
def cypress (c : Area) : Port := ⟨c.size, cypressRead c, cypressBlock c, cypressErase c, cypressClear c⟩

/-! ## STM32H743 -/

/-- COREDUMP_STORAGE_WRITE_SIZE. -/
def h7W : Nat := 32

/-- `prv_write_block(hdr_block)`, h7:114-129. The device reboots if flash cannot be programmed. -/
def h7WriteHdr (s : State) : State :=
  { s with hdr := zeroBuf h7W, log := s.log ++ [(s.hdr.writeOffset, s.hdr.data)] }

/-- `prv_write_block(data_block)`, h7:114-129. -/
def h7WriteDat (s : State) : State :=
  { s with dat := zeroBuf h7W, log := s.log ++ [(s.dat.writeOffset, s.dat.data)] }

/-- `prv_try_flush`, h7:131-147. -/
def h7Flush (s : State) : State :=
  let s :=
    if s.hdr.bytesWritten = h7W then
      let s := h7WriteHdr s
      if s.dat.bytesWritten ≠ 0 then h7WriteDat s else s
    else s
  if s.dat.bytesWritten = h7W then h7WriteDat s else s

/-- `prv_get_working_buf`, h7:110-112, and the use made of it, h7:163-169, 178-183. `none` is a write outside of
the buffer. -/
def h7Put (s : State) (page idx : Nat) (data : Bytes) : Option State :=
  if page = 0 then
    (memcpyIn s.hdr.data idx data).map fun d =>
      h7Flush { s with hdr := ⟨d, page, add32 s.hdr.bytesWritten data.length⟩ }
  else
    (memcpyIn s.dat.data idx data).map fun d =>
      h7Flush { s with dat := ⟨d, page, add32 s.dat.bytesWritten data.length⟩ }

/-- The loop, h7:177-184. -/
def h7Loop (startAddr : Nat) (data : Bytes) : Nat → State → Nat → Option State
  | fuel, s, i =>
    if i < data.length then
      match fuel with
      | 0 => none
      | fuel + 1 =>
        match h7Put s (startAddr + i) 0 ((data.drop i).take (min h7W (data.length - i))) with
        | none => none
        | some s => h7Loop startAddr data fuel s (i + h7W)
    else some s

/-- `memfault_platform_coredump_storage_write`, h7:149-187. `startOff`, `endOff`: `bank_start_off` and
`bank_end_off`. -/
def h7Write (startOff endOff : Nat) (s : State) (offset : Nat) (data : Bytes) : Option (Bool × State) :=
  if add32 (add32 startOff offset) data.length > endOff then some (false, s)
  else
    let page := offset / h7W * h7W
    (if page ≠ offset then
      let n := min (page + h7W - offset) data.length
      match h7Put s page (offset - page) (data.take n) with
      | none => none
      | some s => h7Loop (offset + n) (data.drop n) (data.length + 1) s 0
    else h7Loop offset data (data.length + 1) s 0).map fun s => (true, s)

/-- `s_coredump_flash_storage`, h7:23-40, with any values. -/
structure H7 where
  bankStart : Nat
  startOff : Nat
  endOff : Nat
  sector : Nat
  deriving Repr, DecidableEq

/-- `HAL_FLASH_Program` in `prv_write_block`, h7:114-129. `none`: reboot. -/
def h7Block (k : H7) (m : Flash) (offset : Nat) (data : Bytes) : Option (Bool × Flash) :=
  (programOnce h7W m (add32 (add32 k.bankStart k.startOff) offset) data).map fun m => (true, m)

/-- `memfault_platform_coredump_storage_clear`, h7:64-81: one sector of the bank is erased. -/
def h7Clear (k : H7) (m : Flash) : Option Flash :=
  some (erase m (k.bankStart + k.startOff / k.sector * k.sector) k.sector)

/-- `memfault_platform_coredump_storage_read`, h7:189-200. -/
def h7Read (k : H7) (m : Flash) (offset n : Nat) : Option Bytes :=
  if add32 (add32 k.startOff offset) n > k.endOff then none
  else some (read m (add32 (add32 k.bankStart k.startOff) offset) n)

/-- `memfault_platform_coredump_storage_erase`, h7:202-207. -/
def h7Erase (k : H7) (m : Flash) (_offset _n : Nat) : Option (Bool × Flash) := (h7Clear k m).map fun m => (true, m)

/-- The STM32H743 example, with the function that writes a block; the size: h7:83-88. -/
def h7 (k : H7) : Port := ⟨sub32 k.endOff k.startOff, h7Read k, h7Block k, h7Erase k, h7Clear k⟩

end Mflt.ExampleStorage
