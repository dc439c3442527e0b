import Verif.Spec.Flash
import Verif.Model.BufferedStorage

/-!
# Model of the coredump storages in flash memory of the ports

`ports/nrf5_sdk/nrf5_coredump_storage.c`, `ports/dialog/da145xx/memfault_platform_coredump_storage.c`,
`ports/dialog/da1469x/memfault_platform_coredump_storage.c`, `ports/dialog/da1468x/qspi_coredump_storage.c`,
`ports/esp8266_sdk/memfault/memfault_platform_coredump_storage.c`,
`ports/esp_idf/memfault/common/memfault_platform_coredump.c` (storage functions),
`ports/mynewt/src/memfault_platform_flash_backed_coredump.c`, `ports/emlib/msc_coredump_storage.c`,
`ports/stm32cube/{f4,l4,wb,u5}/flash_coredump_storage.c` (cited as f4, l4, wb, u5), `ports/s32sdk/ftfc_flash_coredump_storage.c`.

Flash contents and the effects of the vendors' drivers are described in `Spec.Flash`. Simplifications: the
drivers do what they are asked to unless a rule of the flash forbids it, log output and watchdogs are left
out, and NULL arguments are not considered. 32-bit `size_t`.
-/

namespace Mflt.FlashPorts

open Spec.Flash

/-- MEMFAULT_COREDUMP_STORAGE_START_ADDR, MEMFAULT_COREDUMP_STORAGE_END_ADDR and the size of a sector. -/
structure Area where
  start : Nat
  stop : Nat
  page : Nat
  deriving Repr, DecidableEq

/-- `memfault_platform_coredump_storage_get_info`, `size`: nrf5_coredump_storage.c:130-137,
da145xx/memfault_platform_coredump_storage.c:40-45, msc_coredump_storage.c:72-79,
ftfc_flash_coredump_storage.c:73-83, f4:68-75, l4:112-120, wb:122-129, u5:92-99. -/
def Area.size (c : Area) : Nat := sub32 c.stop c.start

/-- `prv_op_within_flash_bounds`: nrf5_coredump_storage.c:139-143,
da145xx/memfault_platform_coredump_storage.c:47-51, da1469x/...:56-60, msc_coredump_storage.c:56-60,
ftfc_flash_coredump_storage.c:67-71, f4:57-61, l4:106-110, wb:102-106, u5:82-86; and the comparisons in
qspi_coredump_storage.c:200, 219, 232, esp8266_sdk/...:134, 172, mynewt/...:82, 100, 118. -/
def within (size offset n : Nat) : Bool := add32 offset n ≤ size

/-- `memfault_platform_coredump_storage_read` where flash is memory mapped: nrf5_coredump_storage.c:183-191,
msc_coredump_storage.c:92-101, ftfc_flash_coredump_storage.c:194-203, f4:97-106, l4:168-177, wb:154-163,
u5:124-133; and where a driver reads all of it: da145xx/memfault_platform_coredump_storage.c:53-70,
da1469x/...:62-71. -/
def readMapped (c : Area) (m : Flash) (offset n : Nat) : Option Bytes :=
  if !within c.size offset n then none else some (read m (add32 c.start offset) n)

/-! ## Storages that are written directly -/

/-- `memfault_platform_coredump_storage_write`, nrf5_coredump_storage.c:160-181. `dataAddr`: the address of
the data. -/
def nrf5Write (c : Area) (dataAddr : Nat) (m : Flash) (offset : Nat) (data : Bytes) : Option (Bool × Flash) :=
  if !within c.size offset data.length then some (false, m)
  else
    let address := add32 c.start offset
    if address % 4 = 0 ∧ dataAddr % 4 = 0 then
      let words := data.length / 4
      let m := program m address (data.take (words * 4))
      let rest := data.length % 4
      some (true, program m (add32 address (words * 4)) ((data.drop (words * 4)).take rest))
    else some (true, program m address data)

/-- The loop over the sectors, nrf5_coredump_storage.c:204-207,
da145xx/memfault_platform_coredump_storage.c:86-91, da1469x/...:84-87. -/
def sectorLoop (c : Area) (eraseSize : Nat) : Nat → Flash → Nat → Option Flash
  | fuel, m, sector =>
    if sector < eraseSize then
      match fuel with
      | 0 => none
      | fuel + 1 => sectorLoop c eraseSize fuel (erase m (add32 c.start sector) c.page) (add32 sector c.page)
    else some m

/-- `memfault_platform_coredump_storage_erase`, nrf5_coredump_storage.c:193-210,
da145xx/memfault_platform_coredump_storage.c:72-94, da1469x/...:73-90. -/
def sectorErase (c : Area) (m : Flash) (offset n : Nat) : Option (Bool × Flash) :=
  if !within c.size offset n then some (false, m)
  else if offset % c.page ≠ 0 then some (false, m)
  else (sectorLoop c n (n + 1) m offset).map fun m => (true, m)

/-- `memfault_platform_coredump_storage_clear` without the SoftDevice, nrf5_coredump_storage.c:96-128. -/
def nrf5Clear (c : Area) (m : Flash) : Option Flash := some (program m c.start [0, 0, 0, 0])

/-- The port nrf5_sdk. -/
def nrf5 (c : Area) (dataAddr : Nat) : Port :=
  ⟨c.size, readMapped c, nrf5Write c dataAddr, sectorErase c, nrf5Clear c⟩

/-- `memfault_platform_coredump_storage_write` with a driver that writes all of it,
da145xx/memfault_platform_coredump_storage.c:96-113. -/
def da145xxWrite (c : Area) (m : Flash) (offset : Nat) (data : Bytes) : Option (Bool × Flash) :=
  if !within c.size offset data.length then some (false, m)
  else some (true, program m (add32 c.start offset) data)

/-- `memfault_platform_coredump_storage_clear`, da145xx/memfault_platform_coredump_storage.c:117-120. -/
def da145xxClear (c : Area) (m : Flash) : Option Flash := (da145xxWrite c m 0 [0, 0, 0, 0]).map (·.2)

/-- The port dialog/da145xx. -/
def da145xx (c : Area) : Port := ⟨c.size, readMapped c, da145xxWrite c, sectorErase c, da145xxClear c⟩

/-- The loop of `memfault_platform_coredump_storage_write`,
da1469x/memfault_platform_coredump_storage.c:100-103. `qspi_automode_write_flash_page` writes up to the end
of a page of 256 bytes and returns the number of bytes. -/
def pageLoop (address : Nat) (data : Bytes) : Nat → Flash → Nat → Option Flash
  | fuel, m, done =>
    if done < data.length then
      match fuel with
      | 0 => none
      | fuel + 1 =>
        let a := add32 address done
        let n := min (256 - a % 256) (data.length - done)
        pageLoop address data fuel (program m a ((data.drop done).take n)) (add32 done n)
    else some m

/-- `memfault_platform_coredump_storage_write`, da1469x/memfault_platform_coredump_storage.c:92-106. -/
def da1469xWrite (c : Area) (m : Flash) (offset : Nat) (data : Bytes) : Option (Bool × Flash) :=
  if !within c.size offset data.length then some (false, m)
  else (pageLoop (add32 c.start offset) data (data.length + 1) m 0).map fun m => (true, m)

/-- `memfault_platform_coredump_storage_clear`, da1469x/memfault_platform_coredump_storage.c:110-113. -/
def da1469xClear (c : Area) (m : Flash) : Option Flash := (da1469xWrite c m 0 [0, 0, 0, 0]).map (·.2)

/-- The port dialog/da1469x. The size is configured (lines 49-54); the area ends there. -/
def da1469x (c : Area) : Port := ⟨c.size, readMapped c, da1469xWrite c, sectorErase c, da1469xClear c⟩

/-- The loop of `memfault_platform_coredump_storage_write`, f4/flash_coredump_storage.c:86-91. -/
def byteLoop (m : Flash) (a : Nat) : Bytes → Flash
  | [] => m
  | b :: bs => byteLoop (program m a [b]) (add32 a 1) bs

/-- `memfault_platform_coredump_storage_write`, f4/flash_coredump_storage.c:77-95. -/
def f4Write (c : Area) (m : Flash) (offset : Nat) (data : Bytes) : Option (Bool × Flash) :=
  if !within c.size offset data.length then some (false, m)
  else some (true, byteLoop m (add32 c.start offset) data)

/-- `memfault_platform_coredump_storage_erase`, f4/flash_coredump_storage.c:108-137. The sector with the
configured number (address and size) is erased. -/
def f4Erase (c : Area) (sector sectorSize : Nat) (m : Flash) (offset n : Nat) : Option (Bool × Flash) :=
  if !within c.size offset n then some (false, m) else some (true, erase m sector sectorSize)

/-- `memfault_platform_coredump_storage_clear`, f4/flash_coredump_storage.c:63-66. -/
def f4Clear (c : Area) (m : Flash) : Option Flash := (f4Write c m 0 [0, 0, 0, 0]).map (·.2)

/-- The port stm32cube/f4. -/
def f4 (c : Area) (sector sectorSize : Nat) : Port :=
  ⟨c.size, readMapped c, f4Write c, f4Erase c sector sectorSize, f4Clear c⟩

/-! ## Storages in a partition -/

/-- The information about the partition kept in RAM, qspi_coredump_storage.c:67-78, esp8266_sdk/...:29-33,
esp_idf/...:80-101: whether the magic number and the checksum are right, and where the partition is. -/
structure Part where
  magicOk : Bool
  crcOk : Bool
  address : Nat
  size : Nat
  deriving Repr, DecidableEq

/-- `size` of `memfault_platform_coredump_storage_get_info`, qspi_coredump_storage.c:174-189,
esp8266_sdk/...:99-113, with `prv_validate_and_get_core_partition`. -/
def Part.validSize (c : Part) : Nat := if c.crcOk ∧ c.magicOk then c.size else 0

/-- `memfault_platform_coredump_storage_read`, qspi_coredump_storage.c:191-205, esp8266_sdk/...:167-178,
mynewt/...:75-91. An assertion fails in the first if nothing is to be read. -/
def partRead (c : Part) (m : Flash) (offset n : Nat) : Option Bytes :=
  if !c.magicOk then none
  else if !within c.size offset n then none
  else some (read m (add32 c.address offset) n)

/-- `memfault_platform_coredump_storage_write`, qspi_coredump_storage.c:207-224. -/
def da1468xWrite (c : Part) (m : Flash) (offset : Nat) (data : Bytes) : Option (Bool × Flash) :=
  if data.length = 0 then none
  else if !c.magicOk then some (false, m)
  else if !within c.size offset data.length then some (false, m)
  else some (true, program m (add32 c.address offset) data)

/-- `memfault_platform_coredump_storage_erase`, qspi_coredump_storage.c:226-237, mynewt/...:93-109, with a
driver that erases what it is given. -/
def partErase (c : Part) (m : Flash) (offset n : Nat) : Option (Bool × Flash) :=
  if !c.magicOk then some (false, m)
  else if !within c.size offset n then some (false, m)
  else some (true, erase m (add32 c.address offset) n)

/-- `memfault_platform_coredump_storage_clear`, qspi_coredump_storage.c:239-241. `sector`:
`ad_nvms_erase_size()`. -/
def da1468xClear (c : Part) (sector : Nat) (m : Flash) : Option Flash := (partErase c m 0 sector).map (·.2)

/-- The port dialog/da1468x. -/
def da1468x (c : Part) (sector : Nat) : Port :=
  ⟨c.validSize, partRead c, da1468xWrite c, partErase c, da1468xClear c sector⟩

/-- `memfault_platform_coredump_storage_write`, mynewt/...:111-127, with `prv_flash_open`, :48-60. `magicOk`: whether the area can be opened
and holds no image in use. -/
def mynewtWrite (c : Part) (m : Flash) (offset : Nat) (data : Bytes) : Option (Bool × Flash) :=
  if !c.magicOk then some (false, m)
  else if !within c.size offset data.length then some (false, m)
  else some (true, program m (add32 c.address offset) data)

/-- `memfault_platform_coredump_storage_clear`, mynewt/...:129-140. -/
def mynewtClear (c : Part) (m : Flash) : Option Flash :=
  if !c.magicOk then none else (mynewtWrite c m 0 [0]).map (·.2)

/-- The port mynewt. -/
def mynewt (c : Part) : Port := ⟨c.size, partRead c, mynewtWrite c, partErase c, mynewtClear c⟩

/-- The loop of `memfault_platform_coredump_storage_write` with `prv_coredump_storage_write`,
esp8266_sdk/...:128-165. -/
def esp8266Loop (c : Part) : Nat → Flash → Nat → Bytes → Option (Bool × Flash)
  | fuel, m, offset, data =>
    if data.length > 0 then
      match fuel with
      | 0 => none
      | fuel + 1 =>
        let n := min 4096 data.length
        match mynewtWrite c m offset (data.take n) with
        | some (true, m) => esp8266Loop c fuel m (add32 offset n) (data.drop n)
        | r => r
    else some (true, m)

/-- `memfault_platform_coredump_storage_write`, esp8266_sdk/...:147-165. -/
def esp8266Write (c : Part) (m : Flash) (offset : Nat) (data : Bytes) : Option (Bool × Flash) :=
  esp8266Loop c (data.length + 1) m offset data

/-- `memfault_platform_coredump_storage_erase`, esp8266_sdk/...:180-195. -/
def esp8266Erase (c : Part) (m : Flash) (offset n : Nat) : Option (Bool × Flash) :=
  if !c.magicOk then some (false, m) else some (true, erase m (add32 c.address offset) n)

/-- `memfault_platform_coredump_storage_clear`, esp8266_sdk/...:83-97. -/
def esp8266Clear (c : Part) (m : Flash) : Option Flash :=
  if !c.magicOk then some m else if c.size < 4 then some m else some (program m c.address [0, 0, 0, 0])

/-- The port esp8266_sdk. -/
def esp8266 (c : Part) : Port := ⟨c.validSize, partRead c, esp8266Write c, esp8266Erase c, esp8266Clear c⟩

/-- CONFIG_MEMFAULT_COREDUMP_STORAGE_WRITE_OFFSET_SECTORS * SPI_FLASH_SEC_SIZE and
CONFIG_MEMFAULT_COREDUMP_STORAGE_MAX_SIZE. -/
structure EspCfg where
  writeOffset : Nat
  maxSize : Nat
  deriving Repr, DecidableEq

/-- `prv_get_adjusted_size`, esp_idf/...:220-229. -/
def espAdjustedSize (k : EspCfg) (c : Part) : Nat :=
  sub32 (if k.maxSize > 0 then min c.size k.maxSize else c.size) k.writeOffset

/-- The loop of `memfault_esp_spi_flash_write`, esp_idf/memfault/v5.x/memfault_esp_spi_flash.c:31-46, with
write verification. `done`: the bytes written so far. -/
def espChunkLoop (dest : Nat) (data : Bytes) : Nat → Flash → Nat → Option Flash
  | fuel, m, done =>
    if done < data.length then
      match fuel with
      | 0 => none
      | fuel + 1 =>
        let n := min 128 (data.length - done)
        espChunkLoop dest data fuel (program m (add32 dest done) ((data.drop done).take n)) (done + 128)
    else some m

/-- `memfault_esp_spi_flash_write`, esp_idf/memfault/v5.x/memfault_esp_spi_flash.c:24-50. -/
def espFlashWrite (verify : Bool) (m : Flash) (dest : Nat) (data : Bytes) : Option Flash :=
  if verify then espChunkLoop dest data (data.length + 1) m 0 else some (program m dest data)

/-- `memfault_platform_coredump_storage_write`, esp_idf/...:375-389. -/
def espWrite (k : EspCfg) (verify : Bool) (c : Part) (m : Flash) (offset : Nat) (data : Bytes) :
    Option (Bool × Flash) :=
  if !c.magicOk then some (false, m)
  else (espFlashWrite verify m (add32 (add32 c.address offset) k.writeOffset) data).map fun m => (true, m)

/-- `memfault_platform_coredump_storage_read`, esp_idf/...:391-404. -/
def espRead (k : EspCfg) (c : Part) (m : Flash) (offset n : Nat) : Option Bytes :=
  if !c.magicOk then none
  else if !within c.size offset n then none
  else some (read m (add32 (add32 c.address offset) k.writeOffset) n)

/-- `memfault_platform_coredump_storage_erase`, esp_idf/...:406-422. -/
def espErase (k : EspCfg) (c : Part) (m : Flash) (offset n : Nat) : Option (Bool × Flash) :=
  if !c.magicOk then some (false, m)
  else some (true, erase m (add32 c.address offset) (add32 n k.writeOffset))

/-- `memfault_platform_coredump_storage_clear`, esp_idf/...:289-308. -/
def espClear (k : EspCfg) (verify : Bool) (c : Part) (m : Flash) : Option Flash :=
  if !c.magicOk then some m
  else if c.size < 4 then some m
  else espFlashWrite verify m (add32 c.address k.writeOffset) [0, 0, 0, 0]

/-- The port esp_idf; the size: lines 310-331. -/
def espIdf (k : EspCfg) (verify : Bool) (c : Part) : Port :=
  ⟨if c.crcOk ∧ c.magicOk then espAdjustedSize k c else 0, espRead k c, espWrite k verify c, espErase k c,
    espClear k verify c⟩

/-! ## Storages that are written in blocks

`memfault_platform_coredump_storage_buffered_write`: `none` is a reboot. -/

/-- msc_coredump_storage.c:81-90. `MSC_WriteWord` needs an aligned address and whole words. -/
def emlibBlock (c : Area) (m : Flash) (offset : Nat) (data : Bytes) : Option (Bool × Flash) :=
  let addr := add32 c.start offset
  if addr % 4 = 0 ∧ data.length % 4 = 0 then some (true, program m addr data) else none

/-- The loop, msc_coredump_storage.c:115-120. -/
def emlibLoop (c : Area) (startAddr eraseSize : Nat) : Nat → Flash → Nat → Option Flash
  | fuel, m, sector =>
    if sector < eraseSize then
      match fuel with
      | 0 => none
      | fuel + 1 =>
        emlibLoop c startAddr eraseSize fuel (erase m (add32 startAddr sector) c.page) (add32 sector c.page)
    else some m

/-- `memfault_platform_coredump_storage_erase`, msc_coredump_storage.c:103-123. -/
def emlibErase (c : Area) (m : Flash) (offset n : Nat) : Option (Bool × Flash) :=
  if !within c.size offset n then some (false, m)
  else if offset % c.page ≠ 0 ∨ n % c.page ≠ 0 then none
  else (emlibLoop c (add32 c.start offset) n (n + 1) m 0).map fun m => (true, m)

/-- `memfault_platform_coredump_storage_clear`, msc_coredump_storage.c:62-70. -/
def emlibClear (c : Area) (m : Flash) : Option Flash := some (program m c.start [0, 0, 0, 0])

/-- The loop of `memfault_platform_coredump_storage_buffered_write`, l4:138-147, wb:138-147. -/
def dwordLoop (m : Flash) (addr : Nat) : Nat → Bytes → Option Flash
  | 0, _ => some m
  | k + 1, data =>
    match programOnce 8 m addr (data.take 8) with
    | none => none
    | some m => dwordLoop m (add32 addr 8) k (data.drop 8)

/-- l4/flash_coredump_storage.c:131-152, wb/flash_coredump_storage.c:131-152. The block is as long as
MEMFAULT_COREDUMP_STORAGE_WRITE_SIZE; a length that is no multiple of 8 would make the loop read behind it. -/
def l4Block (c : Area) (m : Flash) (offset : Nat) (data : Bytes) : Option (Bool × Flash) :=
  if data.length % 8 ≠ 0 then none
  else (dwordLoop m (add32 c.start offset) (data.length / 8) data).map fun m => (true, m)

/-- `memfault_platform_coredump_storage_clear`, l4:154-166, wb:108-120. -/
def l4Clear (c : Area) (m : Flash) : Option Flash :=
  some ((programOnce 8 m c.start (List.replicate 8 0)).getD m)

/-- FLASH_BASE, FLASH_BANK1_END + 1 and FLASH_END + 1. -/
structure Chip where
  base : Nat
  bank1End : Nat
  flashEnd : Nat
  deriving Repr, DecidableEq

/-- `memfault_platform_coredump_storage_erase`, l4/flash_coredump_storage.c:198-242, with
`prv_erase_from_bank`, :179-196: page numbers count from the start of the bank. -/
def l4Erase (k : Chip) (c : Area) (m : Flash) (offset n : Nat) : Option (Bool × Flash) :=
  if !within c.size offset n then some (false, m)
  else
    let b := add32 c.start offset
    let e := add32 b n
    if b < k.base ∨ b > k.flashEnd then some (false, m)
    else if add32 b offset % c.page ≠ 0 ∨ n % c.page ≠ 0 then some (false, m)
    else
      let bank2 (m : Flash) (b : Nat) : Flash :=
        erase m (k.bank1End + sub32 b k.bank1End / c.page * c.page) (sub32 e b / c.page * c.page)
      if b < k.bank1End then
        let e1 := min k.bank1End e
        let m := erase m (k.base + sub32 b k.base / c.page * c.page) (sub32 e1 b / c.page * c.page)
        if e1 = e then some (true, m) else some (true, bank2 m e1)
      else some (true, bank2 m b)

/-- `memfault_platform_coredump_storage_erase`, wb/flash_coredump_storage.c:183-211, with `prv_erase_pages`. -/
def wbErase (k : Chip) (c : Area) (m : Flash) (offset n : Nat) : Option (Bool × Flash) :=
  if !within c.size offset n then some (false, m)
  else
    let b := add32 c.start offset
    let e := add32 b n
    if b < k.base ∨ b ≥ k.flashEnd then some (false, m)
    else if add32 b offset % c.page ≠ 0 ∨ n % c.page ≠ 0 then some (false, m)
    else some (true, erase m (k.base + sub32 b k.base / c.page * c.page) (sub32 e b / c.page * c.page))

/-- `memfault_stm32cubel4_flash_clear_ecc_error`, l4/flash_coredump_storage.c:50-92: what is returned, and
the flash. `ecc`: the address of a double word with an uncorrectable error, if there is one. -/
def l4ClearEcc (ecc : Option Nat) (startAddr endAddr : Nat) (m : Flash) : Bool × Flash :=
  match ecc with
  | none => (false, m)
  | some a =>
    if a < startAddr ∨ a > endAddr then (true, m)
    else (false, program m a (List.replicate 8 0))

/-- `memfault_stm32cubewb_flash_clear_ecc_errors`, wb/flash_coredump_storage.c:54-88. -/
def wbClearEcc (ecc : Option Nat) (startAddr endAddr : Nat) (m : Flash) : Bool × Flash :=
  match ecc with
  | none => (false, m)
  | some a =>
    if a < startAddr ∨ a ≥ endAddr then (true, m)
    else (false, program m a (List.replicate 8 0))

/-- `memfault_platform_coredump_storage_buffered_write`, u5/flash_coredump_storage.c:101-122, for parts that
program 16 bytes at a time. -/
def u5Block (c : Area) (m : Flash) (offset : Nat) (data : Bytes) : Option (Bool × Flash) :=
  if !within c.size offset data.length then some (false, m)
  else (programOnce 16 m (add32 offset c.start) data).map fun m => (true, m)

/-- `memfault_platform_coredump_storage_erase`, u5/flash_coredump_storage.c:135-163, with
MEMFAULT_COREDUMP_STORAGE_FLASH_SECTOR_NUMBER, :64-72. In `k`, `bank1End` is FLASH_BANK_2_START_ADDR. -/
def u5Erase (k : Chip) (c : Area) (m : Flash) (offset n : Nat) : Option (Bool × Flash) :=
  if !within c.size offset n then some (false, m)
  else
    let bank := if c.start ≥ k.bank1End then k.bank1End else k.base
    some (true, erase m (bank + (sub32 c.start bank / c.page + offset / c.page) * c.page) (n / c.page * c.page))

/-- `memfault_platform_coredump_storage_clear`, u5/flash_coredump_storage.c:88-90. -/
def u5Clear (k : Chip) (c : Area) (m : Flash) : Option Flash := (u5Erase k c m 0 c.page).map (·.2)

/-- FEATURE_FLS_PF_BLOCK_SIZE, FEATURE_FLS_DF_BLOCK_SIZE and the sizes of their sectors. -/
structure S32 where
  pfSize : Nat
  dfSize : Nat
  pfSector : Nat
  dfSector : Nat
  deriving Repr, DecidableEq

/-- `prv_lookup_flash_info`, ftfc_flash_coredump_storage.c:85-101: the size of a sector and the address the
flash controller uses. -/
def s32Lookup (k : S32) (startAddr endAddr : Nat) : Option (Nat × Nat) :=
  if endAddr ≤ k.pfSize then some (k.pfSector, startAddr)
  else if startAddr ≥ 0x10000000 ∧ endAddr ≤ add32 0x10000000 k.dfSize then
    some (k.dfSector, sub32 (add32 startAddr 0x800000) 0x10000000)
  else none

/-- The memory address of an address of the flash controller, of which it is given 24 bits,
ftfc_flash_coredump_storage.c:124-126, 149-151. Data flash starts at 0x800000. -/
def s32Mem (a : Nat) : Nat :=
  let a := a % 0x1000000
  if a < 0x800000 then a else a - 0x800000 + 0x10000000

/-- The loop with `prv_write_double_word`, ftfc_flash_coredump_storage.c:143-168, 187-189. -/
def s32Loop (m : Flash) (addr : Nat) : Nat → Bytes → Option Flash
  | 0, _ => some m
  | k + 1, data =>
    match programOnce 8 m (s32Mem addr) (data.take 8) with
    | none => none
    | some m => s32Loop m (add32 addr 8) k (data.drop 8)

/-- `memfault_platform_coredump_storage_buffered_write`, ftfc_flash_coredump_storage.c:170-192. -/
def s32Block (k : S32) (c : Area) (m : Flash) (offset : Nat) (data : Bytes) : Option (Bool × Flash) :=
  let startAddr := add32 c.start offset
  let endAddr := add32 (add32 startAddr offset) data.length
  match s32Lookup k startAddr endAddr with
  | none => some (false, m)
  | some (_, addr) =>
    if data.length % 8 ≠ 0 then none
    else (s32Loop m addr (data.length / 8) data).map fun m => (true, m)

/-- The loop with `prv_erase_sector_assert_success`, ftfc_flash_coredump_storage.c:119-141, 219-221. -/
def s32EraseLoop (addr sector eraseSize : Nat) : Nat → Flash → Nat → Option Flash
  | fuel, m, offset =>
    if offset < eraseSize then
      match fuel with
      | 0 => none
      | fuel + 1 =>
        s32EraseLoop addr sector eraseSize fuel (erase m (s32Mem (add32 addr offset)) sector) (add32 offset sector)
    else some m

/-- `memfault_platform_coredump_storage_erase`, ftfc_flash_coredump_storage.c:205-224. `none` also is a
division by zero. -/
def s32Erase (k : S32) (c : Area) (m : Flash) (offset n : Nat) : Option (Bool × Flash) :=
  let startAddr := add32 c.start offset
  let endAddr := add32 startAddr n
  match s32Lookup k startAddr endAddr with
  | none => some (false, m)
  | some (sector, addr) =>
    if n = 0 then none
    else if add32 startAddr offset % n ≠ 0 ∨ n % sector ≠ 0 then some (false, m)
    else (s32EraseLoop addr sector n (n + 1) m 0).map fun m => (true, m)

/-- `memfault_platform_coredump_storage_clear`, ftfc_flash_coredump_storage.c:226-239. -/
def s32Clear (k : S32) (c : Area) (m : Flash) : Option Flash :=
  match s32Lookup k c.start c.stop with
  | none => some m
  | some (sector, addr) => some (erase m (s32Mem addr) sector)

/-! The ports, with the function that writes a block. -/

/-- The port emlib. -/
def emlib (c : Area) : Port := ⟨c.size, readMapped c, emlibBlock c, emlibErase c, emlibClear c⟩

/-- The port stm32cube/l4. -/
def l4 (k : Chip) (c : Area) : Port := ⟨c.size, readMapped c, l4Block c, l4Erase k c, l4Clear c⟩

/-- The port stm32cube/wb. -/
def wb (k : Chip) (c : Area) : Port := ⟨c.size, readMapped c, l4Block c, wbErase k c, l4Clear c⟩

/-- The port stm32cube/u5. -/
def u5 (k : Chip) (c : Area) : Port := ⟨c.size, readMapped c, u5Block c, u5Erase k c, u5Clear k c⟩

/-- The port s32sdk. -/
def s32 (k : S32) (c : Area) : Port := ⟨c.size, readMapped c, s32Block k c, s32Erase k c, s32Clear k c⟩

end Mflt.FlashPorts
