import Verif.Model.FlashPorts
import Verif.Model.Crc16

/-!
# Model of the description of the coredump partition kept in RAM

`ports/esp_idf/memfault/common/memfault_platform_coredump.c` (esp_idf),
`ports/esp8266_sdk/memfault/memfault_platform_coredump_storage.c` (esp8266_sdk) and
`ports/dialog/da1468x/qspi_coredump_storage.c` (da1468x). The description is looked up on boot and used
after a crash. `Model.FlashPorts` has the functions of the storage for a description that is given by flags;
here it is bytes.
-/

namespace Mflt.PartitionInfo

open Spec.Flash

/-- The struct that describes a partition (`esp_partition_t` of the vendor, `nvms_partition_t`,
qspi_coredump_storage.c:67-70): its size, and where in it the address (the handle) and the size of the
partition are. -/
structure Layout where
  len : Nat
  addressAt : Nat
  sizeAt : Nat
  deriving Repr, DecidableEq

/-- The checksum of the first `n` bytes, `prv_get_partition_info_crc`, esp_idf/...:90-93, esp8266_sdk/...:37-40,
qspi_coredump_storage.c:86-89. -/
def crc (n : Nat) (ram : Bytes) : Nat := ((Crc16.computeTable 0 (ram.take n)).getD 0).toNat

/-- `prv_get_core_partition`, esp_idf/...:95-101, esp8266_sdk/...:66-72, qspi_coredump_storage.c:91-97:
whether there is one. -/
def getCore (ram : Bytes) : Bool := Coredump.ofLe32 (ram.take 4) == 0x45524f43

/-- The comparison of checksums in `prv_validate_and_get_core_partition`, esp_idf/...:280-287,
esp8266_sdk/...:74-81, qspi_coredump_storage.c:99-106. The checksum is the last of three fields:
esp_idf/...:80-84, esp8266_sdk/...:29-33, qspi_coredump_storage.c:74-78. -/
def crcMatches (L : Layout) (ram : Bytes) : Bool :=
  crc (4 + L.len) ram == Coredump.ofLe32 ((ram.drop (4 + L.len)).take 4)

/-- What the functions of the storage see of it. -/
def partOf (L : Layout) (ram : Bytes) : FlashPorts.Part :=
  ⟨getCore ram, crcMatches L ram, Coredump.ofLe32 ((ram.drop (4 + L.addressAt)).take 4),
    Coredump.ofLe32 ((ram.drop (4 + L.sizeAt)).take 4)⟩

/-- `__wrap_esp_core_dump_init`, esp_idf/...:236-259, `memfault_esp_port_coredump_storage_boot`,
esp8266_sdk/...:42-64, `memfault_platform_coredump_storage_boot`, qspi_coredump_storage.c:119-138:
`partition` is what the vendor's SDK says about the partition, `none` if there is none. `ram`: before. -/
def boot (partition : Option Bytes) (ram : Bytes) : Bytes :=
  match partition with
  | none => ram
  | some p =>
    let info := Coredump.le32 0x45524f43 ++ p
    info ++ Coredump.le32 (crc info.length info)

/-- `prv_get_info_and_header`, memfault_coredump.c:371-391, on a storage: its size and the header. -/
def infoAndHeader (p : Port) (m : Flash) : Option (Nat × Bytes) :=
  if p.size = 0 then none
  else (p.read m 0 12).map fun h => (p.size, h)

/-- The first request `memfault_coredump_save` makes of the storage once it is ready,
memfault_coredump.c:447-462: the number of bytes to erase, `none` if it gives up without having made any. -/
def saveErases (p : Port) (m : Flash) : Option Nat :=
  match infoAndHeader p m with
  | none => none
  | some (size, h) => if Coredump.headerValid h then none else some size

/-- `memfault_coredump_has_valid_coredump`, memfault_coredump.c:563-578. -/
def hasValid (p : Port) (m : Flash) : Option Nat :=
  match infoAndHeader p m with
  | none => none
  | some (_, h) => if Coredump.headerValid h then some (Coredump.ofLe32 ((h.drop 8).take 4)) else none

/-- What `esp_core_dump_image_get` returns, in the order of the C code. -/
inductive Image where
  | invalidArg
  | fail
  | invalidSize
  | ok (address size : Nat)
  deriving Repr, DecidableEq

/-- `__wrap_esp_core_dump_image_get`, esp_idf/...:261-278. -/
def imageGet (L : Layout) (k : FlashPorts.EspCfg) (verify : Bool) (ram : Bytes) (m : Flash)
    (pointers : Bool) : Image :=
  if !pointers then .invalidArg
  else if !getCore ram then .fail
  else
    match hasValid (FlashPorts.espIdf k verify (partOf L ram)) m with
    | none => .invalidSize
    | some n => .ok (add32 (partOf L ram).address k.writeOffset) n

end Mflt.PartitionInfo
