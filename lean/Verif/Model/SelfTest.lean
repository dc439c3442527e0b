import Verif.Model.BuildId
import Verif.Model.Coredump
import Verif.Model.CoredumpStorage
import Verif.Model.RebootTracking

/-!
# Model of the self test

`components/core/src/memfault_self_test.c` and `components/core/src/memfault_self_test_utils.c`.
What is logged is left out, apart from the line of the data export test.
-/

namespace Mflt.SelfTest

/-! ## Strings -/

/-- `memfault_strnlen`, memfault_self_test_utils.c:62-72, on the memory that starts at `str`.  `none`:
a read behind it. -/
def strnlen : Bytes → Nat → Option Nat
  | _, 0 => some 0
  | [], _ + 1 => none
  | c :: str, n + 1 => if c ≠ 0 then (strnlen str n).map (· + 1) else some 0

/-- `isalnum` of the C locale. -/
def isalnum (c : UInt8) : Bool :=
  (48 ≤ c.toNat ∧ c.toNat ≤ 57) ∨ (65 ≤ c.toNat ∧ c.toNat ≤ 90) ∨ (97 ≤ c.toNat ∧ c.toNat ≤ 122)

/-- `isprint` of the C locale. -/
def isprint (c : UInt8) : Bool := 32 ≤ c.toNat ∧ c.toNat ≤ 126

/-- `memfault_self_test_valid_device_serial`, memfault_self_test_utils.c:16-18. -/
def validSerial (c : UInt8) : Bool := isalnum c || c == 95 || c == 45

/-- `memfault_self_test_valid_hw_version_sw_type`, memfault_self_test_utils.c:20-22. -/
def validVersion (c : UInt8) : Bool := validSerial c || c == 46 || c == 43 || c == 58

/-- `memfault_self_test_valid_sw_version`, memfault_self_test_utils.c:24-26. -/
def validSwVersion (c : UInt8) : Bool := isprint c

/-- `prv_validate_string`, memfault_self_test.c:71-80; the first parameter is `len - idx`. -/
def validateString (isValid : UInt8 → Bool) : Nat → Bytes → Option Bool
  | 0, _ => some true
  | _ + 1, [] => none
  | len + 1, c :: str => if !isValid c then some false else validateString isValid len str

/-- `eDeviceInfoField`, memfault_self_test.c:39-46, without the build id and the maximum, which are
never checked as strings. -/
inductive Field
  | deviceSerial | softwareType | softwareVersion | hardwareVersion
  deriving Repr, DecidableEq

/-- The value of the enumeration, memfault_self_test.c:39-46. -/
def Field.index : Field → Nat
  | .deviceSerial => 0
  | .softwareType => 1
  | .softwareVersion => 2
  | .hardwareVersion => 3

/-- `s_device_info_str_validators`, memfault_self_test.c:58-64. -/
def Field.validator : Field → UInt8 → Bool
  | .deviceSerial => validSerial
  | .softwareType => validVersion
  | .softwareVersion => validSwVersion
  | .hardwareVersion => validVersion

/-- `is_field_valid`, memfault_self_test.c:82-102. `none` for `str`: a null pointer. `maxSize`:
MEMFAULT_DEVICE_INFO_MAX_STRING_SIZE. -/
def isFieldValid (maxSize : Nat) (str : Option Bytes) (field : Field) : Option Bool :=
  match str with
  | none => some false
  | some str =>
    (strnlen str (maxSize + 1)).bind fun len =>
      if len < 1 ∨ len > maxSize then some false
      else validateString field.validator len str

/-- `prv_validate_device_info_field`, memfault_self_test.c:104-111. -/
def validateField (maxSize : Nat) (str : Option Bytes) (field : Field) : Option Nat :=
  (isFieldValid maxSize str field).map fun ok => if !ok then 1 <<< field.index else 0

/-- `sMemfaultDeviceInfo`: the memory at each pointer. -/
structure DeviceInfo where
  deviceSerial : Option Bytes
  softwareType : Option Bytes
  softwareVersion : Option Bytes
  hardwareVersion : Option Bytes
  deriving Repr, DecidableEq

/-- `prv_validate_device_info`, memfault_self_test.c:113-132. -/
def validateDeviceInfo (maxSize : Nat) (i : DeviceInfo) : Option Nat :=
  (validateField maxSize i.deviceSerial .deviceSerial).bind fun a =>
  (validateField maxSize i.hardwareVersion .hardwareVersion).bind fun b =>
  (validateField maxSize i.softwareVersion .softwareVersion).bind fun c =>
  (validateField maxSize i.softwareType .softwareType).map fun d => 0 ||| a ||| b ||| c ||| d

/-- `prv_validate_build_id`, memfault_self_test.c:134-143. -/
def validateBuildId (g : BuildId.Id) : Option Nat :=
  (BuildId.getString g (List.replicate 41 0) 0 41).map fun r => if !r.1 then 1 <<< 4 else 0

/-- `memfault_self_test_device_info_test`, memfault_self_test.c:160-172. -/
def deviceInfoTest (maxSize : Nat) (g : BuildId.Id) (i : DeviceInfo) : Option Nat :=
  (validateBuildId g).bind fun a => (validateDeviceInfo maxSize i).map fun b => 0 ||| a ||| b

/-! ## The other tests -/

/-- The loop of `memfault_self_test_component_boot_test`, memfault_self_test.c:204-224: what the
functions of `s_boot_components` say, and the index of the first. -/
def bootLoop (i result : Nat) : List Bool → Nat
  | [] => result
  | booted :: rest => bootLoop (i + 1) (if booted then result else result ||| 1 <<< i) rest

/-- `memfault_self_test_component_boot_test`, memfault_self_test.c:204-224: event storage, logging,
reboot tracking, trace events. -/
def componentBootTest (events logging rebootTracking traceEvents : Bool) : Nat :=
  bootLoop 0 0 [events, logging, rebootTracking, traceEvents]

/-- `memfault_self_test_data_export_test`, memfault_self_test.c:226-239: the buffer that is printed
with `%s`. `maxLen`: MEMFAULT_DATA_EXPORT_BASE64_CHUNK_MAX_LEN. -/
def dataExportLine (maxLen : Nat) : Option Bytes :=
  (memcpyIn (List.replicate maxLen 0) 0 (List.replicate (maxLen - 2) 43)).bind fun line =>
    memcpyIn line (maxLen - 2) [49]

/-- `memfault_self_test_coredump_regions_test`, memfault_self_test.c:255-293: the number of regions of
the platform and whether the pointer to them is null. -/
def regionsTest (num : Nat) (null : Bool) : Nat :=
  let result := if num = 0 then 1 else 0
  if null then 1 else result

/-- `memfault_self_test_reboot_reason_test`, memfault_self_test.c:295-304: the state of reboot tracking
when the device is rebooted. -/
def rebootTest (s : RebootTracking.State) (regs : RebootTracking.Regs) : RebootTracking.State :=
  RebootTracking.mark s 0x000b (some regs)

/-- `memfault_self_test_reboot_reason_test_verify`, memfault_self_test.c:306-326. -/
def rebootVerify (s : RebootTracking.State) : Nat :=
  match RebootTracking.getRebootReason s with
  | some (_, prior) => if prior = 0x000b then 0 else 1
  | none => 1

/-- `prv_get_time_since_boot_test`, memfault_self_test.c:329-350, given both times. -/
def timeSinceBootTest (start «end» : Nat) : Nat :=
  if start = 0 then 1 <<< 0 else if «end» ≤ start then 1 <<< 1 else 0

/-- `prv_platform_time_get_current_test`, memfault_self_test.c:356-384: the type and value of the
current time, if there is one (`kMemfaultCurrentTimeType_UnixEpochTimeSec` is 1). -/
def currentTimeTest : Option (Nat × Nat) → Nat
  | none => 1 <<< 2
  | some (type, secs) =>
    if type ≠ 1 then 1 <<< 3 else if secs < 1706486400 then 1 <<< 4 else 0

/-- `memfault_self_test_time_test`, memfault_self_test.c:386-394. -/
def timeTest (start «end» : Nat) (current : Option (Nat × Nat)) : Nat :=
  timeSinceBootTest start «end» ||| currentTimeTest current

/-- `memfault_self_test_coredump_storage_capacity_test`, memfault_self_test.c:396-408. -/
def capacityTest (sizeNeeded storageSize : Nat) : Nat :=
  if Coredump.checkSize sizeNeeded storageSize then 0 else 1

/-- `memfault_self_test_coredump_storage_test`, memfault_self_test.c:410-437: the result and the storage
left behind. `readOk`: the header of the storage can be read; `irqsDisabled`: what
`memfault_self_test_platform_disable_irqs` returns. -/
def storageTest (p : CoredumpStorage.Platform Bytes) (readOk irqsDisabled : Bool) (m : Bytes) :
    Option (Nat × Bytes) :=
  if (Coredump.hasValid readOk m).isSome then some (1 <<< 0, m)
  else if !irqsDisabled then some (1 <<< 1, m)
  else
    (CoredumpStorage.testBegin p m).bind fun r =>
    (CoredumpStorage.testFinish p r.1 r.2).map fun f => (if f.1 then 0 else 1 <<< 2, f.2.2)

/-! ## The choice of tests -/

/-- What each test would return. -/
structure Results where
  deviceInfo : Nat
  componentBoot : Nat
  coredumpRegions : Nat
  rebootVerify : Nat
  time : Nat
  coredumpStorage : Nat
  capacity : Nat
  deriving Repr, DecidableEq

/-- How `memfault_self_test_run` ends. -/
inductive End
  | reboots
  | returns (r : Nat)
  deriving Repr, DecidableEq

/-- `memfault_self_test_run`, memfault_self_test.c:441-477. `storageEnabled`:
MEMFAULT_DEMO_CLI_SELF_TEST_COREDUMP_STORAGE. -/
def run (storageEnabled : Bool) (flags : Nat) (t : Results) : End :=
  let result := 0
  let result := if flags.testBit 0 then result ||| t.deviceInfo else result
  let result := if flags.testBit 1 then result ||| t.componentBoot else result
  let result := if flags.testBit 2 then result ||| t.coredumpRegions else result
  if flags.testBit 4 then .reboots
  else
    let result := if flags.testBit 5 then t.rebootVerify else result
    let result := if flags.testBit 6 then result ||| t.time else result
    let result :=
      if flags.testBit 7 then (if storageEnabled then result ||| t.coredumpStorage else 1)
      else result
    let result := if flags.testBit 8 then result ||| t.capacity else result
    .returns (if result = 0 then 0 else 1)

/-- `strncmp(a, b, n) == 0` on the memory at both pointers. `none`: a read behind one of them. -/
def strncmpEq : Nat → Bytes → Bytes → Option Bool
  | 0, _, _ => some true
  | n + 1, a :: as, b :: bs =>
    if a ≠ b then some false else if a = 0 then some true else strncmpEq n as bs
  | _ + 1, _, _ => none

/-- `s_test_flags`, memfault_self_test_utils.c:28-44: "reboot", "reboot_verify", "coredump_storage". -/
def testFlags : List (Bytes × Nat) :=
  [([114, 101, 98, 111, 111, 116, 0], 1 <<< 4),
   ([114, 101, 98, 111, 111, 116, 95, 118, 101, 114, 105, 102, 121, 0], 1 <<< 5),
   ([99, 111, 114, 101, 100, 117, 109, 112, 95, 115, 116, 111, 114, 97, 103, 101, 0], 1 <<< 7)]

/-- The loop of `memfault_self_test_arg_to_flag`, memfault_self_test_utils.c:50-54, and
`kMemfaultSelfTestFlag_Default`, self_test.h:27-30. -/
def argLoop (arg : Bytes) : List (Bytes × Nat) → Option Nat
  | [] => some (1 <<< 0 ||| 1 <<< 1 ||| 1 <<< 2 ||| 1 <<< 3 ||| 1 <<< 6 ||| 1 <<< 8)
  | (name, value) :: rest =>
    match strncmpEq 30 arg name with
    | none => none
    | some true => some value
    | some false => argLoop arg rest

/-- `memfault_self_test_arg_to_flag`, memfault_self_test_utils.c:48-58, for an argument that is not
null. -/
def argToFlag (arg : Bytes) : Option Nat := argLoop arg testFlags

end Mflt.SelfTest
