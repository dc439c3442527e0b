import Verif.Model.SerializerHelper

/-!
# Model of `components/core/src/memfault_serializer_helper.c`: the contents of events

The chains `a && b && ...` of encoder calls are `Cbor.callAll`. Strings of the device info are the
bytes before their terminator.
-/

namespace Mflt.SerializerHelper

open Cbor (Encoder Call callAll encodeDictionaryBegin)

variable {σ : Type}

/-- `sMemfaultDeviceInfo` with the compile-time choices: whether the serial is included
(MEMFAULT_EVENT_INCLUDE_DEVICE_SERIAL) and the build id (MEMFAULT_EVENT_INCLUDE_BUILD_ID and a
readable build id). -/
structure Device where
  serial : Option Bytes
  softwareType : Bytes
  softwareVersion : Bytes
  hardwareVersion : Bytes
  buildId : Option Bytes
  deriving Repr, DecidableEq

/-- A `uint32_t` argument. -/
def u32 (n : Nat) : Call := .unsigned (BitVec.ofNat 32 n)

/-- `prv_encode_device_version_info`, memfault_serializer_helper.c:38-71. -/
def versionCalls (dev : Device) : List Call :=
  (match dev.serial with | some s => [u32 7, .string s] | none => []) ++
  [u32 10, .string dev.softwareType, u32 9, .string dev.softwareVersion,
   u32 6, .string dev.hardwareVersion]

/-- `top_level_num_pairs`, memfault_serializer_helper.c:125-131. -/
def topLevelPairs (dev : Device) (time : Option Nat) : Nat :=
  1 + (if time.isSome then 1 else 0) + (if dev.serial.isSome then 1 else 0) + 3 +
    (if dev.buildId.isSome then 1 else 0) + 1 + 1

/-- The calls of `memfault_serializer_helper_encode_metadata_with_time` after
`memfault_cbor_encode_dictionary_begin`, memfault_serializer_helper.c:135-163. -/
def metadataCalls (dev : Device) (type : Nat) (time : Option Nat) : List Call :=
  [u32 2, u32 type, u32 3, u32 1] ++ versionCalls dev ++
  (match dev.buildId with | some b => [u32 11, .byteString b] | none => []) ++
  (match time with | some t => [u32 1, u32 t] | none => [])

/-- `memfault_serializer_helper_encode_metadata_with_time`, memfault_serializer_helper.c:108-159.
`time = none` when no unix time is available. The result of the first call is ignored. -/
def encodeMetadata (dev : Device) (type : Nat) (time : Option Nat) (e : Encoder σ) :
    Bool × Encoder σ :=
  callAll (encodeDictionaryBegin e (topLevelPairs dev time)).2 (metadataCalls dev type time)

/-- `a && b` on encoder steps. -/
def andThen (a b : Encoder σ → Bool × Encoder σ) (e : Encoder σ) : Bool × Encoder σ :=
  match a e with
  | (true, e) => b e
  | (false, e) => (false, e)

/-- `sMemfaultTraceEventHelperInfo`, serializer_helper.h. -/
structure TraceInfo where
  reasonKey : Nat
  reasonValue : Nat
  pc : Nat
  lr : Nat
  extraPairs : Nat
  deriving Repr, DecidableEq

/-- The calls of `memfault_serializer_helper_encode_trace_event` after the metadata,
memfault_serializer_helper.c:171-195. -/
def traceCalls (info : TraceInfo) : List Call :=
  [u32 4, .dictionaryBegin (1 + (if info.pc ≠ 0 then 1 else 0) + (if info.lr ≠ 0 then 1 else 0) +
      info.extraPairs),
   u32 info.reasonKey, u32 info.reasonValue] ++
  (if info.pc ≠ 0 then [u32 2, u32 info.pc] else []) ++
  (if info.lr ≠ 0 then [u32 3, u32 info.lr] else [])

/-- `memfault_serializer_helper_encode_trace_event`, memfault_serializer_helper.c:161-191. -/
def encodeTraceEvent (dev : Device) (time : Option Nat) (info : TraceInfo) (e : Encoder σ) :
    Bool × Encoder σ :=
  andThen (encodeMetadata dev 2 time) (fun e => callAll e (traceCalls info)) e

end Mflt.SerializerHelper
