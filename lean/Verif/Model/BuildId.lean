import Verif.Model.Mem

/-!
# Model of `components/core/src/memfault_core_utils.c`

Build id and unique version string. Logging is left out, and so are `memfault_build_info_dump` and
`memfault_device_info_dump`, which only log.
-/

namespace Mflt.BuildId

/-- `sMemfaultBuildIdStorage`, memfault_build_id_private.h:41-51: `type` and the memory `storage`
points to. -/
structure Id where
  type : Nat
  storage : Bytes
  deriving Repr, DecidableEq

/-- The little-endian `uint32_t` at the start of memory. -/
def le32 : Bytes → Nat
  | a :: b :: c :: d :: _ => a.toNat + 256 * b.toNat + 65536 * c.toNat + 16777216 * d.toNat
  | _ => 0

/-- `prv_get_build_id_start_pointer`, memfault_core_utils.c:19-34: an index into the storage.
`sMemfaultElfNoteSection` has three 32-bit fields before `namedata`,
memfault_build_id_private.h:73-79. -/
def startPointer (g : Id) : Option Nat :=
  if g.type = 3 then some 0
  else if g.type = 2 then some (12 + le32 g.storage)
  else none

/-- `memfault_build_info_read`, memfault_core_utils.c:36-44. The outer `none` is undefined behaviour. -/
def infoRead (g : Id) : Option (Option Bytes) :=
  match startPointer g with
  | none => some none
  | some i => (memcpyOut g.storage i 20).map some

/-- `prv_nib_to_hex_ascii`, memfault_core_utils.c:46-48. -/
def nibToHex (val : UInt8) : UInt8 := if val < 10 then val + 48 else (val - 10) + 97

/-- The loop of `memfault_build_id_get_string`, memfault_core_utils.c:61-65; the first parameter is
`max_entries - i`. `start` is where `out_buf` points in `buf`. -/
def stringLoop (id : Bytes) (start : Nat) : Nat → Nat → Bytes → Option Bytes
  | 0, _, buf => some buf
  | left + 1, i, buf =>
    match id[i / 2]? with
    | none => none
    | some c =>
      let nibble := if i % 2 = 0 then (c >>> 4) &&& 0xf else c &&& 0xf
      (memcpyIn buf (start + i) [nibToHex nibble]).bind fun buf => stringLoop id start left (i + 1) buf

/-- `memfault_build_id_get_string`, memfault_core_utils.c:50-69; `out_buf` is `&buf[start]`. -/
def getString (g : Id) (buf : Bytes) (start bufLen : Nat) : Option (Bool × Bytes) :=
  (infoRead g).bind fun info =>
    match info with
    | none => some (false, buf)
    | some id =>
      if bufLen < 2 then some (false, buf)
      else
        let maxEntries := min (20 * 2) (bufLen - 1)
        (stringLoop id start maxEntries 0 buf).bind fun buf =>
        (memcpyIn buf (start + maxEntries) [0]).map fun buf => (true, buf)

/-- The bytes of a C string in memory up to its terminator; `none` if there is no terminator. -/
def cstring (mem : Bytes) : Option Bytes :=
  if 0 ∈ mem then some (mem.takeWhile (· ≠ 0)) else none

/-- `memfault_create_unique_version_string`, memfault_core_utils.c:71-105, and
`memfault_get_unique_version_string`, 108-110 (a null pointer as argument). `sVersion` is the static
buffer of MEMFAULT_UNIQUE_VERSION_MAX_LEN bytes. The result is whether the buffer is returned, rather
than a null pointer, and the new buffer. -/
def createVersion (g : Id) (sVersion : Bytes) (version : Option Bytes) : Option (Bool × Bytes) :=
  if sVersion.getD 0 0 ≠ 0 then some (true, sVersion)
  else
    match version with
    | none => some (false, sVersion)
    | some version =>
      let versionLen := version.length + 1
      let buildIdChars := 6 + 1
      if versionLen + buildIdChars ≤ sVersion.length then
        (memcpyIn sVersion 0 version).bind fun sVersion =>
        (memcpyIn sVersion (versionLen - 1) [43]).bind fun sVersion =>
        let buildIdNumChars := min buildIdChars (sVersion.length - versionLen - 1)
        (getString g sVersion versionLen buildIdNumChars).bind fun r =>
          if r.1 then some (true, r.2)
          else (memcpyIn r.2 versionLen [110, 111, 45, 105, 100, 0]).map fun sVersion => (true, sVersion)
      else some (false, sVersion)

end Mflt.BuildId
