import Verif.Model.EventStorage

/-!
# Model of `components/core/src/memfault_serializer_helper.c`: storing an encoded event

An encode callback is any function on the encoder. The event encoders themselves are in
`Model/SerializerEvents.lean`.
-/

namespace Mflt.SerializerHelper

open Cbor (Encoder)

/-- `s_num_storage_drops` and `s_last_drop_count`, memfault_serializer_helper.c:27-30. -/
structure Drops where
  numStorageDrops : Nat
  lastDropCount : Nat
  deriving Repr, DecidableEq

/-- The storage as the encoder's context; `none` after undefined behaviour. -/
abbrev Ctx := Option EventStorage.State

/-- `prv_encoder_write_cb`, memfault_serializer_helper.c:197-202. -/
def encoderWrite (ctx : Ctx) (_offset : Nat) (buf : Bytes) : Ctx :=
  ctx.bind fun s => (EventStorage.appendData s buf).map Prod.snd

/-- `memfault_serializer_helper_encode_to_storage`, memfault_serializer_helper.c:204-232. Logging is
left out. -/
def encodeToStorage (encode : Encoder Ctx → Bool × Encoder Ctx) (s : EventStorage.State)
    (d : Drops) : Option (Bool × EventStorage.State × Drops) := do
  let (spaceAvailable, s) ← EventStorage.beginWrite s
  let (success, e) := encode (Encoder.init encoderWrite (some s) spaceAvailable)
  let s ← e.ctx
  let s ← EventStorage.finishWrite s (!success)
  if !success then
    return (success, s, { d with numStorageDrops := add32 d.numStorageDrops 1 })
  else if d.numStorageDrops ≠ 0 then
    return (success, s, ⟨0, add32 d.lastDropCount d.numStorageDrops⟩)
  else return (success, s, d)

/-- `memfault_serializer_helper_read_drop_count`, memfault_serializer_helper.c:234-239. -/
def readDropCount (d : Drops) : Nat × Drops := (add32 d.lastDropCount d.numStorageDrops, ⟨0, 0⟩)

/-- `memfault_serializer_helper_compute_size`, memfault_serializer_helper.c:241-247. -/
def computeSize (encode : Encoder Unit → Bool × Encoder Unit) : Nat :=
  (encode (Encoder.initSizeOnly ())).2.encodedSize

/-- `memfault_serializer_helper_check_storage_size`, memfault_serializer_helper.c:249-262. -/
def checkStorageSize (storageMaxSize worstCaseSize : Nat) : Bool :=
  if worstCaseSize > storageMaxSize then false else true

end Mflt.SerializerHelper
