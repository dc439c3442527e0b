import Verif.Model.RebootTracking
import Verif.Model.SerializerEvents

/-!
# Model of `components/core/src/memfault_reboot_tracking_serializer.c`

Logging is left out.
-/

namespace Mflt.RebootEvent

open Cbor (Encoder Call callAll)
open SerializerHelper
open RebootTracking (Info)

variable {σ : Type}

/-- `extra_event_info_pairs`, memfault_reboot_tracking_serializer.c:26-27. -/
def extraPairs (info : Info) : Nat := 1 + (if info.reg0 ≠ 0 then 1 else 0)

/-- The pairs after the common ones, memfault_reboot_tracking_serializer.c:37-45. -/
def extraCalls (info : Info) : List Call :=
  (if info.reg0 ≠ 0 then [u32 4, u32 info.reg0] else []) ++
  [u32 5, u32 (if info.coredumpSaved then 1 else 0)]

/-- `prv_serialize_reboot_info` and `prv_encode_cb`, memfault_reboot_tracking_serializer.c:25-53. -/
def encode (dev : Device) (time : Option Nat) (info : Info) (e : Encoder σ) : Bool × Encoder σ :=
  andThen (encodeTraceEvent dev time ⟨1, info.reason, info.pc, info.lr, extraPairs info⟩)
    (fun e => callAll e (extraCalls info)) e

/-- `memfault_reboot_tracking_compute_worst_case_storage_size`,
memfault_reboot_tracking_serializer.c:55-67. `kMfltRebootReason_HardFault` is 0x9400. -/
def worstCase (dev : Device) (time : Option Nat) : Nat :=
  computeSize (encode dev time ⟨0x9400, 0xffffffff, 0xffffffff, 0xffffffff, true⟩)

/-- The statics of reboot tracking, of the event storage and of the serializer helper. -/
structure Sys where
  reboot : RebootTracking.State
  storage : EventStorage.State
  drops : Drops
  deriving Repr, DecidableEq

/-- `memfault_reboot_tracking_collect_reset_info`, memfault_reboot_tracking_serializer.c:69-107, with a
storage (a null pointer is answered with -1). The size check at its start only logs. -/
def collect (dev : Device) (time : Option Nat) (sys : Sys) : Option (Int × Sys) :=
  match RebootTracking.readInfo sys.reboot with
  | (none, reboot) => some (0, { sys with reboot := reboot })
  | (some info, reboot) =>
    match encodeToStorage (encode dev time info) sys.storage sys.drops with
    | none => none
    | some (success, storage, drops) =>
      if !success then some (-2, ⟨reboot, storage, drops⟩)
      else some (0, ⟨RebootTracking.clear reboot, storage, drops⟩)

end Mflt.RebootEvent
