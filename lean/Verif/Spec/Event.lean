import Verif.Spec.Cbor
import Verif.Model.SerializerEvents

/-!
# Specification: Memfault events as CBOR maps

From the model only the record of device strings is used. Keys: 2 event type, 3 schema version,
7 device serial, 10 software type, 9 software version, 6 hardware version, 11 build id, 1 capture
time, 4 event information.
-/

namespace Mflt.Spec.Event

open Cbor (Item)
open SerializerHelper (Device)

/-- The keys and values every event starts with. -/
def metadata (dev : Device) (type : Nat) (time : Option Nat) : List Item :=
  [.uint 2, .uint type, .uint 3, .uint 1] ++
  (match dev.serial with | some s => [.uint 7, .text s] | none => []) ++
  [.uint 10, .text dev.softwareType, .uint 9, .text dev.softwareVersion, .uint 6,
    .text dev.hardwareVersion] ++
  (match dev.buildId with | some b => [.uint 11, .bytes b] | none => []) ++
  (match time with | some t => [.uint 1, .uint (t % 2 ^ 32)] | none => [])

/-- An event: a map of the metadata and the event information. -/
def event (dev : Device) (type : Nat) (time : Option Nat) (info : Item) : Item :=
  .map (metadata dev type time ++ [.uint 4, info])

/-- Device strings are C strings of sensible length. -/
structure DeviceOk (dev : Device) : Prop where
  serial : ∀ s, dev.serial = some s → s.length < 2 ^ 32 ∧ 0 ∉ s
  softwareType : dev.softwareType.length < 2 ^ 32 ∧ 0 ∉ dev.softwareType
  softwareVersion : dev.softwareVersion.length < 2 ^ 32 ∧ 0 ∉ dev.softwareVersion
  hardwareVersion : dev.hardwareVersion.length < 2 ^ 32 ∧ 0 ∉ dev.hardwareVersion
  buildId : ∀ b, dev.buildId = some b → b.length < 2 ^ 32

end Mflt.Spec.Event
