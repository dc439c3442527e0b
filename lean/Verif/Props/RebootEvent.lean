import Verif.Lemmas.RebootEvent
import Verif.Props.Metrics

/-!
# C67: reboots are reported

`Spec.RebootEvent` (`Spec/RebootEvent.lean`) is the specification.
-/

namespace Mflt.Props

open RebootEvent
open SerializerHelper (Device computeSize)
open Spec.RebootEvent (rebootEvent InfoOk Op Out)
open RebootTracking (Info)

theorem u32_length_le (v : Nat) : (Cbor.emit (SerializerHelper.u32 v)).length ≤ 5 := by
  unfold SerializerHelper.u32
  rw [Metrics.emit_unsigned]; exact (Metrics.headLen_le _).2

/-- **C67.** Over every history of calls to reboot tracking, resets, calls to the event storage (by
other writers and by the reader) and collections: what is known about a reboot is appended to the
events, as bytes that decode to it, and forgotten; if there is no room it stays known and the events stay
as they are; if nothing is known nothing is appended. The memory kept across resets holds garbage at
first. `dev` must be such that its events fit into 65532 bytes, the most the storage format can hold. -/
theorem C67_reboot_events {dev : Device} (hd : Spec.Event.DeviceOk dev)
    (hdev : worstCase dev (some 65536) ≤ 65530) {b : Option Nat} {bufLen : Nat} (h0 : 0 < bufLen)
    (h1 : bufLen < 2 ^ 31) :
    ∃ enc : Option Nat → Info → Bytes,
      (∀ time i, InfoOk i → Spec.Cbor.decode (enc time i) = some (rebootEvent dev time i)) ∧
      ∀ (ram : RebootTracking.Ram) (_ : ram.magic ≠ 0x21544252) (ops : List Op) (outs : List Out)
        (S : Spec.RebootEvent.State),
        Spec.RebootEvent.run b enc ⟨Spec.Reboot.empty, Spec.EventQueue.empty bufLen⟩ ops = some (outs, S) →
        ∃ s0 sys, EventStorage.boot bufLen = some s0 ∧
          run dev b bufLen ⟨⟨ram, RebootTracking.Stat.init⟩, s0, ⟨0, 0⟩⟩ ops = some (outs, sys) := by
  refine ⟨fun t i => Cbor.emitAll (calls dev t i), fun t i hi => decode_calls hd hi t, ?_⟩
  intro ram hram ops outs S hs
  obtain ⟨s0, e0, H0⟩ := boot_holds (b := b) h0 h1
  have hsize : ∀ time i, (Cbor.emitAll (calls dev time i)).length ≤ 65532 := by
    intro time i
    have a := calls_size dev (time := time) (time0 := some 65536) (Or.inr ⟨65536, rfl, by decide⟩)
      (reason0 := 0xffffffff) (i := i) (by
        rw [show (Cbor.emit (SerializerHelper.u32 0xffffffff)).length = 5 by decide]
        exact u32_length_le _)
    have b := calls_reason dev (some 65536) 0x9400 0xffffffff
    rw [show (Cbor.emit (SerializerHelper.u32 0xffffffff)).length = 5 by decide,
      show (Cbor.emit (SerializerHelper.u32 0x9400)).length = 3 by decide] at b
    unfold worstCase at hdev
    rw [computeSize_eq] at hdev
    omega
  obtain ⟨sys, r1, -⟩ := run_rel h0 h1 hsize ops
    (sys := ⟨⟨ram, RebootTracking.Stat.init⟩, s0, ⟨0, 0⟩⟩)
    ⟨RebootTracking.empty_rel hram, H0, rfl⟩ hs
  exact ⟨s0, sys, e0, r1⟩

/-- The device used in examples meets the assumptions. -/
example : Spec.Event.DeviceOk exDev ∧ worstCase exDev (some 65536) ≤ 65530 :=
  ⟨exDev_ok, by decide +kernel⟩

/-- A history: a crash is marked, the device resets, boots and collects twice; the event is read. -/
def exOps : List Op :=
  [.reboot (.boot none), .collect none, .reboot (.mark 0x8001 (some ⟨0x1234, 0⟩)), .reboot .coredumpSaved,
   .reboot .reset, .reboot (.boot (some ⟨4, 7⟩)), .collect (some 77), .collect none, .storage .hasData,
   .storage (.read 0 34), .storage .markRead, .storage .hasData]

/-- What it gives on the model, byte by byte. The first collection reports the first boot, the second one
the crash (reason 0x8001, address 0x1234, register 4, coredump saved), the third one nothing. -/
example : ((EventStorage.boot 100).bind fun s0 =>
    (run exDev none 100 ⟨⟨⟨0, 0, 0, 0, 0, 0, 0, 0⟩, RebootTracking.Stat.init⟩, s0, ⟨0, 0⟩⟩ exOps).map
      (fun r => (r.1.drop 6))) =
    some [.rv 0, .rv 0, .storage (.avail true 34),
      .storage (.data (some [0xa8, 2, 2, 3, 1, 7, 0x61, 0x41, 10, 0x61, 0x42, 9, 0x61, 0x31, 6, 0x61, 0x43,
        1, 0x18, 77, 4, 0xa4, 1, 0x19, 0x80, 0x01, 2, 0x19, 0x12, 0x34, 4, 4, 5, 1])),
      .storage .unit, .storage (.avail false 0)] := by decide +kernel

/-- **C67 (worst case).** The size reported as the largest one of a reboot event is an upper bound for
all 16-bit reasons, which are the only ones defined, and is reached; the time of the event must be left
out or available when the size is computed. -/
theorem C67_worst_case {dev : Device} {time time0 : Option Nat}
    (htime : time = none ∨ ∃ t0, time0 = some t0 ∧ 65536 ≤ t0 % 2 ^ 32) {i : Info}
    (hr : i.reason < 2 ^ 16) : computeSize (encode dev time i) ≤ worstCase dev time0 := by
  unfold worstCase
  rw [computeSize_eq, computeSize_eq]
  refine calls_size dev htime ?_
  rw [show (Cbor.emit (SerializerHelper.u32 0x9400)).length = 3 by decide]
  unfold SerializerHelper.u32
  rw [Metrics.emit_unsigned]
  simp only [BitVec.toNat_ofNat, Metrics.headLen]
  rw [Nat.mod_eq_of_lt (by omega)]
  repeat' split
  all_goals omega

example : computeSize (encode exDev (some 70000) ⟨0x9400, 0x80000000, 0x80000000, 0x80000000, false⟩) =
    worstCase exDev (some 70000) := by decide +kernel

/-- A reason of more than 16 bits (none is defined) can exceed the worst case. -/
example : worstCase exDev none < computeSize (encode exDev none ⟨0x10000, 0xffffffff, 0xffffffff, 0xffffffff, true⟩) := by
  decide +kernel

end Mflt.Props
