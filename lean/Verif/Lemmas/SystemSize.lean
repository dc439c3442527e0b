import Verif.Lemmas.LogFrozen
import Verif.Lemmas.MetricsSize

/-! # How long an upload of the log can be -/

namespace Mflt.Cbor

/-- Data bytes of a call. -/
def load : Call → Nat
  | .byteString b => b.length
  | .string s => s.length
  | .join b => b.length
  | _ => 0

theorem headBytes_le (m : Nat) (v : BitVec 32) : (headBytes m v).length ≤ 5 := by
  unfold headBytes
  simp only
  split
  · simp
  · split
    · simp
    · split <;> simp

theorem emit_le (c : Call) : (emit c).length ≤ 9 + load c := by
  have hc : ∀ s : Bytes, (cstr s).length ≤ s.length := fun s => by
    unfold cstr; exact (List.takeWhile_sublist _).length_le
  have h0 := headBytes_le
  unfold emit
  cases c with
  | unsigned v => have := h0 0 v; simp [pieces, load]; omega
  | signed v => simp [pieces, load]; have := h0 (v.sshiftRight 31 &&& 1#32).toNat (v.sshiftRight 31 ^^^ v); simp at this; omega
  | longSigned v =>
    simp only [pieces, load]
    split
    · have := h0 (v.sshiftRight 63 &&& 1#64).toNat ((v.sshiftRight 63 ^^^ v).setWidth 32)
      simp at this ⊢; omega
    · simp [uint64Bytes]
  | double v => simp [pieces, load, uint64Bytes]
  | byteString b => have := h0 2 (BitVec.ofNat 32 b.length); simp [pieces, load] at *; omega
  | byteStringBegin n => have := h0 2 (BitVec.ofNat 32 n); simp [pieces, load]; omega
  | string s =>
    have := h0 3 (BitVec.ofNat 32 (cstr s).length); have := hc s
    simp [pieces, load] at *; omega
  | stringBegin n => have := h0 3 (BitVec.ofNat 32 n); simp [pieces, load]; omega
  | dictionaryBegin n => have := h0 5 (BitVec.ofNat 32 n); simp [pieces, load]; omega
  | arrayBegin n => have := h0 4 (BitVec.ofNat 32 n); simp [pieces, load]; omega
  | null => simp [pieces, load]
  | join b => simp [pieces, load]

theorem emitAll_le (cs : List Call) : (emitAll cs).length ≤ 9 * cs.length + (cs.map load).sum := by
  induction cs with
  | nil => simp [emitAll]
  | cons c cs ih =>
    have := emit_le c
    simp only [emitAll, List.flatMap_cons, List.length_append, List.map_cons, List.sum_cons, List.length_cons] at ih ⊢
    omega

end Mflt.Cbor

namespace Mflt.Log

open Spec.Log (Line Entry total lineSize)
open Cbor (Call emitAll load emitAll_le)

theorem emitAll_append (a b : List Call) : emitAll (a ++ b) = emitAll a ++ emitAll b := by
  simp [Cbor.emitAll]

theorem entryCalls_le (cfg : Config) (l : Line) (ps : List Bytes) :
    (emitAll (entryCalls cfg l ps)).length ≤ 36 * ps.length + ps.flatten.length := by
  induction ps with
  | nil => simp [entryCalls, Cbor.emitAll]
  | cons p ps ih =>
    simp only [entryCalls]
    split
    · simp [Cbor.emitAll]
    · rw [emitAll_append, List.length_append, List.flatten_cons, List.length_append, List.length_cons]
      have h1 : (emitAll (partCalls cfg l p)).length ≤ 36 + p.length := by
        refine Nat.le_trans (emitAll_le _) ?_
        unfold partCalls
        have hd : ∀ (b : Bool), (if b = true then p.drop 4 else p).length ≤ p.length := by
          intro b; cases b <;> simp
        have := hd (cfg.timestamps && l.timestamp.isSome)
        generalize (if (cfg.timestamps && l.timestamp.isSome) = true then p.drop 4 else p) = t at *
        by_cases h1 : cfg.timestamps <;> by_cases h2 : l.type = 0 <;>
          simp [h1, h2, load, SerializerHelper.u32] <;> omega
      omega

theorem partsOf_le (ro cap off : Nat) (b : Bytes) :
    (partsOf ro cap off b).length ≤ 2 ∧ (partsOf ro cap off b).flatten = b := by
  unfold partsOf
  simp only
  split
  · next h => simp [List.length_eq_zero_iff.1 h]
  · split <;> simp

theorem collect_le (cfg : Config) (ro cap : Nat) : ∀ (es : List Entry) (off n : Nat),
    (emitAll (collect cfg ro cap off n es)).length ≤ 37 * total es := by
  intro es
  induction es with
  | nil => intro off n; cases n <;> simp [collect, Cbor.emitAll]
  | cons e es ih =>
    intro off n
    cases n with
    | zero => simp [collect, Cbor.emitAll]
    | succ n =>
      rw [total_cons]
      unfold collect
      split
      · have := ih (off + lineSize e.line) (n + 1); omega
      · rw [emitAll_append, List.length_append]
        have h1 := ih (off + lineSize e.line) n
        have h2 := entryCalls_le cfg e.line (partsOf ro cap (off + 2) (body e.line))
        obtain ⟨h3, h4⟩ := partsOf_le ro cap (off + 2) (body e.line)
        rw [h4] at h2
        have h5 := lineSize_eq e.line
        omega

/-- The bytes of the device information. -/
def devLoad (dev : SerializerHelper.Device) : Nat :=
  (dev.serial.getD []).length + dev.softwareType.length + dev.softwareVersion.length +
    dev.hardwareVersion.length + (dev.buildId.getD []).length

theorem headCalls_le (cfg : Config) (dev : SerializerHelper.Device) (t : Trigger) :
    (emitAll (headCalls cfg dev t)).length ≤ 200 + devLoad dev := by
  refine Nat.le_trans (emitAll_le _) ?_
  unfold headCalls SerializerHelper.metadataCalls SerializerHelper.versionCalls devLoad
  cases dev.serial <;> cases dev.buildId <;> cases t.time <;>
    simp [load, SerializerHelper.u32] <;> omega

theorem upload_le (cfg : Config) (dev : SerializerHelper.Device) (t : Trigger) (ro cap : Nat) (es : List Entry) :
    (emitAll (uploadCalls cfg dev t ro cap es)).length ≤ 200 + devLoad dev + 37 * total es := by
  unfold uploadCalls
  rw [emitAll_append, List.length_append]
  have := headCalls_le cfg dev t
  have := collect_le cfg ro cap es 0 t.numLogs
  omega

end Mflt.Log
