import Verif.Props.Cbor
import Verif.Spec.Event

/-! # Events decode -/

namespace Mflt.SerializerHelper

open Cbor Spec.Cbor Spec.Event Props

theorem decode_emit (v : CborVal) (hok : v.ok) : decode (emitAll v.calls) = some v.item := by
  have := decodeSeq_emit [v] ((emitAll v.calls).length + 1) [] (by simp [CborVal.okList, hok])
    (by simp [CborVal.callsList])
  simp only [CborVal.callsList, List.append_nil, List.length_singleton, CborVal.items] at this
  unfold decode
  rw [this]

theorem callsList_append (a b : List CborVal) :
    CborVal.callsList (a ++ b) = CborVal.callsList a ++ CborVal.callsList b := by
  induction a with
  | nil => rfl
  | cons x a ih => simp [CborVal.callsList, ih]

theorem items_append (a b : List CborVal) :
    CborVal.items (a ++ b) = CborVal.items a ++ CborVal.items b := by
  induction a with
  | nil => rfl
  | cons x a ih => simp [CborVal.items, ih]

theorem okList_append (a b : List CborVal) :
    CborVal.okList (a ++ b) ↔ CborVal.okList a ∧ CborVal.okList b := by
  induction a with
  | nil => simp [CborVal.okList]
  | cons x a ih => simp [CborVal.okList, ih, and_assoc]

/-- A `uint32_t` value. -/
def val (n : Nat) : CborVal := .u32 (BitVec.ofNat 32 n)

theorem val_item {n : Nat} (h : n < 2 ^ 32) : (val n).item = .uint n := by
  simp [val, CborVal.item, Nat.mod_eq_of_lt h]

/-- The metadata as values. -/
def metadataVals (dev : Device) (type : Nat) (time : Option Nat) : List CborVal :=
  [val 2, val type, val 3, val 1] ++
  (match dev.serial with | some s => [val 7, .text s] | none => []) ++
  [val 10, .text dev.softwareType, val 9, .text dev.softwareVersion, val 6,
    .text dev.hardwareVersion] ++
  (match dev.buildId with | some b => [val 11, .bytes b] | none => []) ++
  (match time with | some t => [val 1, val t] | none => [])

theorem metadataVals_calls (dev : Device) (type : Nat) (time : Option Nat) :
    CborVal.callsList (metadataVals dev type time) = metadataCalls dev type time := by
  unfold metadataVals metadataCalls versionCalls
  cases dev.serial <;> cases dev.buildId <;> cases time <;>
    simp [CborVal.callsList, CborVal.calls, val, u32]

theorem metadataVals_items (dev : Device) {type : Nat} (ht : type < 2 ^ 32) (time : Option Nat) :
    CborVal.items (metadataVals dev type time) = metadata dev type time := by
  unfold metadataVals metadata
  cases dev.serial <;> cases dev.buildId <;> cases time <;>
    simp [CborVal.items, CborVal.item, val] <;> exact ht

theorem metadataVals_ok {dev : Device} (hd : DeviceOk dev) (type : Nat) (time : Option Nat) :
    CborVal.okList (metadataVals dev type time) := by
  unfold metadataVals
  have h1 := hd.serial
  have h2 := hd.buildId
  cases hs : dev.serial <;> cases hb : dev.buildId <;> cases time <;>
    simp_all [CborVal.okList, CborVal.ok, val, hd.softwareType, hd.softwareVersion, hd.hardwareVersion]

theorem metadataVals_length (dev : Device) (type : Nat) (time : Option Nat) :
    (metadataVals dev type time).length + 2 = 2 * topLevelPairs dev time := by
  unfold metadataVals topLevelPairs
  cases dev.serial <;> cases dev.buildId <;> cases time <;> simp

/-- The calls of an event with some information. -/
def eventCalls (dev : Device) (type : Nat) (time : Option Nat) (info : List Call) : List Call :=
  .dictionaryBegin (topLevelPairs dev time) :: metadataCalls dev type time ++ (u32 4 :: info)

theorem decode_event {dev : Device} (hd : DeviceOk dev) {type : Nat} (ht : type < 2 ^ 32)
    (time : Option Nat) (info : CborVal) (hi : info.ok) :
    decode (emitAll (eventCalls dev type time info.calls)) = some (event dev type time info.item) := by
  have hc : eventCalls dev type time info.calls =
      (CborVal.map (metadataVals dev type time ++ [val 4, info])).calls := by
    have hl := metadataVals_length dev type time
    rw [CborVal.calls, List.length_append, callsList_append, metadataVals_calls]
    simp only [List.length_cons, List.length_nil, Nat.zero_add, Nat.reduceAdd, hl]
    rw [Nat.mul_div_cancel_left _ (by decide)]
    simp [eventCalls, CborVal.callsList, CborVal.calls, val, u32]
  have hsmall : topLevelPairs dev time ≤ 9 := by
    unfold topLevelPairs; split <;> split <;> split <;> omega
  rw [hc, decode_emit]
  · simp only [CborVal.item, items_append, metadataVals_items dev ht, event]
    simp [CborVal.items, val_item]
  · have hl := metadataVals_length dev type time
    rw [CborVal.ok, okList_append]
    simp only [List.length_append, List.length_cons, List.length_nil, hl, Nat.zero_add, Nat.reduceAdd]
    refine ⟨by omega, by omega, metadataVals_ok hd _ _, ?_⟩
    simp [CborVal.okList, hi, val, CborVal.ok]

theorem callAll_append {σ : Type} (e : Encoder σ) (a b : List Call) :
    callAll e (a ++ b) = andThen (fun e => callAll e a) (fun e => callAll e b) e := by
  unfold andThen
  induction a generalizing e with
  | nil => rfl
  | cons c a ih =>
    simp only [List.cons_append, callAll]
    generalize call e c = r
    obtain ⟨ok, e'⟩ := r
    cases ok with
    | true => exact ih e'
    | false => rfl

/-- An encoder that has no room for the head of a small item. -/
theorem encodeHead_fail {σ : Type} (e : Encoder σ) (m n : Nat) (h : n < 24)
    (hf : (encodeHead e m (BitVec.ofNat 32 n)).1 = false) :
    (encodeHead e m (BitVec.ofNat 32 n)).2 = e ∧
      ∀ m' n', n' < 24 → encodeHead e m' (BitVec.ofNat 32 n') = (false, e) := by
  have hb : ∀ m n, n < 24 → (headBytes m (BitVec.ofNat 32 n)).length = 1 := by
    intro m n h
    have : (BitVec.ofNat 32 n).toNat = n := by simp; omega
    unfold headBytes
    rw [this]
    simp [h]
  have hp := hb m n h
  unfold encodeHead addToResult at *
  rw [if_neg (by omega), hp] at hf ⊢
  cases hc : e.writeCb with
  | none => simp [hc] at hf
  | some cb =>
    rw [hc] at hf
    dsimp only at hf ⊢
    by_cases hr : e.encodedSize + 1 > e.bufLen
    · refine ⟨by rw [if_pos hr], fun m' n' h' => ?_⟩
      rw [if_neg (by have := hb m' n' h'; omega), hb m' n' h', if_pos hr]
    · simp [hr] at hf

/-- Metadata and information are one list of calls. -/
theorem encodeEvent_eq {σ : Type} (dev : Device) (type : Nat) (time : Option Nat) (info : List Call)
    (e : Encoder σ) :
    andThen (encodeMetadata dev type time) (fun e => callAll e (u32 4 :: info)) e =
      callAll e (eventCalls dev type time info) := by
  have hsmall : topLevelPairs dev time < 24 := by
    unfold topLevelPairs; split <;> split <;> split <;> omega
  unfold eventCalls
  rw [callAll_append]
  unfold andThen encodeMetadata
  have hcons : callAll e (.dictionaryBegin (topLevelPairs dev time) :: metadataCalls dev type time) =
      callAll (encodeDictionaryBegin e (topLevelPairs dev time)).2 (metadataCalls dev type time) := by
    rw [callAll]
    have hd : call e (.dictionaryBegin (topLevelPairs dev time)) =
      encodeHead e 5 (BitVec.ofNat 32 (topLevelPairs dev time)) := rfl
    rw [hd]
    have hd' : encodeDictionaryBegin e (topLevelPairs dev time) =
      encodeHead e 5 (BitVec.ofNat 32 (topLevelPairs dev time)) := rfl
    rw [hd']
    cases hr : encodeHead e 5 (BitVec.ofNat 32 (topLevelPairs dev time)) with
    | mk ok e' =>
      cases ok with
      | true => rfl
      | false =>
        obtain ⟨h1, h2⟩ := encodeHead_fail e 5 _ hsmall (by rw [hr])
        rw [hr] at h1
        simp only at h1
        subst h1
        have : callAll e' (metadataCalls dev type time) = (false, e') := by
          unfold metadataCalls
          simp only [List.cons_append, callAll]
          have : call e' (u32 2) = encodeHead e' 0 (BitVec.ofNat 32 2) := rfl
          rw [this, h2 0 2 (by decide)]
        simp [this]
  dsimp only
  rw [hcons]

end Mflt.SerializerHelper
