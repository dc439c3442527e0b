import Verif.Lemmas.Event
import Verif.Lemmas.Mem
import Verif.Model.Cdr
import Verif.Spec.Cdr

/-! # Custom data recordings: lemmas -/

namespace Mflt.Cdr

open Cbor Spec.Cbor Props SerializerHelper

/-- The information of a recording as one list of calls. -/
def headCalls (dev : Device) (m : Metadata) : List Call :=
  eventCalls dev 5 m.time (.dictionaryBegin 4 :: infoCalls m)

theorem encodeCdr_eq {σ : Type} (dev : Device) (m : Metadata) (e : Encoder σ) :
    encodeCdr dev m e = callAll e (headCalls dev m) := by
  unfold headCalls
  rw [← encodeEvent_eq]
  unfold encodeCdr
  congr 1
  funext e
  rw [callAll]
  unfold andThen
  dsimp only
  cases call e (u32 4) with
  | mk ok e' =>
    cases ok with
    | false => rfl
    | true =>
      dsimp only
      rw [callAll]
      have hd : call e' (.dictionaryBegin 4) = encodeHead e' 5 (BitVec.ofNat 32 4) := rfl
      have hd' : encodeDictionaryBegin e' 4 = encodeHead e' 5 (BitVec.ofNat 32 4) := rfl
      rw [hd, hd']
      cases hr : encodeHead e' 5 (BitVec.ofNat 32 4) with
      | mk ok e2 =>
        cases ok with
        | true => rfl
        | false =>
          obtain ⟨h1, h2⟩ := encodeHead_fail e' 5 4 (by decide) (by rw [hr])
          rw [hr] at h1
          simp only at h1
          subst h1
          have h3 : call e2 (u32 1) = encodeHead e2 0 (BitVec.ofNat 32 1) := rfl
          unfold infoCalls
          simp only [List.cons_append, callAll]
          rw [h3, h2 0 1 (by decide)]

/-- The bytes in front of the data. -/
def head (dev : Device) (r : Recording) : Bytes := emitAll (headCalls dev r.metadata)

/-- The information as a value. -/
def infoVal (r : Recording) : CborVal :=
  .map [val 1, val r.duration, val 2, .array (r.mimetypes.map .text), val 3, .text r.reason, val 4,
    .byteParts [r.data]]

theorem callsList_texts (l : List Bytes) : CborVal.callsList (l.map .text) = l.map .string := by
  induction l with
  | nil => rfl
  | cons a l ih => simp [CborVal.callsList, CborVal.calls, ih]

theorem items_texts (l : List Bytes) : CborVal.items (l.map .text) = l.map .text := by
  induction l with
  | nil => rfl
  | cons a l ih => simp [CborVal.items, CborVal.item, ih]

theorem okList_texts (l : List Bytes) (h : ∀ t ∈ l, t.length < 2 ^ 32 ∧ 0 ∉ t) :
    CborVal.okList (l.map .text) := by
  induction l with
  | nil => simp [CborVal.okList]
  | cons a l ih =>
    rw [List.map_cons, CborVal.okList, CborVal.ok]
    exact ⟨h a (by simp), ih fun t ht => h t (by simp [ht])⟩

theorem infoVal_calls (r : Recording) :
    (infoVal r).calls = .dictionaryBegin 4 :: infoCalls r.metadata ++ [.join r.data] := by
  simp [infoVal, CborVal.calls, CborVal.callsList, callsList_texts, infoCalls, Recording.metadata,
    val, u32]

theorem head_data (dev : Device) (r : Recording) :
    head dev r ++ r.data = emitAll (eventCalls dev 5 r.time (infoVal r).calls) := by
  rw [infoVal_calls]
  have h : eventCalls dev 5 r.time (.dictionaryBegin 4 :: infoCalls r.metadata ++ [.join r.data]) =
      headCalls dev r.metadata ++ [.join r.data] := by
    simp [headCalls, eventCalls, Recording.metadata]
  rw [h, emitAll_append]
  have h2 : emitAll [Call.join r.data] = r.data := by
    have := emitAll_joins [r.data]
    simpa using this
  rw [h2]; rfl

theorem decode_head {dev : Device} (hd : Spec.Event.DeviceOk dev) {L : Nat} {r : Recording}
    (hr : Spec.Cdr.Ok L r) :
    decode (head dev r ++ r.data) = some (Spec.Cdr.event dev r) := by
  rw [head_data, decode_event hd (by decide)]
  · unfold infoVal Spec.Cdr.event
    simp only [CborVal.item, CborVal.items, items_texts, val_item hr.duration,
      val_item (show 1 < 2 ^ 32 by decide), val_item (show 2 < 2 ^ 32 by decide),
      val_item (show 3 < 2 ^ 32 by decide), val_item (show 4 < 2 ^ 32 by decide), List.flatten_cons,
      List.flatten_nil, List.append_nil]
  · have := hr.data
    unfold infoVal
    simp only [CborVal.ok, CborVal.okList, val, List.flatten_cons, List.flatten_nil, List.append_nil,
      List.length_map, List.length_cons, List.length_nil, and_true, true_and]
    refine ⟨by decide, ?_⟩
    exact ⟨⟨hr.count, okList_texts _ hr.mimetypes⟩, hr.reason, by omega⟩

/-- Encoding into the metadata buffer. -/
theorem encode_buf (dev : Device) (m : Metadata) (buf : Bytes) (L : Nat) (hb : buf.length = L) :
    ∃ out : Bytes, out.length ≤ L ∧
      encodeCdr dev m (Encoder.init memcpyWrite (some buf) L) =
        (decide ((emitAll (headCalls dev m)).length ≤ L),
          { Encoder.init memcpyWrite (some (out ++ buf.drop out.length)) L with
            encodedSize := out.length }) ∧
      ((emitAll (headCalls dev m)).length ≤ L → out = emitAll (headCalls dev m)) := by
  have hne : ∀ p ∈ (headCalls dev m).flatMap pieces, p ≠ [] := by
    intro p hp
    obtain ⟨c, -, hc⟩ := List.mem_flatMap.mp hp
    exact pieces_ne_nil hc
  obtain ⟨ws, h1, h2, h3, h4, h5⟩ := addAll_bounded (Encoder.init memcpyWrite (some buf) L)
    memcpyWrite rfl (by simp [Encoder.init]) ((headCalls dev m).flatMap pieces) hne
  simp only [Encoder.init, Nat.zero_add] at h2 h3 h4 h5
  rw [← emitAll_eq] at h4
  refine ⟨ws.flatten, h3, ?_, ?_⟩
  · rw [encodeCdr_eq, callAll_eq_addAll]
    refine Prod.ext ?_ ?_
    · simp only [Encoder.init]
      rw [Bool.eq_iff_iff, h4, decide_eq_true_iff]
    · simp only [Encoder.init]
      rw [h2, feedWrites_memcpy _ _ _ (by omega)]
      simp
  · intro h
    rw [h5 (h4.mpr h), ← emitAll_eq]

/-- One step of the module, as observed. `none` is undefined behaviour. -/
def step (c : Config) (s : State) : Spec.Cdr.Op → Option (Spec.Cdr.Out × State)
  | .register i => some (.registered (register c s i).1, (register c s i).2)
  | .record i r => some (.done, push s i r)
  | .has => (has c s).map fun p => (.size p.1, p.2)
  | .read off len => (read s off len).map fun b => (.bytes b, s)
  | .mark => some (.done, mark c s)
  | .reset => some (.done, reset c s)

/-- What is announced for the recording being delivered. -/
structure Announced (c : Config) (s : State) (r : Recording) : Prop where
  fits : (head c.dev r).length ≤ c.maxMetadata
  len : s.encLen = (head c.dev r).length
  total : s.total = (head c.dev r ++ r.data).length
  buf : s.buf.take s.encLen = head c.dev r

/-- The module's state stands for a specification state. -/
structure Rel (c : Config) (s : State) (t : Spec.Cdr.State) : Prop where
  regs : s.regs = t.sources
  queues : s.queues = t.waiting
  active : s.active = t.current
  buf : s.buf.length = c.maxMetadata
  small : ∀ i, ∀ r ∈ s.queues i, Spec.Cdr.Ok c.maxMetadata r
  idle : s.active = none → s.total = 0 ∧ s.encLen = 0
  busy : ∀ i, s.active = some i → ∃ r q, s.queues i = r :: q ∧ s.metadata = r.metadata ∧
    ((s.total = 0 ∧ s.encLen = 0 ∧ c.maxMetadata < (head c.dev r).length) ∨ Announced c s r)

theorem firstWithData_eq (q : Nat → List Recording) (l : List Nat) :
    (∃ i r rs, q i = r :: rs ∧ firstWithData q l = some (i, r.metadata) ∧
      l.find? (fun i => !(q i).isEmpty) = some i) ∨
    (firstWithData q l = none ∧ l.find? (fun i => !(q i).isEmpty) = none) := by
  induction l with
  | nil => right; simp [firstWithData]
  | cons i l ih =>
    cases hq : q i with
    | nil =>
      have h1 : firstWithData q (i :: l) = firstWithData q l := by
        rw [firstWithData, hq]
      have h2 : (i :: l).find? (fun i => !(q i).isEmpty) = l.find? (fun i => !(q i).isEmpty) := by
        rw [List.find?_cons]; simp [hq]
      rw [h1, h2]; exact ih
    | cons r rs =>
      left
      refine ⟨i, r, rs, hq, ?_, ?_⟩
      · rw [firstWithData, hq]
      · rw [List.find?_cons]; simp [hq]

/-- Choosing a source agrees with the specification. -/
theorem tryGet_rel {c : Config} {s : State} {t : Spec.Cdr.State} (h : Rel c s t) :
    (tryGet s).regs = t.choose.sources ∧ (tryGet s).queues = t.choose.waiting ∧
    (tryGet s).active = t.choose.current ∧ (tryGet s).buf = s.buf ∧
    (tryGet s).queues = s.queues ∧
    ((tryGet s).active = none → (tryGet s).total = 0 ∧ (tryGet s).encLen = 0) ∧
    (∀ i, (tryGet s).active = some i → ∃ r q, s.queues i = r :: q ∧
      (tryGet s).metadata = r.metadata ∧
      (((tryGet s).total = 0 ∧ (tryGet s).encLen = 0) ∨ Announced c (tryGet s) r)) := by
  unfold tryGet Spec.Cdr.State.choose
  rw [← h.active]
  cases ha : s.active with
  | some i =>
    refine ⟨h.regs, h.queues, by rw [← h.active, ha], rfl, rfl, by simp [ha], ?_⟩
    intro j hj
    obtain ⟨r, q, h1, h2, h3⟩ := h.busy j hj
    refine ⟨r, q, h1, h2, ?_⟩
    rcases h3 with h3 | h3
    · exact Or.inl ⟨h3.1, h3.2.1⟩
    · exact Or.inr h3
  | none =>
    have hid := h.idle ha
    dsimp only
    rw [← h.queues, ← h.regs]
    rcases firstWithData_eq s.queues s.regs with ⟨i, r, rs, h1, h2, h3⟩ | ⟨h2, h3⟩
    · rw [h2, h3]
      refine ⟨rfl, rfl, rfl, rfl, rfl, by simp, ?_⟩
      intro j hj
      obtain rfl : i = j := by simpa using hj
      exact ⟨r, rs, h1, rfl, Or.inl hid⟩
    · rw [h2, h3]
      refine ⟨rfl, rfl, ha, rfl, rfl, fun _ => hid, ?_⟩
      intro j hj
      simp [ha] at hj

theorem has_rel {c : Config} {s : State} {t : Spec.Cdr.State} (h : Rel c s t) :
    ∃ s', step c s .has =
      some ((Spec.Cdr.step c.maxSources c.maxMetadata (head c.dev) t .has).1, s') ∧
      Rel c s' (Spec.Cdr.step c.maxSources c.maxMetadata (head c.dev) t .has).2 := by
  obtain ⟨h1, h2, h3, h4, h5, h6, h7⟩ := tryGet_rel h
  have hsm : ∀ i, ∀ r ∈ (tryGet s).queues i, Spec.Cdr.Ok c.maxMetadata r := by
    rw [h5]; exact h.small
  simp only [step, has, Spec.Cdr.step]
  cases ha : (tryGet s).active with
  | none =>
    refine ⟨tryGet s, ?_, ⟨h1, h2, h3, by rw [h4]; exact h.buf, hsm, h6, by simp [ha]⟩⟩
    dsimp only
    rw [ha] at h3
    simp [Spec.Cdr.State.recording, ← h3]
  | some i =>
    dsimp only
    obtain ⟨r, q, hq, hm, hr⟩ := h7 i ha
    have hrec : t.choose.recording = some r := by
      rw [ha] at h3
      simp only [Spec.Cdr.State.recording, ← h3, ← h2, h5, hq, List.head?_cons]
    have hok := h.small i r (by rw [hq]; simp)
    obtain ⟨out, ho1, ho2, ho3⟩ := encode_buf c.dev (tryGet s).metadata (tryGet s).buf c.maxMetadata
      (by rw [h4]; exact h.buf)
    rw [ho2, hrec]
    have hh : emitAll (headCalls c.dev (tryGet s).metadata) = head c.dev r := by rw [hm]; rfl
    rw [hh] at ho3 ⊢
    have hlen : (out ++ (tryGet s).buf.drop out.length).length = c.maxMetadata := by
      rw [List.length_append, List.length_drop, h4, h.buf]; omega
    by_cases hf : (head c.dev r).length ≤ c.maxMetadata
    · obtain rfl := ho3 hf
      have hs : (tryGet s).metadata.size = r.data.length := by rw [hm]; rfl
      have ht : add32 (head c.dev r).length r.data.length = (head c.dev r ++ r.data).length := by
        rw [List.length_append]; exact add32_eq (by have := hok.data; omega)
      simp only [Encoder.init, hf, decide_true, if_true, hs, ht, Option.map_some]
      refine ⟨_, rfl, ⟨h1, h2, by rw [← h3, ha], hlen, hsm, by simp, ?_⟩⟩
      intro j hj
      obtain rfl : i = j := by simpa [ha] using hj
      refine ⟨r, q, by rw [← hq]; exact congrFun h5 i, hm, Or.inr ⟨hf, rfl, rfl, ?_⟩⟩
      simp
    · simp only [Encoder.init, hf, decide_false, if_false, Option.map_some, Bool.false_eq_true]
      refine ⟨_, rfl, ⟨h1, h2, by rw [← h3, ha], hlen, hsm, by simp [ha], ?_⟩⟩
      intro j hj
      obtain rfl : i = j := by simpa [ha] using hj
      refine ⟨r, q, by rw [← hq]; exact congrFun h5 i, hm, Or.inl ?_⟩
      rcases hr with hr | hr
      · exact ⟨hr.1, hr.2, by omega⟩
      · exact absurd hr.fits hf

/-- Reading a window of two concatenated pieces. -/
theorem window_append {a b : Bytes} {off len : Nat} (h : off < a.length) :
    ((a ++ b).drop off).take len =
      (a.drop off).take (min len (a.length - off)) ++ b.take (len - min len (a.length - off)) := by
  rw [List.drop_append_of_le_length (by omega), List.take_append, List.length_drop]
  congr 1
  · rcases Nat.le_total len (a.length - off) with h1 | h1
    · rw [Nat.min_eq_left h1]
    · rw [Nat.min_eq_right h1, List.take_of_length_le (by simpa using h1),
        List.take_of_length_le (by simp)]
  · congr 1; omega

theorem read_rel {c : Config} {s : State} {t : Spec.Cdr.State} (h : Rel c s t) (off len : Nat)
    (hop : (Spec.Cdr.Op.read off len).Ok c.maxMetadata) :
    read s off len = some (match t.recording with
      | none => none
      | some r =>
        if (head c.dev r).length ≤ c.maxMetadata ∧ off + len ≤ (head c.dev r ++ r.data).length then
          some (((head c.dev r ++ r.data).drop off).take len)
        else none) := by
  obtain ⟨hl, hl2, ho⟩ := hop
  unfold read Spec.Cdr.State.recording
  rw [← h.active, ← h.queues]
  cases ha : s.active with
  | none => rfl
  | some i =>
    obtain ⟨r, q, hq, hm, hr⟩ := h.busy i ha
    have hok := (h.small i r (by rw [hq]; simp)).data
    dsimp only
    rw [hq, List.head?_cons]
    dsimp only
    rcases hr with ⟨ht, he, hbig⟩ | han
    · rw [ht, he, if_neg (show ¬ (_ ∧ _) by omega)]
      by_cases hw : add32 off len > 0
      · rw [if_pos hw]
      · rw [if_neg hw, if_neg (by omega)]
        have : ¬ (off - 0 + len ≤ r.data.length) := by
          intro h1
          apply hw
          rw [add32_eq (by omega)]; omega
        simp only [readData, this, if_false]
    · have hfit := han.fits
      rw [han.total, han.len, List.length_append]
      by_cases hin : off + len ≤ (head c.dev r).length + r.data.length
      · have hs : add32 off len = off + len := add32_eq (by omega)
        rw [hs, if_neg (show ¬ (off + len > (head c.dev r).length + r.data.length) by omega)]
        rw [if_pos (show (head c.dev r).length ≤ c.maxMetadata ∧
          off + len ≤ (head c.dev r).length + r.data.length from ⟨hfit, hin⟩)]
        by_cases hoff : off < (head c.dev r).length
        · rw [if_pos hoff, memcpyOut_some (by rw [h.buf]; omega), window_append hoff]
          have hb : (s.buf.drop off).take (min len ((head c.dev r).length - off)) =
              ((head c.dev r).drop off).take (min len ((head c.dev r).length - off)) := by
            rw [← han.buf, han.len, List.drop_take, List.take_take]
            congr 1; simp; omega
          rw [hb]
          dsimp only
          by_cases hz : len - min len ((head c.dev r).length - off) = 0
          · rw [if_pos hz, hz]; simp
          · rw [if_neg hz]
            have : 0 + (len - min len ((head c.dev r).length - off)) ≤ r.data.length := by omega
            simp only [readData, this, if_true, List.drop_zero, Option.map_some]
        · rw [if_neg hoff]
          have : off - (head c.dev r).length + len ≤ r.data.length := by omega
          simp only [readData, this, if_true]
          rw [List.drop_append, List.drop_eq_nil_of_le (show (head c.dev r).length ≤ off by omega),
            List.nil_append]
      · rw [if_neg (show ¬ (_ ∧ _) by omega)]
        by_cases hw : add32 off len > (head c.dev r).length + r.data.length
        · rw [if_pos hw]
        · rw [if_neg hw]
          have hge : 4294967296 ≤ off + len := by
            apply Classical.byContradiction
            intro h1
            rw [add32_eq (by omega)] at hw
            omega
          rw [if_neg (by omega)]
          have : ¬ (off - (head c.dev r).length + len ≤ r.data.length) := by omega
          simp only [readData, this, if_false]

theorem idle_rel {c : Config} {s : State} {t : Spec.Cdr.State} (hr : s.regs = t.sources)
    (hq : s.queues = t.waiting) (ha : s.active = none) (ht : t.current = none)
    (hb : s.buf.length = c.maxMetadata) (hs : ∀ i, ∀ r ∈ s.queues i, Spec.Cdr.Ok c.maxMetadata r)
    (hz : s.total = 0 ∧ s.encLen = 0) : Rel c s t :=
  ⟨hr, hq, by rw [ha, ht], hb, hs, fun _ => hz, by simp [ha]⟩

theorem step_rel {c : Config} {s : State} {t : Spec.Cdr.State} (h : Rel c s t) (op : Spec.Cdr.Op)
    (hop : op.Ok c.maxMetadata) :
    ∃ s', step c s op =
      some ((Spec.Cdr.step c.maxSources c.maxMetadata (head c.dev) t op).1, s') ∧
      Rel c s' (Spec.Cdr.step c.maxSources c.maxMetadata (head c.dev) t op).2 := by
  cases op with
  | has => exact has_rel h
  | read off len =>
    refine ⟨s, ?_, h⟩
    simp only [step, read_rel h off len hop, Option.map_some, Spec.Cdr.step]
    cases t.recording <;> rfl
  | register i =>
    simp only [step, register, Spec.Cdr.step]
    rw [← h.regs]
    by_cases hf : s.regs.length < c.maxSources
    · rw [if_pos hf, if_pos hf]
      exact ⟨_, rfl, rfl, h.queues, h.active, h.buf, h.small, h.idle, fun j hj => by
        obtain ⟨r, q, h1, h2, h3⟩ := h.busy j hj
        refine ⟨r, q, h1, h2, ?_⟩
        rcases h3 with h3 | h3
        · exact Or.inl h3
        · exact Or.inr ⟨h3.fits, h3.len, h3.total, h3.buf⟩⟩
    · rw [if_neg hf, if_neg hf]
      exact ⟨_, rfl, h⟩
  | record i r =>
    refine ⟨_, rfl, ⟨h.regs, ?_, h.active, h.buf, ?_, h.idle, ?_⟩⟩
    · funext j
      simp only [push, setQueue, Spec.Cdr.step, h.queues]
    · intro j r' hr'
      simp only [push, setQueue] at hr'
      split at hr'
      · rcases List.mem_append.mp hr' with h1 | h1
        · exact h.small i r' h1
        · rw [List.mem_singleton] at h1
          subst h1; exact hop
      · exact h.small j r' hr'
    · intro j hj
      obtain ⟨r', q, h1, h2, h3⟩ := h.busy j hj
      by_cases hji : j = i
      · refine ⟨r', q ++ [r], ?_, h2, ?_⟩
        · simp only [push, setQueue, hji, if_true]
          rw [← hji, h1]; rfl
        · rcases h3 with h3 | h3
          · exact Or.inl h3
          · exact Or.inr ⟨h3.fits, h3.len, h3.total, h3.buf⟩
      · refine ⟨r', q, ?_, h2, ?_⟩
        · simp only [push, setQueue, hji, if_false]
          exact h1
        · rcases h3 with h3 | h3
          · exact Or.inl h3
          · exact Or.inr ⟨h3.fits, h3.len, h3.total, h3.buf⟩
  | mark =>
    simp only [step, mark, Spec.Cdr.step]
    rw [← h.active]
    cases ha : s.active with
    | none => exact ⟨s, rfl, h⟩
    | some i =>
      refine ⟨_, rfl, idle_rel h.regs ?_ rfl rfl (by simp) ?_ ⟨rfl, rfl⟩⟩
      · funext j
        simp only [setQueue, h.queues]
      · intro j r' hr'
        simp only [setQueue] at hr'
        split at hr'
        · exact h.small i r' (List.mem_of_mem_tail hr')
        · exact h.small j r' hr'
  | reset =>
    exact ⟨_, rfl, idle_rel rfl h.queues rfl rfl (by simp [reset]) h.small ⟨rfl, rfl⟩⟩

end Mflt.Cdr
