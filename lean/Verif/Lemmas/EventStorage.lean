import Verif.Model.EventStorage
import Verif.Spec.EventQueue
import Verif.Lemmas.CircBuf
import Verif.Lemmas.Mem
import Verif.Lemmas.Cbor

namespace Mflt.EventStorage

open Spec.EventQueue (moreEvents batchCount arrayHead messageOf message used)

/-- The bytes a finished event takes in the ring buffer. -/
def enc (e : Bytes) : Bytes := le16 (e.length + 2) ++ e

/-- The bytes of the event being written. -/
def encPending : Option Bytes → Bytes
  | none => []
  | some p => le16 writeInProgressMark ++ p

def encAll (es : List Bytes) : Bytes := (es.map enc).flatten

def Ok (e : Bytes) : Prop := 1 ≤ e.length ∧ e.length ≤ 65532

@[simp] theorem length_enc (e : Bytes) : (enc e).length = e.length + 2 := by
  simp [enc, length_le16]; omega

@[simp] theorem encAll_nil : encAll [] = [] := rfl
@[simp] theorem encAll_cons (e : Bytes) (es : List Bytes) : encAll (e :: es) = enc e ++ encAll es := by
  simp [encAll]

theorem encAll_append (a b : List Bytes) : encAll (a ++ b) = encAll a ++ encAll b := by
  simp [encAll]

theorem length_encAll (es : List Bytes) :
    (encAll es).length = (es.map fun e => e.length + 2).sum := by
  induction es with
  | nil => rfl
  | cons e es ih => simp [ih]

theorem length_encAll' (es : List Bytes) :
    (encAll es).length = es.flatten.length + 2 * es.length := by
  induction es with
  | nil => rfl
  | cons e es ih => simp [ih]; omega

theorem length_encPending (p : Option Bytes) :
    (encPending p).length = match p with | none => 0 | some p => p.length + 2 := by
  cases p <;> simp [encPending, length_le16]; omega

/-- A header in the middle of the ring. -/
theorem read_hdr {cb : CircBuf} (h : cb.Inv) {pre hdr rest : Bytes} (hh : hdr.length = 2)
    (hc : cb.contents = pre ++ (hdr ++ rest)) : cb.read pre.length 2 = some (some hdr) := by
  rw [CircBuf.read_eq h, hc, if_pos (by simp [hh])]
  simp [List.take_append_of_le_length, hh, List.take_of_length_le]

theorem read_mid {cb : CircBuf} (h : cb.Inv) {pre e rest : Bytes} {s n : Nat}
    (hc : cb.contents = pre ++ (e ++ rest)) (hs : s + n ≤ e.length) :
    cb.read (pre.length + s) n = some (some ((e.drop s).take n)) := by
  rw [CircBuf.read_eq h, hc, if_pos (by simp; omega)]
  congr 2
  rw [List.drop_append, List.drop_of_length_le (by omega),
    show pre.length + s - pre.length = s by omega, List.nil_append,
    List.drop_append_of_le_length (by omega), List.take_append_of_le_length (by simp; omega)]

theorem read_end {cb : CircBuf} (h : cb.Inv) (n : Nat) (hn : 0 < n) :
    cb.read cb.contents.length n = some none := by
  rw [CircBuf.read_eq h, if_neg (by omega)]

/-- The batch header. -/
theorem headBytes_array {n : Nat} (h : n < 2 ^ 32) :
    Cbor.headBytes 4 (BitVec.ofNat 32 n) = arrayHead n := by
  unfold Cbor.headBytes arrayHead
  rw [show (BitVec.ofNat 32 n).toNat = n by simp [BitVec.toNat_ofNat, Nat.mod_eq_of_lt h]]
  have hm : Cbor.majorBits 4 = 128 := by decide
  rw [hm]
  have key : ∀ k, UInt8.ofNat ((n >>> k) &&& 0xff) = UInt8.ofNat (n / 2 ^ k) := by
    intro k
    rw [Nat.shiftRight_eq_div_pow, show (0xff : Nat) = 2 ^ 8 - 1 from rfl,
      Nat.and_two_pow_sub_one_eq_mod]
    apply UInt8.toNat_inj.mp
    simp [UInt8.toNat_ofNat']
  have k0 : UInt8.ofNat (n &&& 0xff) = UInt8.ofNat n := by
    have := key 0; simpa using this
  have k8 := key 8
  have k16 := key 16
  have k24 := key 24
  simp only [Nat.reducePow] at k8 k16 k24
  dsimp only
  rw [k0, k8, k16, k24]
  by_cases h1 : n < 24
  · simp [h1]
  by_cases h2 : n < 256
  · simp [h1, h2, show n ≤ 255 by omega]
  by_cases h3 : n < 65536
  · simp [h1, h2, h3, show ¬ n ≤ 255 by omega, show n ≤ 65535 by omega]
  · simp [h1, h2, h3, show ¬ n ≤ 255 by omega, show ¬ n ≤ 65535 by omega]

theorem length_arrayHead (n : Nat) : 1 ≤ (arrayHead n).length ∧ (arrayHead n).length ≤ 5 := by
  unfold arrayHead; split <;> (try split) <;> (try split) <;> simp

/-- The header of a batch of `n` events. -/
def hdrOf (n : Nat) : Bytes := if n ≤ 1 then [] else arrayHead n

theorem length_hdrOf (n : Nat) : (hdrOf n).length ≤ 5 := by
  unfold hdrOf; split <;> simp [length_arrayHead]

theorem buildHeader_eq {n : Nat} (h : n < 2 ^ 32) : buildHeader n = some (hdrOf n) := by
  unfold buildHeader hdrOf
  by_cases h1 : n ≤ 1
  · simp [h1]
  · simp only [h1, if_false, Cbor.encodeArrayBegin, Cbor.encodeHead]
    rw [headBytes_array h]
    have hl := length_arrayHead n
    unfold Cbor.addToResult Cbor.Encoder.init
    simp only [Nat.zero_add, show (arrayHead n).length ≠ 0 by omega, if_false,
      show ¬ (arrayHead n).length > 5 by omega, Cbor.memcpyWrite, Option.bind_some]
    rw [memcpyIn_zero (by simp; omega)]
    simp

theorem messageOf_eq (es : List Bytes) : messageOf es = hdrOf es.length ++ es.flatten := rfl

/-- The scan over finished events. `k` of them have been passed; `pre` is their image. -/
theorem computeLoop_eq {cb : CircBuf} (h : cb.Inv) {cap : Nat} (hcap : cap < 2 ^ 31)
    (hlen : cb.contents.length ≤ cap) (p : Option Bytes) (max : Nat) :
    ∀ (es ds : List Bytes) (fuel : Nat),
      cb.contents = encAll ds ++ (encAll es ++ encPending p) → 1 ≤ ds.length →
      (∀ e ∈ es, Ok e) → es.length < fuel →
      computeLoop ⟨some max⟩ cb fuel ⟨(encAll ds).length, ds.length, []⟩ =
        some ⟨(encAll (ds ++ es.take (moreEvents max ds.flatten.length es))).length,
          ds.length + moreEvents max ds.flatten.length es, []⟩ := by
  intro es
  induction es with
  | nil =>
    intro ds fuel hc _ _ hf
    obtain ⟨fuel, rfl⟩ : ∃ f, fuel = f + 1 := ⟨fuel - 1, by simp at hf; omega⟩
    unfold computeLoop
    simp only [moreEvents]
    cases p with
    | none =>
      have : (encAll ds).length = cb.contents.length := by rw [hc]; simp [encPending]
      rw [this, read_end h 2 (by omega)]; simp [this]
    | some p =>
      rw [read_hdr h (length_le16 writeInProgressMark)
        (show cb.contents = encAll ds ++ (le16 writeInProgressMark ++ p) by
          rw [hc]; simp [encPending])]
      simp [ofLe16_le16 (show writeInProgressMark < 65536 by decide)]
  | cons e es ih =>
    intro ds fuel hc hd hok hf
    obtain ⟨fuel, rfl⟩ : ∃ f, fuel = f + 1 := ⟨fuel - 1, by simp at hf; omega⟩
    have hoe : Ok e := hok e (by simp)
    have h1 := hoe.1
    have h2 := hoe.2
    unfold computeLoop
    rw [read_hdr h (length_le16 (e.length + 2))
        (show cb.contents = encAll ds ++ (le16 (e.length + 2) ++ (e ++ encAll es ++ encPending p)) by
          rw [hc]; simp [enc])]
    simp only [ofLe16_le16 (show e.length + 2 < 65536 by omega)]
    rw [if_neg (by unfold writeInProgressMark; omega)]
    have hl1 := length_encAll' ds
    have hl2 : (encAll ds).length + (e.length + 2) ≤ cb.contents.length := by
      rw [hc]; simp
    have htot : totalEventSize ⟨(encAll ds).length + (e.length + 2), ds.length + 1, []⟩ =
        ds.flatten.length + e.length := by
      unfold totalEventSize
      simp only [show ds.length + 1 ≠ 0 by omega, if_false, List.length_nil, Nat.add_zero]
      rw [sub32_eq (by omega) (by omega)]; omega
    simp only [htot]
    by_cases hm : ds.flatten.length + e.length ≤ max
    · rw [if_neg (by omega)]
      have hd' : (encAll ds).length + (e.length + 2) = (encAll (ds ++ [e])).length := by
        rw [encAll_append]; simp
      have := ih (ds ++ [e]) fuel (by rw [hc, encAll_append]; simp) (by simp)
        (fun x hx => hok x (by simp [hx])) (by simp at hf; omega)
      rw [hd']
      rw [show ds.length + 1 = (ds ++ [e]).length by simp, this]
      simp only [moreEvents, hm, if_true, List.length_append, List.length_cons, List.length_nil,
        List.flatten_append, List.flatten_cons, List.flatten_nil, List.append_nil]
      rw [Nat.add_comm 1 (moreEvents _ _ _), List.take_succ_cons]
      simp; omega
    · rw [if_pos (by omega)]
      simp only [moreEvents, hm, if_false, List.take_zero, List.append_nil, Nat.add_zero,
        Nat.add_sub_cancel]

theorem moreEvents_le (max size : Nat) (es : List Bytes) : moreEvents max size es ≤ es.length := by
  induction es generalizing size with
  | nil => simp [moreEvents]
  | cons e es ih =>
    have := ih (size + e.length)
    simp only [moreEvents, List.length_cons]; split <;> omega

theorem batchCount_le (b : Option Nat) (es : List Bytes) : batchCount b es ≤ es.length := by
  cases es with
  | nil => cases b <;> simp [batchCount]
  | cons e es =>
    cases b with
    | none => simp [batchCount]
    | some m => simp only [batchCount, List.length_cons]; have := moreEvents_le m e.length es; omega

/-- What is read after the scan. -/
def readStateOf (b : Option Nat) (es : List Bytes) (n : Nat) : ReadState :=
  ⟨(encAll (es.take n)).length, n, if b.isSome then hdrOf n else []⟩

theorem computeReadState_eq {cb : CircBuf} (h : cb.Inv) {cap : Nat} (hcap : cap < 2 ^ 31)
    (hlen : cb.contents.length ≤ cap) (b : Option Nat) (es : List Bytes) (p : Option Bytes)
    (hc : cb.contents = encAll es ++ encPending p) (hok : ∀ e ∈ es, Ok e) :
    computeReadState ⟨b⟩ cb = some (readStateOf b es (batchCount b es)) := by
  have hrs : cb.contents.length = cb.readSize := CircBuf.length_contents cb
  have key : computeLoop ⟨b⟩ cb (cb.readSize + 1) ⟨0, 0, []⟩ =
      some ⟨(encAll (es.take (batchCount b es))).length, batchCount b es, []⟩ := by
    cases es with
    | nil =>
      unfold computeLoop
      have h0 : batchCount b [] = 0 := by cases b <;> rfl
      rw [h0]
      cases p with
      | none =>
        have hz : cb.contents.length = 0 := by rw [hc]; rfl
        have := read_end h 2 (by omega)
        rw [hz] at this
        simp [this]
      | some p =>
        have := read_hdr h (length_le16 writeInProgressMark) (pre := []) (rest := p)
          (by rw [hc]; simp [encPending])
        simp only [List.length_nil] at this
        rw [this]
        simp [ofLe16_le16 (show writeInProgressMark < 65536 by decide)]
    | cons e es =>
      have hoe := hok e (by simp)
      unfold computeLoop
      have hr := read_hdr h (length_le16 (e.length + 2)) (pre := [])
        (rest := e ++ encAll es ++ encPending p) (by rw [hc]; simp [enc])
      simp only [List.length_nil] at hr
      rw [hr]
      have h1 := hoe.1
      have h2 := hoe.2
      simp only [ofLe16_le16 (show e.length + 2 < 65536 by omega)]
      rw [if_neg (by unfold writeInProgressMark; omega)]
      cases b with
      | none => simp [batchCount]
      | some m =>
        simp only [Nat.zero_add]
        rw [if_neg (by omega)]
        have hll := length_encAll' es
        have := computeLoop_eq h hcap hlen p m es [e] cb.readSize (by rw [hc]; simp) (by simp)
          (fun x hx => hok x (by simp [hx]))
          (by rw [← hrs, hc]; simp; omega)
        simp only [encAll_cons, encAll_nil, List.append_nil, length_enc, List.length_cons,
          List.length_nil, Nat.zero_add] at this
        rw [this]
        simp only [batchCount]
        rw [Nat.add_comm 1 (moreEvents m e.length es), List.take_succ_cons]
        simp [Nat.add_comm]
  unfold computeReadState
  rw [key]
  cases b with
  | none => simp [readStateOf]
  | some m =>
    have h1 := batchCount_le (some m) es
    have h2 := length_encAll' es
    have h3 : (encAll es).length ≤ cb.contents.length := by rw [hc]; simp
    simp only [Option.bind_eq_bind, Option.bind_some]
    rw [buildHeader_eq (by omega)]
    simp [readStateOf]

theorem totalEventSize_readStateOf {b : Option Nat} {es : List Bytes} {n : Nat}
    (hn : n ≤ es.length) (hb : b = none → n ≤ 1) (hsz : (encAll es).length < 2 ^ 31) :
    totalEventSize (readStateOf b es n) = (messageOf (es.take n)).length := by
  have h1 := length_encAll' (es.take n)
  have h2 : (encAll (es.take n)).length ≤ (encAll es).length := by
    have := congrArg (fun l => (encAll l).length) (List.take_append_drop n es)
    simp only [encAll_append, List.length_append] at this
    omega
  have h3 : (es.take n).length = n := by simp; omega
  have h4 := length_hdrOf n
  unfold totalEventSize readStateOf
  rw [messageOf_eq, h3]
  have h5 : (if b.isSome then hdrOf n else []) = hdrOf n := by
    cases b with
    | none => simp [hdrOf, hb rfl]
    | some _ => simp
  simp only [h5]
  by_cases h0 : n = 0
  · rw [if_pos h0, h0]; rfl
  · rw [if_neg h0]
    have e1 : n * 2 ≤ (encAll (es.take n)).length + (hdrOf n).length := by omega
    have e2 : (encAll (es.take n)).length + (hdrOf n).length < 2 ^ 32 := by omega
    rw [sub32_eq e1 e2, List.length_append]
    omega

/-- The copy loop over the events of a message. `pre` has been passed. -/
theorem readLoop_eq {cb : CircBuf} (h : cb.Inv) {cap : Nat} (hcap : cap < 2 ^ 31)
    (tail : Bytes) :
    ∀ (es : List Bytes) (fuel : Nat) (pre : Bytes) (curr rel bufLen : Nat) (out : Bytes),
      cb.contents = pre ++ (encAll es ++ tail) → (∀ e ∈ es, Ok e) → es.length < fuel →
      rel + bufLen ≤ es.flatten.length → curr + rel + bufLen ≤ cap →
      readLoop cb fuel ⟨curr, pre.length, curr + rel, bufLen, out⟩ =
        some (some (out ++ (es.flatten.drop rel).take bufLen)) := by
  intro es
  induction es with
  | nil =>
    intro fuel pre curr rel bufLen out hc _ hf hle _
    obtain ⟨fuel, rfl⟩ : ∃ f, fuel = f + 1 := ⟨fuel - 1, by simp at hf; omega⟩
    have hb : bufLen = 0 := by simp only [List.flatten_nil, List.length_nil] at hle; omega
    unfold readLoop
    simp only
    rw [if_pos hb, hb, List.take_zero, List.append_nil]
  | cons e es ih =>
    intro fuel pre curr rel bufLen out hc hok hf hle hcur
    obtain ⟨fuel, rfl⟩ : ∃ f, fuel = f + 1 := ⟨fuel - 1, by simp at hf; omega⟩
    have hoe : Ok e := hok e (by simp)
    have h1 := hoe.1
    have h2 := hoe.2
    unfold readLoop
    simp only
    by_cases hb : bufLen = 0
    · rw [if_pos hb, hb, List.take_zero, List.append_nil]
    rw [if_neg hb]
    have hr1 := read_hdr h (length_le16 (e.length + 2))
      (show cb.contents = pre ++ (le16 (e.length + 2) ++ (e ++ (encAll es ++ tail))) by
        rw [hc]; simp [enc])
    have hev : sub32 (ofLe16 (le16 (e.length + 2))) 2 = e.length := by
      rw [ofLe16_le16 (by omega), sub32_eq (by omega) (by omega), Nat.add_sub_cancel]
    have hpre : pre.length + 2 + e.length = (pre ++ enc e).length := by
      rw [List.length_append, length_enc]; omega
    have hc' : cb.contents = (pre ++ enc e) ++ (encAll es ++ tail) := by rw [hc]; simp
    simp only [List.flatten_cons, List.length_append] at hle
    have hokt : ∀ x ∈ es, Ok x := fun x hx => hok x (by simp [hx])
    have hft : es.length < fuel := by simp at hf; omega
    by_cases hs : e.length < rel
    · have hstep : readStep cb ⟨curr, pre.length, curr + rel, bufLen, out⟩ =
          some (some ⟨curr + e.length, (pre ++ enc e).length, (curr + e.length) + (rel - e.length),
            bufLen, out⟩) := by
        unfold readStep
        simp only [hr1, hev]
        rw [if_pos (by omega), hpre, show curr + rel = (curr + e.length) + (rel - e.length) by omega]
      rw [hstep]
      simp only
      rw [ih fuel (pre ++ enc e) (curr + e.length) (rel - e.length) bufLen out hc'
        hokt hft (by omega) (by omega)]
      rw [List.flatten_cons, List.drop_append, List.drop_of_length_le (show e.length ≤ rel by omega),
        List.nil_append]
    · have e1 : sub32 (curr + rel) curr = rel := by rw [sub32_eq (by omega) (by omega)]; omega
      have e2 : sub32 e.length rel = e.length - rel := sub32_eq (by omega) (by omega)
      have hr := read_mid h (pre := pre ++ le16 (e.length + 2)) (e := e) (rest := encAll es ++ tail)
        (s := rel) (n := min (e.length - rel) bufLen) (by rw [hc]; simp [enc]) (by omega)
      rw [show (pre ++ le16 (e.length + 2)).length = pre.length + 2 by
        rw [List.length_append, length_le16]] at hr
      have hstep : readStep cb ⟨curr, pre.length, curr + rel, bufLen, out⟩ =
          some (some ⟨curr + e.length, (pre ++ enc e).length,
            curr + rel + min (e.length - rel) bufLen, bufLen - min (e.length - rel) bufLen,
            out ++ (e.drop rel).take (min (e.length - rel) bufLen)⟩) := by
        unfold readStep
        simp only [hr1, hev, e1, e2]
        rw [if_neg (by omega), hr, hpre]
      rw [hstep]
      simp only
      by_cases hfit : bufLen ≤ e.length - rel
      · rw [Nat.min_eq_right hfit]
        obtain ⟨fuel, rfl⟩ : ∃ f, fuel = f + 1 := ⟨fuel - 1, by omega⟩
        unfold readLoop
        simp only [Nat.sub_self, if_true]
        rw [List.flatten_cons, List.drop_append_of_le_length (by omega),
          List.take_append_of_le_length (by simp; omega)]
      · rw [Nat.min_eq_left (by omega),
          show curr + rel + (e.length - rel) = (curr + e.length) + 0 by omega]
        rw [ih fuel (pre ++ enc e) (curr + e.length) 0 (bufLen - (e.length - rel)) _ hc'
          hokt hft (by omega) (by omega)]
        rw [List.flatten_cons, List.drop_append_of_le_length (by omega), List.take_append,
          List.take_of_length_le (show (List.drop rel e).length ≤ e.length - rel by simp),
          List.take_of_length_le (show (List.drop rel e).length ≤ bufLen by simp; omega)]
        simp

end Mflt.EventStorage
