import Verif.Model.DataSourceRle
import Verif.Lemmas.Mem
import Verif.Lemmas.Rle

/-! # Lemmas about the RLE data source -/

namespace Mflt.DataSourceRle

open Mflt.Rle Mflt.Spec.Rle

/-- Run the encoder over the rest of the message and finish. -/
def completes (msg : Bytes) (p : Nat) (ctx : Ctx) (out : Bytes) : Option (Ctx × Bytes) :=
  (runFrom ctx (msg.take p) out (msg.drop p)).bind fun r =>
  (finalize r.1).bind fun c => (collect msg c.writeInfo r.2).map fun o => (c, o)

theorem finalize_writeInfo (ctx : Ctx) (w : WriteInfo) :
    finalize { ctx with writeInfo := w } = finalize ctx := rfl

theorem completes_writeInfo (msg : Bytes) (p : Nat) (ctx : Ctx) (out : Bytes) (w : WriteInfo) :
    completes msg p { ctx with writeInfo := w } out = completes msg p ctx out := by
  unfold completes
  cases msg.drop p with
  | nil => simp only [runFrom, Option.bind_some]; rw [finalize_writeInfo]
  | cons b bs => rfl

theorem collect_prefix {fed out o : Bytes} {w : WriteInfo} (h : collect fed w out = some o) :
    ∃ t, o = out ++ t := by
  unfold collect at h
  split at h
  · split at h
    · cases h; exact ⟨_, rfl⟩
    · cases h
  · cases h; exact ⟨[], by simp⟩

theorem runFrom_prefix (bs : Bytes) : ∀ (ctx : Ctx) (fed out : Bytes) (c : Ctx) (o : Bytes),
    runFrom ctx fed out bs = some (c, o) → ∃ t, o = out ++ t := by
  induction bs with
  | nil => intro ctx fed out c o h; cases h; exact ⟨[], by simp⟩
  | cons b bs ih =>
    intro ctx fed out c o h
    simp only [runFrom, Option.bind_eq_bind] at h
    cases h1 : stepByte { ctx with writeInfo := WriteInfo.zero } b with
    | none => simp [h1] at h
    | some c1 =>
      simp only [h1, Option.bind_some] at h
      cases h2 : collect (fed ++ [b]) c1.writeInfo out with
      | none => simp [h2] at h
      | some o1 =>
        simp only [h2, Option.bind_some] at h
        obtain ⟨t1, rfl⟩ := collect_prefix h2
        obtain ⟨t2, rfl⟩ := ih _ _ _ _ _ h
        exact ⟨t1 ++ t2, by simp⟩

theorem completes_prefix {msg : Bytes} {p : Nat} {ctx c : Ctx} {out o : Bytes}
    (h : completes msg p ctx out = some (c, o)) : ∃ t, o = out ++ t := by
  unfold completes at h
  cases h1 : runFrom ctx (msg.take p) out (msg.drop p) with
  | none => simp [h1] at h
  | some r =>
    simp only [h1, Option.bind_some] at h
    cases h2 : finalize r.1 with
    | none => simp [h2] at h
    | some c2 =>
      simp only [h2, Option.bind_some] at h
      cases h3 : collect msg c2.writeInfo r.2 with
      | none => simp [h3] at h
      | some o3 =>
        simp only [h3, Option.map_some, Option.some.injEq, Prod.mk.injEq] at h
        obtain ⟨-, rfl⟩ := h
        obtain ⟨t1, h4⟩ := runFrom_prefix _ _ _ _ _ _ h1
        obtain ⟨t2, rfl⟩ := collect_prefix h3
        exact ⟨t1 ++ t2, by rw [h4]; simp⟩

/-- The encoding of a message, with what `finalize` leaves behind. -/
theorem completes_zero (msg : Bytes) (hd : msg.length < 2 ^ 31) :
    ∃ c E, completes msg 0 Ctx.zero [] = some (c, E) ∧ expand E = some msg ∧
      c.totalRleSize = E.length ∧ E.length ≤ msg.length + msg.length / 64 + 1 := by
  obtain ⟨c1, o1, h1, h2⟩ := runFrom_spec msg [] Ctx.zero [] outInv_zero (by simpa using hd)
  obtain ⟨c2, o2, e1, -, e3, e4, e5, e6⟩ := finalize_spec msg c1 o1 (by simpa using h2) hd
  exact ⟨c2, o2, by simp [completes, h1, e1, e3], e4, e5, e6⟩

/-- Advancing by one call of the encoder. -/
theorem completes_step {msg : Bytes} {p : Nat} {ctx c : Ctx} {out : Bytes} {r : Ctx × Bytes}
    {n : Nat} {out' : Bytes} (h : completes msg p ctx out = some r)
    (hr : runFrom ctx (msg.take p) out ((msg.drop p).take n) = some (c, out')) :
    completes msg (p + n) c out' = some r := by
  unfold completes at h ⊢
  rw [← List.take_append_drop n (msg.drop p), runFrom_append, hr, Option.bind_some] at h
  rw [List.take_add, ← List.drop_drop]
  exact h

theorem outInv_writeInfo {data : Bytes} {ctx : Ctx} {out : Bytes} (h : OutInv data ctx out)
    (w : WriteInfo) : OutInv data { ctx with writeInfo := w } out := by
  obtain ⟨⟨h1, h2, h3, h4, h5, h6⟩, h7, h8⟩ := h
  exact ⟨⟨h1, h2, h3, h4, h5, h6⟩, h7, h8⟩

/-- The bytes of the pending sequence that are still to be written. -/
def rest (msg : Bytes) (s : State) : Bytes :=
  if s.rle.writeInfo.available then (s.rle.writeInfo.bytes msg).drop s.writeOffset else []

/-- The pending sequence is sane. -/
structure Pend (msg : Bytes) (s : State) : Prop where
  idle : s.rle.writeInfo.available = false → s.writeOffset = 0 ∧ s.phase = .findingSeqLength
  busy : s.rle.writeInfo.available = true → s.phase = .writingSequence ∧
    s.writeOffset ≤ s.rle.writeInfo.header.length + s.rle.writeInfo.writeLen ∧
    s.rle.writeInfo.writeStartOffset + s.rle.writeInfo.writeLen ≤ msg.length

/-- The result of filling the caller's buffer from the pending sequence. -/
structure Filled (msg : Bytes) (s : State) (room : Nat) (s' : State) : Prop where
  rest_eq : rest msg s' = (rest msg s).drop room
  pend : Pend msg s'
  len : s'.currEncodedLen = s.currEncodedLen + ((rest msg s).take room).length
  orig : s'.originalSize = s.originalSize
  total : s'.totalRleSize = s.totalRleSize
  proc : s'.bytesProcessed = s.bytesProcessed
  rle : ∃ w, s'.rle = { s.rle with writeInfo := w }
  idle : (rest msg s).length < room → s'.rle.writeInfo.available = false

theorem bytes_length {msg : Bytes} {w : WriteInfo}
    (h : w.writeStartOffset + w.writeLen ≤ msg.length) :
    (w.bytes msg).length = w.header.length + w.writeLen := by
  simp only [WriteInfo.bytes, List.length_append, List.length_take, List.length_drop]; omega

theorem bytes_drop {msg : Bytes} {w : WriteInfo} {k : Nat} (hk : w.header.length ≤ k) :
    (w.bytes msg).drop k = ((msg.drop (w.writeStartOffset + (k - w.header.length))).take
      (w.header.length + w.writeLen - k)) := by
  unfold WriteInfo.bytes
  rw [List.drop_append, List.drop_of_length_le hk, List.nil_append, List.drop_take, List.drop_drop]
  congr 1
  omega

theorem buildData_eq {msg : Bytes} {s : State} {room : Nat} (hdr : Bytes) (h : Pend msg s)
    (ha : s.rle.writeInfo.available = true) (hw : s.rle.writeInfo.header.length ≤ s.writeOffset)
    (hr : 0 < room) :
    ∃ s', buildData msg s hdr room = some (hdr ++ (rest msg s).take room, s') ∧
      Filled msg { s with currEncodedLen := s.currEncodedLen + hdr.length } room s' := by
  obtain ⟨b1, b2, b3⟩ := h.busy ha
  have hoff : backingReadOffset s = s.rle.writeInfo.writeStartOffset +
      (s.writeOffset - s.rle.writeInfo.header.length) := by
    unfold backingReadOffset
    rw [if_neg (by rw [b1]; simp), if_neg (by omega)]
  have hrest : rest msg s = (msg.drop (s.rle.writeInfo.writeStartOffset +
      (s.writeOffset - s.rle.writeInfo.header.length))).take
      (s.rle.writeInfo.header.length + s.rle.writeInfo.writeLen - s.writeOffset) := by
    unfold rest; rw [if_pos ha, bytes_drop hw]
  have hrl : (rest msg s).length =
      s.rle.writeInfo.header.length + s.rle.writeInfo.writeLen - s.writeOffset := by
    rw [hrest]; simp only [List.length_take, List.length_drop]; omega
  have hdata : memcpyOut msg (backingReadOffset s) (min room
      (s.rle.writeInfo.header.length + s.rle.writeInfo.writeLen - s.writeOffset)) =
      some ((rest msg s).take room) := by
    rw [hoff, memcpyOut_some (by omega), hrest, List.take_take]
  have hrest' : ∀ x, rest msg { s with currEncodedLen := x } = rest msg s := fun _ => rfl
  unfold buildData
  simp only [hdata, Option.map_some]
  by_cases hfull : s.writeOffset + min room
      (s.rle.writeInfo.header.length + s.rle.writeInfo.writeLen - s.writeOffset) =
      s.rle.writeInfo.header.length + s.rle.writeInfo.writeLen
  · rw [if_pos hfull]
    refine ⟨_, rfl, ⟨?_, ⟨fun _ => ⟨rfl, rfl⟩, fun hx => ?_⟩, ?_, rfl, rfl, rfl, ⟨_, rfl⟩, fun _ => rfl⟩⟩
    · rw [hrest', List.drop_of_length_le (by omega)]; rfl
    · cases hx
    · rw [hrest']; simp only [List.length_take, hrl]; omega
  · rw [if_neg hfull]
    refine ⟨_, rfl, ⟨?_, ⟨fun hx => ?_, fun _ => ⟨b1, ?_, b3⟩⟩, ?_, rfl, rfl, rfl, ⟨_, rfl⟩, fun hx => ?_⟩⟩
    · rw [hrest']
      simp only [rest, ha, if_true]
      rw [List.drop_drop, Nat.min_eq_left (by omega)]
    · simp only at hx; rw [ha] at hx; cases hx
    · simp only; omega
    · rw [hrest']; simp only [List.length_take, hrl]; omega
    · rw [hrest', hrl] at hx; omega

theorem buildMsg_eq {msg : Bytes} {s : State} {room : Nat} (h : Pend msg s) (hr : 0 < room) :
    ∃ s', buildMsg msg s room = some ((rest msg s).take room, s') ∧ Filled msg s room s' := by
  unfold buildMsg
  cases ha : s.rle.writeInfo.available with
  | false =>
    refine ⟨s, by simp [rest, ha], ⟨by simp [rest, ha], h, by simp [rest, ha], rfl, rfl, rfl,
      ⟨_, rfl⟩, fun _ => ha⟩⟩
  | true =>
    obtain ⟨b1, b2, b3⟩ := h.busy ha
    simp only [not_true_eq_false, if_false]
    by_cases hw : s.writeOffset < s.rle.writeInfo.header.length
    · rw [if_pos hw]
      have hrest : rest msg s = s.rle.writeInfo.header.drop s.writeOffset ++
          (msg.drop s.rle.writeInfo.writeStartOffset).take s.rle.writeInfo.writeLen := by
        unfold rest; rw [if_pos ha]; unfold WriteInfo.bytes
        rw [List.drop_append_of_le_length (by omega)]
      have hl : ((s.rle.writeInfo.header.drop s.writeOffset).take room).length =
          min room (s.rle.writeInfo.header.length - s.writeOffset) := by simp
      by_cases hfull : room - ((s.rle.writeInfo.header.drop s.writeOffset).take room).length = 0
      · rw [if_pos hfull]
        rw [hl] at hfull
        have ht : (rest msg s).take room = (s.rle.writeInfo.header.drop s.writeOffset).take room := by
          rw [hrest, List.take_append_of_le_length (by simp; omega)]
        refine ⟨_, congrArg some (Prod.ext ht.symm rfl), ⟨?_, ⟨fun hx => ?_, fun _ => ⟨b1, ?_, b3⟩⟩, ?_,
          rfl, rfl, rfl, ⟨_, rfl⟩, fun hx => ?_⟩⟩
        · simp only [rest, ha, if_true, List.drop_drop, hl]
          rw [Nat.min_eq_left (by omega)]
        · simp only at hx; rw [ha] at hx; cases hx
        · simp only [hl]; omega
        · rw [ht]
        · exfalso
          rw [hrest] at hx
          simp only [List.length_append, List.length_drop] at hx
          omega
      · rw [if_neg hfull]
        rw [hl] at hfull
        have hle : s.rle.writeInfo.header.length - s.writeOffset < room := by omega
        have hhdr : (s.rle.writeInfo.header.drop s.writeOffset).take room =
            s.rle.writeInfo.header.drop s.writeOffset :=
          List.take_of_length_le (by simp; omega)
        rw [hhdr]
        have hdl : (s.rle.writeInfo.header.drop s.writeOffset).length =
            s.rle.writeInfo.header.length - s.writeOffset := by simp
        obtain ⟨s1, hs1⟩ : ∃ s1 : State, s1 = { s with writeOffset := s.writeOffset +
            (s.rle.writeInfo.header.drop s.writeOffset).length } := ⟨_, rfl⟩
        have hp1 : Pend msg s1 := by
          subst hs1
          exact ⟨fun hx => absurd (ha.symm.trans hx) (by simp),
            fun _ => ⟨b1, by simp only [hdl]; omega, b3⟩⟩
        have hr1 : rest msg s1 =
            (msg.drop s.rle.writeInfo.writeStartOffset).take s.rle.writeInfo.writeLen := by
          subst hs1
          simp only [rest, ha, if_true, hdl]
          rw [show s.writeOffset + (s.rle.writeInfo.header.length - s.writeOffset) =
            s.rle.writeInfo.header.length by omega]
          unfold WriteInfo.bytes
          rw [List.drop_left]
        obtain ⟨s', e1, e2⟩ := buildData_eq (msg := msg) (s := s1)
          (room := room - (s.rle.writeInfo.header.drop s.writeOffset).length)
          (s.rle.writeInfo.header.drop s.writeOffset) hp1 (by subst hs1; exact ha)
          (by subst hs1; simp only [hdl]; omega) (by rw [hdl]; omega)
        refine ⟨s', ?_, ?_⟩
        · rw [← hs1, e1, hr1, hrest, List.take_append, List.take_of_length_le (i := room)
            (l := s.rle.writeInfo.header.drop s.writeOffset) (by rw [hdl]; omega)]
        · obtain ⟨f1, f2, f3, f4, f5, f6, f7, f8⟩ := e2
          have hrx : rest msg { s1 with currEncodedLen := s1.currEncodedLen +
              (s.rle.writeInfo.header.drop s.writeOffset).length } = rest msg s1 := rfl
          rw [hrx, hr1] at f1 f3 f8
          refine ⟨?_, f2, ?_, ?_, ?_, ?_, ?_, ?_⟩
          · rw [f1, hrest, List.drop_append, List.drop_of_length_le
              (l := s.rle.writeInfo.header.drop s.writeOffset) (by rw [hdl]; omega), List.nil_append]
          · rw [f3, hrest, List.take_append, List.take_of_length_le (i := room)
              (l := s.rle.writeInfo.header.drop s.writeOffset) (by rw [hdl]; omega),
              List.length_append]
            subst hs1; simp only; omega
          · rw [f4]; subst hs1; rfl
          · rw [f5]; subst hs1; rfl
          · rw [f6]; subst hs1; rfl
          · subst hs1; exact f7
          · intro hx
            apply f8
            rw [hrest, List.length_append] at hx
            omega
    · rw [if_neg hw]
      obtain ⟨s', e1, e2⟩ := buildData_eq (room := room) [] h ha (by omega) hr
      exact ⟨s', by simpa using e1, by simpa using e2⟩

/-- Ready to be read at offset `off` of the encoding `E` of `msg`. -/
structure Ready (msg E : Bytes) (s : State) (off : Nat) : Prop where
  curr : s.currEncodedLen = off
  orig : s.originalSize = msg.length
  total : s.totalRleSize = E.length
  le : off ≤ E.length
  pend : Pend msg s
  stream : (s.bytesProcessed = msg.length ∧ E.drop off = rest msg s) ∨
    (s.bytesProcessed ≤ msg.length ∧ ∃ out c, OutInv (msg.take s.bytesProcessed) s.rle out ∧
      completes msg s.bytesProcessed s.rle out = some (c, E) ∧ out = E.take off ++ rest msg s)

theorem Ready.rest_le {msg E : Bytes} {s : State} {off : Nat} (h : Ready msg E s off) :
    off + (rest msg s).length ≤ E.length := by
  rcases h.stream with ⟨-, h2⟩ | ⟨-, out, c, -, h2, h3⟩
  · rw [← h2]; have := h.le; simp; omega
  · obtain ⟨t, ht⟩ := completes_prefix h2
    have := congrArg List.length ht
    rw [h3] at this
    have := h.le
    simp only [List.length_append, List.length_take] at *
    omega

/-- The pending bytes are the next bytes of the encoding. -/
theorem Ready.rest_prefix {msg E : Bytes} {s : State} {off : Nat} (h : Ready msg E s off) :
    (E.drop off).take (rest msg s).length = rest msg s := by
  rcases h.stream with ⟨-, h2⟩ | ⟨-, out, c, -, h2, h3⟩
  · rw [h2, List.take_length]
  · obtain ⟨t, ht⟩ := completes_prefix h2
    rw [h3] at ht
    have hl : (E.take off).length = off := by have := h.le; simp; omega
    have : E.drop off = rest msg s ++ t := by
      conv => lhs; rw [ht]
      rw [List.append_assoc, List.drop_left' hl]
    rw [this, List.take_left]

theorem Ready.fill {msg E : Bytes} {s s' : State} {off room : Nat} (h : Ready msg E s off)
    (hf : Filled msg s room s') :
    Ready msg E s' (off + ((rest msg s).take room).length) := by
  have hle := h.rest_le
  have hpre := h.rest_prefix
  have hlen : ((rest msg s).take room).length ≤ (rest msg s).length := by
    rw [List.length_take]; omega
  refine ⟨by rw [hf.len, h.curr], by rw [hf.orig, h.orig], by rw [hf.total, h.total], by omega,
    hf.pend, ?_⟩
  rcases h.stream with ⟨h1, h2⟩ | ⟨h1, out, c, h2, h3, h4⟩
  · left
    refine ⟨by rw [hf.proc, h1], ?_⟩
    rw [hf.rest_eq, ← List.drop_drop, h2]
    rw [List.length_take]
    by_cases hx : room ≤ (rest msg s).length
    · rw [Nat.min_eq_left hx]
    · rw [Nat.min_eq_right (by omega), List.drop_of_length_le (by simp), List.drop_of_length_le (by omega)]
  · right
    obtain ⟨w, hw⟩ := hf.rle
    refine ⟨by rw [hf.proc]; exact h1, out, c, ?_, ?_, ?_⟩
    · rw [hf.proc, hw]; exact outInv_writeInfo h2 w
    · rw [hf.proc, hw, completes_writeInfo]; exact h3
    · rw [h4, hf.rest_eq, List.take_add]
      have : (E.drop off).take ((rest msg s).take room).length = (rest msg s).take room := by
        conv => rhs; rw [← hpre]
        rw [List.take_take, List.length_take]
      rw [this, List.append_assoc, List.take_append_drop]

/-- A read in progress. -/
theorem Ready.fillMsg {msg E : Bytes} {s : State} {off room : Nat} {o : Bytes}
    (h : Ready msg E s off) (hr : 0 < room) :
    ∃ s' k, fillMsg msg ⟨s, o, room⟩ = some ⟨s', o ++ (E.drop off).take k, room - k⟩ ∧
      k = min room (rest msg s).length ∧ Ready msg E s' (off + k) ∧
      s'.bytesProcessed = s.bytesProcessed ∧
      (k < room → s'.rle.writeInfo.available = false) ∧
      (∃ w, s'.rle = { s.rle with writeInfo := w }) := by
  obtain ⟨s', e1, e2⟩ := buildMsg_eq h.pend hr
  have hpre := h.rest_prefix
  have hrd := h.fill e2
  rw [List.length_take] at hrd
  refine ⟨s', min room (rest msg s).length, ?_, rfl, hrd, e2.proc, fun hk => e2.idle (by omega), e2.rle⟩
  unfold DataSourceRle.fillMsg
  simp only [e1, Option.map_some, List.length_take]
  have : (E.drop off).take (min room (rest msg s).length) = (rest msg s).take room := by
    conv => rhs; rw [← hpre]
    rw [List.take_take]
  rw [this]

/-- Preparing the next sequence from the bytes of the message. -/
theorem Ready.prepare {msg E : Bytes} {s : State} {off : Nat} (hd : msg.length < 2 ^ 31)
    (h : Ready msg E s off) (hav : s.rle.writeInfo.available = false)
    (hp : s.bytesProcessed ≠ msg.length) :
    ∃ s', readMsgPrepare s ((msg.drop s.bytesProcessed).take
        (min (msg.length - s.bytesProcessed) tempBufSize)) = some s' ∧
      Ready msg E s' off ∧ s.bytesProcessed < s'.bytesProcessed := by
  have hrest : rest msg s = [] := by simp [rest, hav]
  rcases h.stream with ⟨h1, -⟩ | ⟨h1, out, c, h2, h3, h4⟩
  · exact absurd h1 hp
  generalize hk : min (msg.length - s.bytesProcessed) tempBufSize = k
  have hk0 : 0 < k := by simp only [tempBufSize] at hk; omega
  have hpl : ((msg.drop s.bytesProcessed).take k).length = k := by simp; omega
  have hpne : (msg.drop s.bytesProcessed).take k ≠ [] := by
    intro hx; rw [hx] at hpl; simp at hpl; omega
  have htl : (msg.take s.bytesProcessed).length = s.bytesProcessed := by simp; omega
  obtain ⟨c1, o1, n, e1, e2, e3, e4, e5, e6⟩ := encode_run ((msg.drop s.bytesProcessed).take k)
    (msg.take s.bytesProcessed) s.rle out h2 (by omega) hpne
  have htt : ((msg.drop s.bytesProcessed).take k).take n = (msg.drop s.bytesProcessed).take n := by
    rw [List.take_take, Nat.min_eq_left (by omega)]
  rw [htt] at e4 e5 e6
  rw [← List.take_add] at e4 e6
  have hcomp := completes_step h3 e5
  have hfl : (msg.take (s.bytesProcessed + n)).length = s.bytesProcessed + n := by simp; omega
  have hprep : readMsgPrepare s ((msg.drop s.bytesProcessed).take k) = some
      { s with rle := c1, bytesProcessed := s.bytesProcessed + n,
               phase := if c1.writeInfo.available then .writingSequence else s.phase } := by
    unfold readMsgPrepare
    simp only [e1, Option.bind_some, hpl]
    rw [if_neg (by omega), Option.map_some]
  refine ⟨_, hprep, ⟨h.curr, h.orig, h.total, h.le, ?_, Or.inr ⟨by simp only; omega, o1, c, e6, hcomp, ?_⟩⟩,
    by simp only; omega⟩
  · obtain ⟨i1, i2⟩ := h.pend.idle hav
    refine ⟨fun hx => ?_, fun hx => ?_⟩
    · simp only at hx ⊢
      rw [hx]; exact ⟨i1, by simp [i2]⟩
    · simp only at hx ⊢
      rw [hx]
      refine ⟨rfl, by omega, ?_⟩
      simp only [collect, hx, if_true] at e4
      split at e4
      · rw [hfl] at *; omega
      · cases e4
  · simp only [rest]
    rw [hrest, List.append_nil] at h4
    have i1 := (h.pend.idle hav).1
    cases hx : c1.writeInfo.available with
    | false => simp only [collect, hx] at e4; cases e4; simp [h4]
    | true =>
      simp only [collect, hx, if_true] at e4
      split at e4
      · rename_i hin
        rw [hfl] at hin
        cases e4
        simp only [if_true, i1, List.drop_zero]
        rw [h4]
        congr 1
        unfold WriteInfo.bytes
        congr 1
        rw [List.drop_take, List.take_take, Nat.min_eq_left (by omega)]
      · cases e4

/-- Preparing the last sequence. -/
theorem Ready.finish {msg E : Bytes} {s : State} {off : Nat} (hd : msg.length < 2 ^ 31)
    (h : Ready msg E s off) (hav : s.rle.writeInfo.available = false)
    (hp : s.bytesProcessed = msg.length) (hlt : off < E.length) :
    ∃ s', readMsgPrepare s [] = some s' ∧ Ready msg E s' off ∧ rest msg s' = E.drop off := by
  have hrest : rest msg s = [] := by simp [rest, hav]
  rcases h.stream with ⟨-, h1⟩ | ⟨h1, out, c, h2, h3, h4⟩
  · rw [hrest] at h1
    have := congrArg List.length h1
    simp at this; omega
  rw [hrest, List.append_nil] at h4
  rw [hp] at h2 h3
  rw [List.take_length] at h2
  obtain ⟨c2, o2, e1, e2, e3, -, -, -⟩ := finalize_spec msg s.rle out h2 hd
  have hE : o2 = E ∧ c2 = c := by
    unfold completes at h3
    rw [List.drop_length] at h3
    simp only [runFrom, Option.bind_some, e1, e3, Option.map_some, Option.some.injEq,
      Prod.mk.injEq] at h3
    exact ⟨h3.2, h3.1⟩
  obtain ⟨rfl, -⟩ := hE
  simp only [collect, e2, if_true] at e3
  have hin : c2.writeInfo.writeStartOffset + c2.writeInfo.writeLen ≤ msg.length := by
    split at e3
    · assumption
    · cases e3
  rw [if_pos hin] at e3
  have hprep : readMsgPrepare s [] = some
      { s with rle := c2, bytesProcessed := s.bytesProcessed + 0, phase := .writingSequence } := by
    unfold readMsgPrepare
    simp only [encode, List.length_nil, if_true, Option.bind_some, e1, Option.map_some, e2]
  have i1 := (h.pend.idle hav).1
  have hE2 : o2.drop off = c2.writeInfo.bytes msg := by
    have hl : (o2.take off).length = off := by have := h.le; simp; omega
    have : o2 = o2.take off ++ c2.writeInfo.bytes msg := by
      cases e3; rw [← h4]
    conv => lhs; rw [this]
    rw [List.drop_left' hl]
  have hr2 : ∀ b, rest msg { s with rle := c2, bytesProcessed := b, phase := .writingSequence } =
      o2.drop off := by
    intro b
    simp only [rest, e2, if_true, i1, List.drop_zero, hE2]
  refine ⟨_, hprep, ⟨h.curr, h.orig, h.total, h.le, ⟨fun hx => ?_, fun _ => ⟨rfl, ?_, hin⟩⟩,
    Or.inl ⟨by simp [hp], (hr2 _).symm⟩⟩, hr2 _⟩
  · simp only at hx; rw [e2] at hx; cases hx
  · simp only; omega

theorem readLoop_eq {msg E : Bytes} (hd : msg.length < 2 ^ 31) (fuel : Nat) :
    ∀ (s : State) (off room : Nat) (o : Bytes), Ready msg E s off →
    s.rle.writeInfo.available = false → msg.length - s.bytesProcessed ≤ fuel → 0 < room →
    off + room ≤ E.length →
    ∃ s', readLoop msg fuel ⟨s, o, room⟩ = some ⟨s', o ++ (E.drop off).take room, 0⟩ ∧
      Ready msg E s' (off + room) := by
  induction fuel with
  | zero =>
    intro s off room o h hav hf hr hE
    have hple : s.bytesProcessed ≤ msg.length := by
      rcases h.stream with ⟨h1, -⟩ | ⟨h1, -⟩ <;> omega
    have hp : s.bytesProcessed = msg.length := by omega
    obtain ⟨s1, e1, e2, e3⟩ := h.finish hd hav hp (by omega)
    obtain ⟨s2, k, f1, f2, f3, -⟩ := e2.fillMsg (o := o) hr
    have hk : k = room := by rw [f2, e3]; simp; omega
    subst hk
    refine ⟨s2, ?_, f3⟩
    unfold readLoop
    simp only [h.orig, hp, if_true, e1, Option.bind_some, f1, Nat.sub_self]
  | succ fuel ih =>
    intro s off room o h hav hf hr hE
    have hple : s.bytesProcessed ≤ msg.length := by
      rcases h.stream with ⟨h1, -⟩ | ⟨h1, -⟩ <;> omega
    by_cases hp : s.bytesProcessed = msg.length
    · obtain ⟨s1, e1, e2, e3⟩ := h.finish hd hav hp (by omega)
      obtain ⟨s2, k, f1, f2, f3, -⟩ := e2.fillMsg (o := o) hr
      have hk : k = room := by rw [f2, e3]; simp; omega
      subst hk
      refine ⟨s2, ?_, f3⟩
      unfold readLoop
      simp only [h.orig, hp, if_true, e1, Option.bind_some, f1, Nat.sub_self]
    · obtain ⟨s1, e1, e2, e3⟩ := h.prepare hd hav hp
      obtain ⟨s2, k, f1, f2, f3, f4, f5, -⟩ := e2.fillMsg (o := o) hr
      have hoff : backingReadOffset s = s.bytesProcessed := by
        unfold backingReadOffset; rw [if_pos (h.pend.idle hav).2]
      have hstep : readStep msg ⟨s, o, room⟩ = some ⟨s2, o ++ (E.drop off).take k, room - k⟩ := by
        unfold readStep
        simp only [h.orig, hoff]
        rw [memcpyOut_some (by omega), Option.bind_some, e1, Option.bind_some]
        exact f1
      by_cases hk : k = room
      · subst hk
        refine ⟨s2, ?_, f3⟩
        unfold readLoop
        simp only [h.orig, if_neg hp, hstep, Option.bind_some, Nat.sub_self, if_true]
      · have hklt : k < room := by omega
        obtain ⟨s3, g1, g2⟩ := ih s2 (off + k) (room - k) (o ++ (E.drop off).take k) f3 (f5 hklt)
          (by rw [f4]; omega) (by omega) (by omega)
        refine ⟨s3, ?_, by rw [show off + room = off + k + (room - k) by omega]; exact g2⟩
        unfold readLoop
        simp only [h.orig, if_neg hp, hstep, Option.bind_some]
        rw [if_neg (by omega), g1]
        congr 2
        rw [List.append_assoc, ← List.drop_drop, ← List.take_add, Nat.add_sub_cancel' (by omega)]

/-- One sequential read inside the announced size. -/
theorem Ready.read {msg E : Bytes} (hd : msg.length < 2 ^ 31) {s : State} {off n : Nat}
    (h : Ready msg E s off) (hn : 0 < n) (hE : off + n ≤ E.length) :
    ∃ s', readMsg msg s off n = some (true, (E.drop off).take n, s') ∧ Ready msg E s' (off + n) := by
  unfold readMsg
  rw [if_neg (by rw [h.curr]; simp)]
  obtain ⟨s1, k, f1, f2, f3, f4, f5, -⟩ := h.fillMsg (o := []) hn
  simp only [f1, Option.bind_some, List.nil_append]
  by_cases hk : k = n
  · subst hk
    exact ⟨s1, by simp, f3⟩
  · rw [if_neg (by omega)]
    obtain ⟨s2, g1, g2⟩ := readLoop_eq hd (s1.originalSize - s1.bytesProcessed) s1 (off + k) (n - k)
      ((E.drop off).take k) f3 (f5 (by omega)) (by rw [f3.orig]; omega) (by omega) (by omega)
    refine ⟨s2, ?_, by rw [show off + n = off + k + (n - k) by omega]; exact g2⟩
    rw [g1, Option.map_some, ← List.drop_drop, ← List.take_add, Nat.add_sub_cancel' (by omega)]

/-! ## Announcing the size -/

theorem prepareLoop_eq (fuel : Nat) : ∀ (data piece : Bytes) (ctx : Ctx) (out : Bytes),
    piece.length ≤ fuel → OutInv data ctx out → data.length + piece.length < 2 ^ 31 →
    ∃ c o, prepareLoop fuel ctx piece = some c ∧ runFrom ctx data out piece = some (c, o) ∧
      OutInv (data ++ piece) c o := by
  induction fuel with
  | zero =>
    intro data piece ctx out hl h hd
    have : piece = [] := List.length_eq_zero_iff.mp (by omega)
    subst this
    exact ⟨ctx, out, by simp [prepareLoop], rfl, by simpa using h⟩
  | succ fuel ih =>
    intro data piece ctx out hl h hd
    by_cases hp : piece = []
    · subst hp
      exact ⟨ctx, out, by simp [prepareLoop], rfl, by simpa using h⟩
    · obtain ⟨c1, o1, n, e1, e2, e3, e4, e5, e6⟩ := encode_run piece data ctx out h hd hp
      obtain ⟨c, o, g1, g2, g3⟩ := ih (data ++ piece.take n) (piece.drop n) c1 o1
        (by simp; omega) e6 (by simp; omega)
      refine ⟨c, o, ?_, ?_, ?_⟩
      · unfold prepareLoop
        rw [if_neg (fun hx => hp (List.length_eq_zero_iff.mp hx)), e1, Option.bind_some]
        exact g1
      · conv => lhs; rw [← List.take_append_drop n piece]
        rw [runFrom_append, e5, Option.bind_some]
        exact g2
      · rw [List.append_assoc, List.take_append_drop] at g3
        exact g3

theorem computeLoop_eq {msg E : Bytes} {c : Ctx} (hd : msg.length < 2 ^ 31) (fuel : Nat) :
    ∀ (s : State) (done : Nat) (out : Bytes), done < msg.length → msg.length - done ≤ fuel →
    s.originalSize = msg.length → OutInv (msg.take done) s.rle out →
    completes msg done s.rle out = some (c, E) →
    computeLoop msg fuel s done = some { s with rle := c, phase := .findingSeqLength } := by
  induction fuel with
  | zero => intro s done out h1 h2; omega
  | succ fuel ih =>
    intro s done out h1 h2 h3 h4 h5
    unfold computeLoop
    rw [if_neg (by omega), h3]
    generalize hk : min (msg.length - done) tempBufSize = k
    have hk0 : 0 < k := by simp only [tempBufSize] at hk; omega
    have hpl : ((msg.drop done).take k).length = k := by simp; omega
    have htl : (msg.take done).length = done := by simp; omega
    rw [memcpyOut_some (by omega), Option.bind_some]
    obtain ⟨c1, o1, e1, e2, e3⟩ := prepareLoop_eq ((msg.drop done).take k).length (msg.take done)
      ((msg.drop done).take k) s.rle out (by omega) h4 (by omega)
    rw [← List.take_add] at e3
    have hcomp := completes_step h5 e2
    have hcurr : c1.currOffset = done + k := by rw [e3.inv.curr]; simp; omega
    unfold hasMoreMsgsPrepare
    rw [e1, Option.bind_some, hcurr, h3]
    by_cases hlast : done + k = msg.length
    · rw [if_pos hlast]
      rw [hlast] at hcomp e3
      unfold completes at hcomp
      rw [List.drop_length] at hcomp
      simp only [runFrom, Option.bind_some] at hcomp
      cases hf : finalize c1 with
      | none => simp [hf] at hcomp
      | some c2 =>
        simp only [hf, Option.bind_some] at hcomp
        cases hc : collect msg c2.writeInfo o1 with
        | none => simp [hc] at hcomp
        | some o2 =>
          simp only [hc, Option.map_some, Option.some.injEq, Prod.mk.injEq] at hcomp
          obtain ⟨rfl, rfl⟩ := hcomp
          simp only [Option.map_some, Option.bind_some, hpl]
          cases fuel with
          | zero => simp [computeLoop, hlast, h3]
          | succ f => simp [computeLoop, hlast, h3]
    · rw [if_neg hlast, Option.bind_some, hpl]
      have := ih { s with rle := c1 } (done + k) o1 (by omega) (by omega) h3 e3 hcomp
      simp only [h3] at this
      exact this

/-- A freshly selected source: nothing announced yet, or announced and not yet read. -/
def Fresh (s : State) : Prop :=
  s.totalRleSize = 0 ∧ s.rle = Ctx.zero ∧ s.writeOffset = 0 ∧ s.bytesProcessed = 0 ∧
    s.currEncodedLen = 0

theorem fresh_zero : Fresh State.zero := ⟨rfl, rfl, rfl, rfl, rfl⟩

/-- Announcing a message makes it ready from its beginning. -/
theorem hasMoreMsgs_fresh {msg E : Bytes} {c : Ctx} (hd : msg.length < 2 ^ 31) (hne : msg ≠ [])
    (hc : completes msg 0 Ctx.zero [] = some (c, E)) (hcl : c.totalRleSize = E.length)
    {s : State} (h : Fresh s) :
    ∃ s', hasMoreMsgs (some msg) s = some (some E.length, s') ∧ Ready msg E s' 0 := by
  obtain ⟨h1, h2, h3, h4, h5⟩ := h
  have hlen : 0 < msg.length := by
    cases msg with
    | nil => exact absurd rfl hne
    | cons => simp
  have hloop := computeLoop_eq (E := E) (c := c) hd msg.length { s with originalSize := msg.length } 0 []
    hlen (by omega) rfl (by simp only [h2]; exact outInv_zero) (by simp only [h2]; exact hc)
  have hm : hasMoreMsgs (some msg) s = some (some E.length,
      { s with originalSize := msg.length, phase := .findingSeqLength,
               totalRleSize := c.totalRleSize, rle := Ctx.zero }) := by
    unfold hasMoreMsgs
    simp only [h1, ne_eq, not_true_eq_false, if_false]
    unfold computeRleSize
    simp only [h1] at hloop
    simp only [hloop, Option.map_some, hcl]
  refine ⟨_, hm, ⟨h5, rfl, hcl, by omega, ⟨fun _ => ⟨h3, rfl⟩, fun hx => by cases hx⟩,
    Or.inr ⟨by simp [h4], [], c, ?_, ?_, ?_⟩⟩⟩
  · simp only [h4]; exact outInv_zero
  · simp only [h4]; exact hc
  · rfl

/-- Announcing it again changes nothing. -/
theorem hasMoreMsgs_again {msg E : Bytes} {s : State} {off : Nat} (h : Ready msg E s off)
    (hE : E ≠ []) : hasMoreMsgs (some msg) s = some (some E.length, s) := by
  have : s.totalRleSize ≠ 0 := by
    rw [h.total]; intro hx; exact hE (List.length_eq_zero_iff.mp hx)
  unfold hasMoreMsgs
  have ho := h.orig
  obtain ⟨a, b, c, d, e, f, g⟩ := s
  simp only at ho this
  subst ho
  simp only [if_pos this, h.total]
  have ht := h.total
  simp only at ht
  rw [ht]

end Mflt.DataSourceRle
