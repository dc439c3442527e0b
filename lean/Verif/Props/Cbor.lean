import Verif.Lemmas.Cbor

/-! # C09, C10: the CBOR encoder -/

namespace Mflt.Props

open Cbor Spec.Cbor

/-- What a client can ask the encoder to write: a tree of values. Strings may be written in one
call or announced and then joined in parts. A map is given as alternating keys and values. -/
inductive CborVal
  | u32 (v : BitVec 32)
  | i32 (v : BitVec 32)
  | i64 (v : BitVec 64)
  | double (bits : BitVec 64)
  | bytes (b : Bytes)
  | byteParts (ps : List Bytes)
  | text (s : Bytes)
  | textParts (ps : List Bytes)
  | null
  | array (l : List CborVal)
  | map (kvs : List CborVal)

mutual
/-- The calls a client makes to write a value. -/
def CborVal.calls : CborVal → List Call
  | .u32 v => [.unsigned v]
  | .i32 v => [.signed v]
  | .i64 v => [.longSigned v]
  | .double v => [.double v]
  | .bytes b => [.byteString b]
  | .byteParts ps => .byteStringBegin ps.flatten.length :: ps.map .join
  | .text s => [.string s]
  | .textParts ps => .stringBegin ps.flatten.length :: ps.map .join
  | .null => [.null]
  | .array l => .arrayBegin l.length :: CborVal.callsList l
  | .map l => .dictionaryBegin (l.length / 2) :: CborVal.callsList l
/-- The calls a client makes to write several values. -/
def CborVal.callsList : List CborVal → List Call
  | [] => []
  | v :: vs => v.calls ++ CborVal.callsList vs
end

mutual
/-- The data item a value stands for. -/
def CborVal.item : CborVal → Item
  | .u32 v => .uint v.toNat
  | .i32 v => .int v.toInt
  | .i64 v => .int v.toInt
  | .double v => .float64 v.toNat
  | .bytes b => .bytes b
  | .byteParts ps => .bytes ps.flatten
  | .text s => .text s
  | .textParts ps => .text ps.flatten
  | .null => .null
  | .array l => .array (CborVal.items l)
  | .map l => .map (CborVal.items l)
/-- The data items several values stand for. -/
def CborVal.items : List CborVal → List Item
  | [] => []
  | v :: vs => v.item :: CborVal.items vs
end

mutual
/-- Sizes fit the 32-bit interface, C strings contain no NUL, maps have a value for every key. -/
def CborVal.ok : CborVal → Prop
  | .bytes b => b.length < 2 ^ 32
  | .byteParts ps => ps.flatten.length < 2 ^ 32
  | .text s => s.length < 2 ^ 32 ∧ 0 ∉ s
  | .textParts ps => ps.flatten.length < 2 ^ 32
  | .array l => l.length < 2 ^ 32 ∧ CborVal.okList l
  | .map l => l.length < 2 ^ 32 ∧ l.length % 2 = 0 ∧ CborVal.okList l
  | _ => True
/-- `ok` for every value of a list. -/
def CborVal.okList : List CborVal → Prop
  | [] => True
  | v :: vs => v.ok ∧ CborVal.okList vs
end

theorem emitAll_append (a b : List Call) : emitAll (a ++ b) = emitAll a ++ emitAll b := by
  simp [emitAll]

theorem emitAll_cons (c : Call) (cs : List Call) : emitAll (c :: cs) = emit c ++ emitAll cs := by
  simp [emitAll]

theorem emitAll_joins (ps : List Bytes) : emitAll (ps.map .join) = ps.flatten := by
  induction ps with
  | nil => rfl
  | cons p ps ih => rw [List.map_cons, emitAll_cons, ih]; simp [emit, pieces]

theorem cstr_of_no_nul {s : Bytes} (h : 0 ∉ s) : cstr s = s := by
  unfold cstr
  induction s with
  | nil => rfl
  | cons a s ih =>
    simp only [List.mem_cons, not_or] at h
    rw [List.takeWhile_cons_of_pos (by simpa using Ne.symm h.1), ih h.2]

theorem headBytes_pos (m : Nat) (v : BitVec 32) : 0 < (headBytes m v).length :=
  List.length_pos_iff.mpr (headBytes_ne_nil m v)

theorem ofNat32_toNat {n : Nat} (h : n < 2 ^ 32) : (BitVec.ofNat 32 n).toNat = n := by
  simp [BitVec.toNat_ofNat, Nat.mod_eq_of_lt h]

theorem signed_pieces (v : BitVec 32) :
    emit (.signed v) = headBytes (if v.toInt < 0 then 1 else 0)
      (BitVec.ofNat 32 (if v.toInt < 0 then (-1 - v.toInt).toNat else v.toInt.toNat)) := by
  obtain ⟨h1, h2, -⟩ := sign_split (show 0 < 32 by decide) v
  simp only [Nat.reduceSub] at h1 h2
  simp only [emit, pieces, List.flatten_cons, List.flatten_nil, List.append_nil]
  rw [h1, ← h2]; simp

/-- Reading the bytes emitted for a list of values gives the items, whatever follows. -/
theorem decodeSeq_emit_aux (N : Nat) : ∀ (vs : List CborVal) (fuel : Nat) (rest : Bytes),
    sizeOf vs < N → CborVal.okList vs → (emitAll (CborVal.callsList vs)).length < fuel →
    decodeSeq fuel vs.length (emitAll (CborVal.callsList vs) ++ rest) =
      some (CborVal.items vs, rest) := by
  induction N with
  | zero => intro vs fuel rest h; omega
  | succ N IH =>
  intro vs fuel rest hN hok hf
  match vs, hN with
  | [], hN =>
    obtain ⟨f, rfl⟩ : ∃ f, fuel = f + 1 := ⟨fuel - 1, by omega⟩
    simp [CborVal.callsList, emitAll, decodeSeq, CborVal.items]
  | v :: vs, hN =>
    obtain ⟨f, rfl⟩ : ∃ f, fuel = f + 1 := ⟨fuel - 1, by omega⟩
    rw [CborVal.okList] at hok
    rw [CborVal.callsList, emitAll_append, List.length_append] at hf
    rw [CborVal.callsList, emitAll_append, List.append_assoc, List.length_cons, CborVal.items]
    have tail : (emitAll v.calls).length > 0 →
        decodeSeq f vs.length (emitAll (CborVal.callsList vs) ++ rest) =
        some (CborVal.items vs, rest) := fun hpos =>
      IH vs f rest (by simp at hN; omega) hok.2 (by omega)
    have simple : ∀ (m info arg : Nat) (it : Item), (emitAll v.calls).length > 0 →
        head (emitAll v.calls ++ (emitAll (CborVal.callsList vs) ++ rest)) =
          some (m, info, arg, emitAll (CborVal.callsList vs) ++ rest) →
        (m = 0 ∧ it = .uint arg ∨ m = 1 ∧ it = .negint arg ∨
          m = 7 ∧ info < 24 ∧ it = .simple info ∨ m = 7 ∧ info = 27 ∧ it = .float64 arg) →
        decodeSeq (f + 1) (vs.length + 1) (emitAll v.calls ++
          (emitAll (CborVal.callsList vs) ++ rest)) = some (it :: CborVal.items vs, rest) := by
      intro m info arg it hpos hh hc
      rw [decodeSeq, hh]
      rcases hc with ⟨rfl, rfl⟩ | ⟨rfl, rfl⟩ | ⟨rfl, h, rfl⟩ | ⟨rfl, rfl, rfl⟩
      · simp [tail hpos]
      · simp [tail hpos]
      · simp [tail hpos, h]
      · simp [tail hpos]
    have str : ∀ (m : Nat) (b : Bytes), (m = 2 ∨ m = 3) → b.length < 2 ^ 32 →
        emitAll v.calls = headBytes m (BitVec.ofNat 32 b.length) ++ b →
        decodeSeq (f + 1) (vs.length + 1) (emitAll v.calls ++
          (emitAll (CborVal.callsList vs) ++ rest)) =
          some ((if m = 2 then Item.bytes b else Item.text b) :: CborVal.items vs, rest) := by
      intro m b hm hlt he
      have hpos : (emitAll v.calls).length > 0 := by
        rw [he, List.length_append]; have := headBytes_pos m (BitVec.ofNat 32 b.length); omega
      have htail := tail hpos
      rw [decodeSeq, he, List.append_assoc, head_headBytes m (by omega), ofNat32_toNat hlt]
      rcases hm with rfl | rfl
      · simp [splitBytes_append rfl, htail]
      · simp [splitBytes_append rfl, htail]
    match v, hN, hok, hf, tail, simple, str with
    | .u32 v, hN, hok, hf, tail, simple, str =>
      have he : emitAll (CborVal.u32 v).calls = headBytes 0 v := by
        simp [CborVal.calls, emitAll, emit, pieces]
      exact simple 0 _ v.toNat _ (by rw [he]; exact headBytes_pos _ _)
        (by rw [he]; exact head_headBytes 0 (by decide) v _) (by simp [CborVal.item])
    | .i32 v, hN, hok, hf, tail, simple, str =>
      have he : emitAll (CborVal.i32 v).calls = emit (.signed v) := by
        simp [CborVal.calls, emitAll]
      rw [signed_pieces] at he
      have h1 := v.toInt_lt
      have h2 := v.le_toInt
      refine simple _ _ _ _ (by rw [he]; exact headBytes_pos _ _)
        (by rw [he]; exact head_headBytes _ (by split <;> decide) _ _) ?_
      rw [ofNat32_toNat (by split <;> omega)]
      simp only [CborVal.item, Item.int]
      by_cases hn : v.toInt < 0
      · simp [hn, show ¬ 0 ≤ v.toInt by omega]
      · simp [hn, show 0 ≤ v.toInt by omega]
    | .i64 v, hN, hok, hf, tail, simple, str =>
      obtain ⟨h1, h2, h3⟩ := sign_split (show 0 < 64 by decide) v
      simp only [Nat.reduceSub] at h1 h2 h3
      have h4 := v.toInt_lt
      have h5 := v.le_toInt
      have hint : (v.sshiftRight 63 ^^^ v).toInt = (v.sshiftRight 63 ^^^ v).toNat := by
        rw [BitVec.toInt_eq_msb_cond, h3]; simp
      have he : emitAll (CborVal.i64 v).calls = emit (.longSigned v) := by
        simp [CborVal.calls, emitAll]
      have hit : ∀ arg, arg = (v.sshiftRight 63 ^^^ v).toNat → ∀ m, m = (if v.toInt < 0 then 1 else 0) →
          (m = 0 ∧ (CborVal.i64 v).item = Item.uint arg ∨
            m = 1 ∧ (CborVal.i64 v).item = Item.negint arg) := by
        rintro arg rfl m rfl
        rw [h2]
        simp only [CborVal.item, Item.int]
        by_cases hn : v.toInt < 0
        · simp [hn, show ¬ 0 ≤ v.toInt by omega]
        · simp [hn, show 0 ≤ v.toInt by omega]
      have hm : (v.sshiftRight 63 &&& 1#64).toNat < 8 := by rw [h1]; split <;> omega
      by_cases hs : (v.sshiftRight 63 ^^^ v).toInt ≤ 0xFFFFFFFF
      · have hw : ((v.sshiftRight 63 ^^^ v).setWidth 32).toNat = (v.sshiftRight 63 ^^^ v).toNat := by
          rw [BitVec.toNat_setWidth, Nat.mod_eq_of_lt]; omega
        have hem : emit (.longSigned v) = headBytes (v.sshiftRight 63 &&& 1#64).toNat
            ((v.sshiftRight 63 ^^^ v).setWidth 32) := by
          simp only [emit, pieces, hs, if_true]; simp
        rw [hem] at he
        refine simple _ _ _ _ (by rw [he]; exact headBytes_pos _ _)
          (by rw [he]; exact head_headBytes _ hm _ _) ?_
        rcases hit _ hw _ h1 with h | h
        · exact .inl h
        · exact .inr (.inl h)
      · have hem : emit (.longSigned v) = UInt8.ofNat (majorBits (v.sshiftRight 63 &&& 1#64).toNat ||| 27) ::
            uint64Bytes (v.sshiftRight 63 ^^^ v) := by
          simp only [emit, pieces, hs, if_false]; simp
        rw [hem] at he
        refine simple _ _ _ _ (by rw [he]; simp)
          (by rw [he]; exact head_uint64 _ hm _ _) ?_
        rcases hit _ rfl _ h1 with h | h
        · exact .inl h
        · exact .inr (.inl h)
    | .double v, hN, hok, hf, tail, simple, str =>
      have he : emitAll (CborVal.double v).calls =
          UInt8.ofNat (majorBits 7 ||| 27) :: uint64Bytes v := by
        simp [CborVal.calls, emitAll, emit, pieces]
      exact simple 7 27 v.toNat _ (by rw [he]; simp)
        (by rw [he]; exact head_uint64 7 (by decide) v _) (by simp [CborVal.item])
    | .null, hN, hok, hf, tail, simple, str =>
      have he : emitAll CborVal.null.calls = [0xf6] := by
        simp [CborVal.calls, emitAll, emit, pieces]; decide
      exact simple 7 22 22 _ (by rw [he]; decide)
        (by rw [he]; rfl) (by simp [CborVal.item, Item.null])
    | .bytes b, hN, hok, hf, tail, simple, str =>
      rw [CborVal.ok] at hok
      have := str 2 b (.inl rfl) hok.1 (by simp [CborVal.calls, emitAll, emit, pieces])
      simpa [CborVal.item] using this
    | .byteParts ps, hN, hok, hf, tail, simple, str =>
      rw [CborVal.ok] at hok
      have := str 2 ps.flatten (.inl rfl) hok.1 (by
        rw [CborVal.calls, emitAll_cons, emitAll_joins]; simp [emit, pieces])
      simpa [CborVal.item] using this
    | .text s, hN, hok, hf, tail, simple, str =>
      rw [CborVal.ok] at hok
      have := str 3 s (.inr rfl) hok.1.1 (by
        simp [CborVal.calls, emitAll, emit, pieces, cstr_of_no_nul hok.1.2])
      simpa [CborVal.item] using this
    | .textParts ps, hN, hok, hf, tail, simple, str =>
      rw [CborVal.ok] at hok
      have := str 3 ps.flatten (.inr rfl) hok.1 (by
        rw [CborVal.calls, emitAll_cons, emitAll_joins]; simp [emit, pieces])
      simpa [CborVal.item] using this
    | .array l, hN, hok, hf, tail, simple, str =>
      rw [CborVal.ok] at hok
      have he : emitAll (CborVal.array l).calls =
          headBytes 4 (BitVec.ofNat 32 l.length) ++ emitAll (CborVal.callsList l) := by
        rw [CborVal.calls, emitAll_cons]; simp [emit, pieces]
      have hp := headBytes_pos 4 (BitVec.ofNat 32 l.length)
      rw [he, List.length_append] at hf
      have htail := tail (by rw [he, List.length_append]; omega)
      have inner := IH l f (emitAll (CborVal.callsList vs) ++ rest) (by simp at hN; omega) hok.1.2 (by omega)
      rw [decodeSeq, he, List.append_assoc, head_headBytes 4 (by decide), ofNat32_toNat hok.1.1]
      simp [inner, htail, CborVal.item]
    | .map l, hN, hok, hf, tail, simple, str =>
      rw [CborVal.ok] at hok
      have he : emitAll (CborVal.map l).calls =
          headBytes 5 (BitVec.ofNat 32 (l.length / 2)) ++ emitAll (CborVal.callsList l) := by
        rw [CborVal.calls, emitAll_cons]; simp [emit, pieces]
      have hp := headBytes_pos 5 (BitVec.ofNat 32 (l.length / 2))
      rw [he, List.length_append] at hf
      have htail := tail (by rw [he, List.length_append]; omega)
      have inner := IH l f (emitAll (CborVal.callsList vs) ++ rest) (by simp at hN; omega) hok.1.2.2 (by omega)
      rw [decodeSeq, he, List.append_assoc, head_headBytes 5 (by decide),
        ofNat32_toNat (by omega)]
      have h2 : 2 * (l.length / 2) = l.length := by omega
      simp [inner, htail, CborVal.item, h2]

/-- Reading the bytes emitted for a list of values gives the items, whatever follows. -/
theorem decodeSeq_emit (vs : List CborVal) (fuel : Nat) (rest : Bytes) (hok : CborVal.okList vs)
    (hf : (emitAll (CborVal.callsList vs)).length < fuel) :
    decodeSeq fuel vs.length (emitAll (CborVal.callsList vs) ++ rest) =
      some (CborVal.items vs, rest) :=
  decodeSeq_emit_aux (sizeOf vs + 1) vs fuel rest (by omega) hok hf

/-- A sink that appends what it is given. -/
def record (acc : Bytes) (_offset : Nat) (data : Bytes) : Bytes := acc ++ data

theorem feedWrites_record (ws : List Bytes) (off : Nat) (acc : Bytes) :
    feedWrites record off ws acc = acc ++ ws.flatten := by
  induction ws generalizing off acc with
  | nil => simp [feedWrites]
  | cons p ps ih => simp [feedWrites, ih, record]

/-- **C10.** For every sequence of encode calls there is one list of non-empty pieces, the full
encoding, such that
* a size-only pass succeeds and reports its total length, without touching its context;
* whatever the capacity and the sink, a pass that stops at the first failure hands the sink a
  prefix of the pieces at consecutive offsets starting from 0, reports exactly their total, which
  never exceeds the capacity, and succeeds exactly when the full encoding fits, in which case the
  sink got all of it. -/
theorem C10_cbor_bounds (cs : List Call) :
    ∃ full : List Bytes, (∀ p ∈ full, p ≠ []) ∧
      (∀ (σ : Type) (ctx : σ), callAll (Encoder.initSizeOnly ctx) cs =
        (true, { Encoder.initSizeOnly ctx with encodedSize := full.flatten.length })) ∧
      (∀ (σ : Type) (cb : σ → Nat → Bytes → σ) (ctx : σ) (bufLen : Nat),
        ∃ ws, ws <+: full ∧
          (callAll (Encoder.init cb ctx bufLen) cs).2.ctx = feedWrites cb 0 ws ctx ∧
          (callAll (Encoder.init cb ctx bufLen) cs).2.encodedSize = ws.flatten.length ∧
          ws.flatten.length ≤ bufLen ∧
          ((callAll (Encoder.init cb ctx bufLen) cs).1 = true ↔ full.flatten.length ≤ bufLen) ∧
          ((callAll (Encoder.init cb ctx bufLen) cs).1 = true → ws = full)) := by
  have hne : ∀ p ∈ cs.flatMap pieces, p ≠ [] := by
    intro p hp
    obtain ⟨c, -, hc⟩ := List.mem_flatMap.mp hp
    exact pieces_ne_nil hc
  refine ⟨cs.flatMap pieces, hne, ?_, ?_⟩
  · intro σ ctx
    rw [callAll_eq_addAll, addAll_sizeOnly _ rfl]
    simp [Encoder.initSizeOnly]
  · intro σ cb ctx bufLen
    obtain ⟨ws, h1, h2, h3, h4, h5⟩ := addAll_bounded (Encoder.init cb ctx bufLen) cb rfl
      (by simp [Encoder.init]) (cs.flatMap pieces) hne
    rw [callAll_eq_addAll]
    refine ⟨ws, h1, by rw [h2]; rfl, by rw [h2]; simp [Encoder.init], by simpa [Encoder.init] using h3,
      by rw [h4]; simp [Encoder.init], h5⟩

theorem feedWrites_memcpy (ws : List Bytes) (off : Nat) (buf : Bytes)
    (h : off + ws.flatten.length ≤ buf.length) :
    feedWrites memcpyWrite off ws (some buf) =
      some (buf.take off ++ ws.flatten ++ buf.drop (off + ws.flatten.length)) := by
  induction ws generalizing off buf with
  | nil => simp [feedWrites]
  | cons p ps ih =>
    simp only [List.flatten_cons, List.length_append] at h
    have hm : memcpyWrite (some buf) off p =
        some (buf.take off ++ p ++ buf.drop (off + p.length)) := by
      simp [memcpyWrite, memcpyIn, show off + p.length ≤ buf.length by omega]
    have hlen : (buf.take off ++ p).length = off + p.length := by simp; omega
    rw [feedWrites, hm, ih _ _ (by simp only [List.length_append, List.length_take, List.length_drop]; omega), List.take_append_of_le_length (by omega),
      List.take_of_length_le (by omega), ← List.drop_drop,
      List.drop_append_of_le_length (Nat.le_of_eq hlen.symm), List.drop_eq_nil_of_le (Nat.le_of_eq hlen)]
    simp [List.drop_drop, Nat.add_assoc]

/-- **C10 (plain buffers).** With the library's `memcpy` sink and a buffer at least as long as the
announced capacity, no sequence of calls writes outside the buffer, and the bytes after the
reported size are untouched. -/
theorem C10_cbor_memcpy_in_bounds (cs : List Call) (buf : Bytes) (bufLen : Nat)
    (h : bufLen ≤ buf.length) :
    ∃ out : Bytes, out.length ≤ bufLen ∧
      (callAll (Encoder.init memcpyWrite (some buf) bufLen) cs).2.encodedSize = out.length ∧
      (callAll (Encoder.init memcpyWrite (some buf) bufLen) cs).2.ctx =
        some (out ++ buf.drop out.length) := by
  obtain ⟨full, -, -, h3⟩ := C10_cbor_bounds cs
  obtain ⟨ws, -, h4, h5, h6, -⟩ := h3 _ memcpyWrite (some buf) bufLen
  refine ⟨ws.flatten, h6, h5, ?_⟩
  rw [h4, feedWrites_memcpy _ _ _ (by omega)]
  simp

/-- **C09.** For every tree of values within the interface's limits: if the calls that write it
succeed, the bytes they produced are one CBOR data item, which an independent reader decodes to
exactly that tree. And they do succeed when the capacity is at least the size-only result. -/
theorem C09_cbor_decodes (v : CborVal) (hok : v.ok) (bufLen : Nat) :
    ((callAll (Encoder.init record [] bufLen) v.calls).1 = true →
      decode (callAll (Encoder.init record [] bufLen) v.calls).2.ctx = some v.item) ∧
    ((callAll (Encoder.init record [] bufLen) v.calls).1 = true ↔
      (callAll (Encoder.initSizeOnly ()) v.calls).2.encodedSize ≤ bufLen) := by
  have hne : ∀ p ∈ v.calls.flatMap pieces, p ≠ [] := by
    intro p hp
    obtain ⟨c, -, hc⟩ := List.mem_flatMap.mp hp
    exact pieces_ne_nil hc
  obtain ⟨ws, h1, h2, h3, h4, h5⟩ := addAll_bounded (Encoder.init record [] bufLen) record rfl
    (by simp [Encoder.init]) (v.calls.flatMap pieces) hne
  constructor
  · intro ht
    rw [callAll_eq_addAll] at ht ⊢
    rw [h2, h5 ht]
    simp only [Encoder.init, feedWrites_record, List.nil_append, ← emitAll_eq]
    have := decodeSeq_emit [v] ((emitAll v.calls).length + 1) [] (by simp [CborVal.okList, hok])
      (by simp [CborVal.callsList])
    simp only [CborVal.callsList, List.append_nil, List.length_singleton, CborVal.items] at this
    unfold decode
    rw [this]
  · rw [callAll_eq_addAll, callAll_eq_addAll, h4, addAll_sizeOnly _ rfl]
    simp [Encoder.init, Encoder.initSizeOnly]

/-- **C09 (sequences).** The bytes emitted for several values in a row are read back as exactly
those items, whatever bytes follow. -/
theorem C09_cbor_sequence (vs : List CborVal) (hok : CborVal.okList vs) (bufLen : Nat)
    (ht : (callAll (Encoder.init record [] bufLen) (CborVal.callsList vs)).1 = true)
    (rest : Bytes) :
    ∃ fuel, decodeSeq fuel vs.length
      ((callAll (Encoder.init record [] bufLen) (CborVal.callsList vs)).2.ctx ++ rest) =
        some (CborVal.items vs, rest) := by
  have hne : ∀ p ∈ (CborVal.callsList vs).flatMap pieces, p ≠ [] := by
    intro p hp
    obtain ⟨c, -, hc⟩ := List.mem_flatMap.mp hp
    exact pieces_ne_nil hc
  obtain ⟨ws, h1, h2, h3, h4, h5⟩ := addAll_bounded (Encoder.init record [] bufLen) record rfl
    (by simp [Encoder.init]) ((CborVal.callsList vs).flatMap pieces) hne
  rw [callAll_eq_addAll] at ht ⊢
  rw [h2, h5 ht]
  simp only [Encoder.init, feedWrites_record, List.nil_append, ← emitAll_eq]
  exact ⟨_, decodeSeq_emit vs _ rest hok (Nat.lt_succ_self _)⟩

/-- **C09 (shortest form).** The head of an item takes 1, 2, 3 or 5 bytes, the least number that
can hold its argument. -/
theorem C09_cbor_shortest (v : BitVec 32) :
    (callAll (Encoder.initSizeOnly ()) [.unsigned v]).2.encodedSize =
      if v.toNat < 24 then 1 else if v.toNat < 256 then 2 else if v.toNat < 65536 then 3 else 5 := by
  rw [callAll_eq_addAll, addAll_sizeOnly _ rfl]
  simp only [Encoder.initSizeOnly, Nat.zero_add, List.flatMap_cons, List.flatMap_nil, pieces,
    List.append_nil, List.flatten_cons, List.flatten_nil]
  unfold headBytes
  simp only
  by_cases h1 : v.toNat < 24
  · simp [h1]
  · by_cases h2 : v.toNat ≤ 0xff
    · simp [h1, h2, show v.toNat < 256 by omega]
    · by_cases h3 : v.toNat ≤ 0xffff
      · simp [h1, h2, h3, show ¬ v.toNat < 256 by omega, show v.toNat < 65536 by omega]
      · simp [h1, h2, h3, show ¬ v.toNat < 256 by omega, show ¬ v.toNat < 65536 by omega]

/-- A map with a negative number, a long number, text in parts and a nested array. -/
def exampleVal : CborVal := .map [.u32 500, .i32 (BitVec.ofInt 32 (-70000)), .u32 10,
  .array [.i64 (BitVec.ofInt 64 (-5000000000)), .textParts [[104, 105], [], [33]], .null,
    .bytes [0, 1]]]

example : exampleVal.ok := by
  simp [exampleVal, CborVal.ok, CborVal.okList]

example : (callAll (Encoder.init record [] 100) exampleVal.calls).1 = true ∧
    (decode (callAll (Encoder.init record [] 100) exampleVal.calls).2.ctx).isSome = true ∧
    (callAll (Encoder.init record [] 20) exampleVal.calls).1 = false ∧
    (callAll (Encoder.init record [] 20) exampleVal.calls).2.ctx.length = 20 := by
  decide +kernel

end Mflt.Props
