import Verif.Lemmas.LogStep
import Verif.Lemmas.CborPush

/-! # Lemmas for uploading the log -/

namespace Mflt.Log

open Spec.Log (Line Entry total lineSize)
open Cbor (Encoder Call callAll emitAll push Room piecesAll push_append)

variable {σ : Type}

/-- The contiguous parts in which bytes at an offset in a ring are delivered. -/
def partsOf (ro cap off : Nat) (b : Bytes) : List Bytes :=
  let room := cap - (ro + off) % cap
  if b.length = 0 then [] else if b.length ≤ room then [b] else [b.take room, b.drop room]

theorem Ring.pieces_body {cb : CircBuf} {ro cap : Nat} {pre post : List Entry} {e : Entry}
    (h : Ring cb ro cap (pre ++ e :: post)) :
    cb.pieces (total pre + 2) (body e.line).length = partsOf ro cap (total pre + 2) (body e.line) ∧
    total pre + 2 + (body e.line).length ≤ cb.readSize := by
  have hr := h.readSize
  have hb : (cb.contents.drop (total pre + 2)).take (body e.line).length = body e.line := by
    rw [h.contents, encAll_append, ← List.drop_drop, List.drop_left' (encAll_length pre), encAll_cons, enc]
    simp
  constructor
  · unfold CircBuf.pieces partsOf
    simp only [hb, h.cap, h.ro]
  · rw [hr, total_append, total_cons, lineSize_eq]; omega

/-- The calls for one contiguous part of a message. -/
def partCalls (cfg : Config) (l : Line) (p : Bytes) : List Call :=
  let text := if cfg.timestamps && l.timestamp.isSome then p.drop 4 else p
  (if cfg.timestamps then [SerializerHelper.u32 (if l.timestamp.isSome then ofLe32 p else 0)] else []) ++
  [SerializerHelper.u32 l.level] ++
  (if l.type = 0 then [.stringBegin text.length, .join text] else [.byteString text])

/-- A part that is too short for the time it should start with. -/
def short (cfg : Config) (l : Line) (p : Bytes) : Bool :=
  cfg.timestamps && l.timestamp.isSome && decide (p.length < 4)

/-- The calls for the parts of a message. -/
def entryCalls (cfg : Config) (l : Line) : List Bytes → List Call
  | [] => []
  | p :: ps => if short cfg l p then [] else partCalls cfg l p ++ entryCalls cfg l ps

/-- The calls for the first `n` unsent entries of a list that starts at `off`. -/
def collect (cfg : Config) (ro cap : Nat) : Nat → Nat → List Entry → List Call
  | _, 0, _ => []
  | _, _, [] => []
  | off, n + 1, e :: es =>
    if e.sent then collect cfg ro cap (off + lineSize e.line) (n + 1) es
    else entryCalls cfg e.line (partsOf ro cap (off + 2) (body e.line)) ++
      collect cfg ro cap (off + lineSize e.line) n es

/-- The calls before the entries. -/
def headCalls (cfg : Config) (dev : SerializerHelper.Device) (t : Trigger) : List Call :=
  .dictionaryBegin (SerializerHelper.topLevelPairs dev t.time) ::
  SerializerHelper.metadataCalls dev (if cfg.timestamps then 6 else 4) t.time ++
  [SerializerHelper.u32 4, .arrayBegin ((if cfg.timestamps then 3 else 2) * t.numLogs)]

/-- All calls for an upload. -/
def uploadCalls (cfg : Config) (dev : SerializerHelper.Device) (t : Trigger) (ro cap : Nat)
    (es : List Entry) : List Call :=
  headCalls cfg dev t ++ collect cfg ro cap 0 t.numLogs es

theorem serializeMsg_eq {cfg : Config} {e : Entry} (h : LineOk cfg e.line) (c : EncCtx σ) (off : Nat)
    (p : Bytes) :
    serializeMsg cfg (hdrOf e) c off p =
      if short cfg e.line p then (c, false)
      else ({ c with encoder := (callAll c.encoder (partCalls cfg e.line p)).2 },
        (callAll c.encoder (partCalls cfg e.line p)).1) := by
  obtain ⟨h1, h2, h3, -⟩ := hdr_facts h
  unfold serializeMsg short partCalls
  rw [h1, h2, h3]

/-- The effect of `encodeCallback`. -/
def encEffect (cfg : Config) (stop : σ → Bool) (n ro cap : Nat) (c : EncCtx σ) (off : Nat) (e : Entry) :
    Bool × EncCtx σ × Entry :=
  if stop c.encoder.ctx then (false, c, e)
  else if !e.sent then
    let r := CircBuf.feed (serializeMsg cfg (hdrOf e)) 0 (partsOf ro cap (off + 2) (body e.line)) c
    (decide (r.2.encoded + 1 ≠ n),
      { r.2 with error := r.2.error || !r.1, encoded := r.2.encoded + 1 }, e)
  else (true, c, e)

theorem encodeCallback_eq {cfg : Config} (hc : ConfigOk cfg) (stop : σ → Bool) (n : Nat) {ro cap : Nat}
    (cb : CircBuf) (pre : List Entry) (e : Entry) (post : List Entry) (ctx : EncCtx σ)
    (hr : Ring cb ro cap (pre ++ e :: post)) (hok : LineOk cfg e.line) :
    ∃ w, encodeCallback cfg stop n ⟨cb, ⟨total pre, hdrOf e, UInt8.ofNat (body e.line).length⟩, ctx⟩ =
        some ((encEffect cfg stop n ro cap ctx (total pre) e).1, w) ∧
      Ring w.cb ro cap (pre ++ (encEffect cfg stop n ro cap ctx (total pre) e).2.2 :: post) ∧
      w.iter.readOffset = total pre ∧ w.iter.len = UInt8.ofNat (body e.line).length ∧
      w.ctx = (encEffect cfg stop n ro cap ctx (total pre) e).2.1 := by
  have hs := (hdr_facts hok).2.2.2.1
  obtain ⟨p1, p2⟩ := hr.pieces_body
  unfold encodeCallback encEffect
  simp only [hs, len_toNat hc.max hok]
  by_cases hst : stop ctx.encoder.ctx = true
  · simp only [hst, if_true]
    exact ⟨_, rfl, hr, rfl, rfl, rfl⟩
  · simp only [hst]
    cases hsent : e.sent with
    | true => exact ⟨_, rfl, hr, rfl, rfl, rfl⟩
    | false =>
      simp only [Bool.not_false, if_true]
      rw [CircBuf.readWithCallback_eq hr.inv, if_pos p2, p1]
      exact ⟨_, rfl, hr, rfl, rfl, rfl⟩

theorem feed_parts {cfg : Config} {e : Entry} (h : LineOk cfg e.line) (ps : List Bytes) :
    ∀ (off : Nat) (c : EncCtx σ), Room c.encoder (emitAll (entryCalls cfg e.line ps)).length →
    (CircBuf.feed (serializeMsg cfg (hdrOf e)) off ps c).2 =
      { c with encoder := push c.encoder (piecesAll (entryCalls cfg e.line ps)) } := by
  induction ps with
  | nil => intro off c _; simp [CircBuf.feed, entryCalls, piecesAll, Cbor.push_nil]
  | cons p ps ih =>
    intro off c hroom
    simp only [CircBuf.feed, entryCalls] at hroom ⊢
    rw [serializeMsg_eq h]
    cases hsh : short cfg e.line p with
    | true => simp [piecesAll, Cbor.push_nil]
    | false =>
      simp only [hsh, Bool.false_eq_true, if_false] at hroom ⊢
      have hem : emitAll (partCalls cfg e.line p ++ entryCalls cfg e.line ps) =
          emitAll (partCalls cfg e.line p) ++ emitAll (entryCalls cfg e.line ps) := by simp [emitAll]
      rw [hem, List.length_append] at hroom
      rw [Cbor.callAll_push _ _ (hroom.mono (by omega))]
      simp only
      rw [ih _ _ (by
        rw [← Cbor.piecesAll_flatten] at hroom
        exact hroom.push _)]
      rw [Cbor.piecesAll_append, push_append]

theorem visit_enc {cfg : Config} (stop : σ → Bool) (n ro cap : Nat) (es : List Entry) :
    ∀ (off : Nat) (c : EncCtx σ), (∀ e ∈ es, LineOk cfg e.line) → c.encoded < n →
    Room c.encoder (emitAll (collect cfg ro cap off (n - c.encoded) es)).length →
    ∃ ws rest, piecesAll (collect cfg ro cap off (n - c.encoded) es) = ws ++ rest ∧
      (visit (encEffect cfg stop n ro cap) off c es).1.encoder = push c.encoder ws ∧
      (rest = [] ∨ stop (push c.encoder ws).ctx = true) := by
  induction es with
  | nil =>
    intro off c _ hlt _
    obtain ⟨k, hk⟩ : ∃ k, n - c.encoded = k + 1 := ⟨n - c.encoded - 1, by omega⟩
    rw [hk]
    exact ⟨[], [], rfl, by simp [visit, Cbor.push_nil], .inl rfl⟩
  | cons e es ih =>
    intro off c hok hlt hroom
    have hok' : ∀ x ∈ es, LineOk cfg x.line := fun x hx => hok x (by simp [hx])
    obtain ⟨k, hk⟩ : ∃ k, n - c.encoded = k + 1 := ⟨n - c.encoded - 1, by omega⟩
    rw [hk] at hroom ⊢
    by_cases hst : stop c.encoder.ctx = true
    · refine ⟨[], _, rfl, ?_, .inr (by rw [Cbor.push_nil]; exact hst)⟩
      simp [visit, encEffect, hst, Cbor.push_nil]
    · obtain ⟨l, rd, snt⟩ := e
      cases snt with
      | true =>
        simp only [collect, if_true] at hroom ⊢
        simp only [visit, encEffect, hst, Bool.not_true, Bool.false_eq_true, if_false, if_true]
        have := ih (off + lineSize l) c hok' hlt (by rw [hk]; exact hroom)
        rw [hk] at this
        exact this
      | false =>
        simp only [collect, Bool.false_eq_true, if_false] at hroom ⊢
        have hem : ∀ a b, emitAll (a ++ b) = emitAll a ++ emitAll b := by intro a b; simp [emitAll]
        rw [hem, List.length_append] at hroom
        have hf := feed_parts (hok ⟨l, rd, false⟩ (by simp)) (partsOf ro cap (off + 2) (body l)) 0 c
          (hroom.mono (Nat.le_add_right _ _))
        simp only at hf
        simp only [visit, encEffect, hst, Bool.not_false, if_true, Bool.false_eq_true, if_false, hf]
        have hroom' := hroom
        rw [← Cbor.piecesAll_flatten] at hroom'
        have hr2 := hroom'.push
        by_cases hn : c.encoded + 1 = n
        · have hk0 : k = 0 := by omega
          subst hk0
          simp only [hn, ne_eq, not_true_eq_false, decide_false, Bool.false_eq_true, if_false]
          refine ⟨_, [], (List.append_nil _).symm, ?_, .inl rfl⟩
          simp [collect]
        · simp only [ne_eq, hn, not_false_eq_true, decide_true, if_true]
          have hk1 : n - (c.encoded + 1) = k := by omega
          have := ih (off + lineSize l)
            { encoder := push c.encoder (piecesAll (entryCalls cfg l (partsOf ro cap (off + 2) (body l))))
              error := c.error || !(CircBuf.feed (serializeMsg cfg (hdrOf ⟨l, rd, false⟩)) 0
                (partsOf ro cap (off + 2) (body l)) c).1
              encoded := c.encoded + 1 } hok' (by simp only; omega) (by simp only [hk1]; exact hr2)
          simp only [hk1] at this
          obtain ⟨ws, rest, a1, a2, a3⟩ := this
          refine ⟨piecesAll (entryCalls cfg l (partsOf ro cap (off + 2) (body l))) ++ ws, rest, ?_, ?_, ?_⟩
          · rw [Cbor.piecesAll_append, a1, List.append_assoc]
          · rw [push_append]; exact a2
          · rw [push_append]; exact a3

/-- What `prv_encode` hands to the encoder: all pieces of the upload, unless the sink asked to stop. -/
theorem encode_eq {cfg : Config} (hc : ConfigOk cfg) (dev : SerializerHelper.Device) (stop : σ → Bool)
    {s : State} {ro cap : Nat} {es : List Entry} (hcap : cap < 2 ^ 31 - 8)
    (hr : Ring s.cb ro cap es) (hok : ∀ e ∈ es, LineOk cfg e.line) (hn : 0 < s.trigger.numLogs)
    (e : Encoder σ) (hroom : Room e (emitAll (uploadCalls cfg dev s.trigger ro cap es)).length) :
    ∃ ws rest, piecesAll (uploadCalls cfg dev s.trigger ro cap es) = ws ++ rest ∧
      encode cfg dev stop s e = some (push e ws) ∧ (rest = [] ∨ stop (push e ws).ctx = true) := by
  have hem : ∀ a b, emitAll (a ++ b) = emitAll a ++ emitAll b := by intro a b; simp [emitAll]
  have hemc : ∀ a b, emitAll (a :: b) = Cbor.emit a ++ emitAll b := by intro a b; simp [emitAll]
  unfold encode SerializerHelper.encodeMetadata
  unfold uploadCalls headCalls at hroom ⊢
  generalize SerializerHelper.metadataCalls dev (if cfg.timestamps then 6 else 4) s.trigger.time = M
    at hroom ⊢
  generalize [SerializerHelper.u32 4, Call.arrayBegin ((if cfg.timestamps then 3 else 2) *
    s.trigger.numLogs)] = A at hroom ⊢
  generalize SerializerHelper.topLevelPairs dev s.trigger.time = d at hroom ⊢
  have hdict : ∀ x : Encoder σ, Cbor.encodeDictionaryBegin x d = Cbor.call x (.dictionaryBegin d) :=
    fun _ => rfl
  rw [hdict]
  generalize Call.dictionaryBegin d = D at hroom ⊢
  rw [hem, hem, hemc] at hroom
  simp only [List.length_append, Nat.add_assoc] at hroom
  rw [Cbor.call_push e D (hroom.mono (Nat.le_add_right _ _))]
  have hr1 := Room.push (ps := Cbor.pieces D) hroom
  simp only
  rw [Cbor.callAll_push _ M (hr1.mono (Nat.le_add_right _ _))]
  rw [← Cbor.piecesAll_flatten M] at hr1
  have hr2 := Room.push (ps := piecesAll M) hr1
  simp only
  rw [Cbor.callAll_push _ A (hr2.mono (Nat.le_add_right _ _))]
  rw [← Cbor.piecesAll_flatten A] at hr2
  have hr3 := Room.push (ps := piecesAll A) hr2
  simp only
  obtain ⟨e3, he3⟩ : ∃ e3, e3 = push (push (push e (Cbor.pieces D)) (piecesAll M)) (piecesAll A) :=
    ⟨_, rfl⟩
  rw [← he3] at hr3 ⊢
  obtain ⟨w, i1, i2, -, -⟩ := iterate_visit hcap hc.max
    (callback := encodeCallback cfg stop s.trigger.numLogs)
    (g := encEffect cfg stop s.trigger.numLogs ro cap)
    (fun c o e => by unfold encEffect; split; · rfl
                     · split <;> rfl)
    (fun cb pre e post ctx a b => encodeCallback_eq hc stop _ cb pre e post ctx a b)
    es (walkFuel s.cb) [] s.cb ⟨0, 0, 0⟩ ⟨e3, false, 0⟩ hr hok rfl
    (.inl (by
      have := length_le_total es
      unfold walkFuel; rw [hr.readSize]; omega))
  rw [i1, Option.map_some, i2]
  obtain ⟨ws, rest, v1, v2, v3⟩ := visit_enc stop s.trigger.numLogs ro cap es 0 ⟨e3, false, 0⟩ hok hn
    hr3
  refine ⟨Cbor.pieces D ++ (piecesAll M ++ (piecesAll A ++ ws)), rest, ?_, ?_, ?_⟩
  · rw [Cbor.piecesAll_append, Cbor.piecesAll_append, Cbor.piecesAll_cons]
    simp only [Nat.sub_zero] at v1
    rw [v1]; simp only [List.append_assoc]
  · rw [push_append, push_append, push_append, ← he3, ← v2]; rfl
  · rw [push_append, push_append, push_append, ← he3]; exact v3

/-! ## Windows -/

/-- The part of the bytes `t` that a window shows. -/
def window (t : Bytes) (off len : Nat) : Bytes := (t.drop off).take len

theorem window_append_past (t r : Bytes) {off len : Nat} (h : off + len ≤ t.length) :
    window (t ++ r) off len = window t off len := by
  unfold window
  rw [List.drop_append_of_le_length (by omega), List.take_append_of_le_length (by simp; omega)]

/-- The destination after the bytes `t` were written. -/
def destAfter (off : Nat) (buf t : Bytes) (stop : Bool) : Dest :=
  ⟨off, some (window t off buf.length ++ buf.drop (window t off buf.length).length), buf.length,
    (window t off buf.length).length, stop⟩

theorem destWrite_eq (off : Nat) (buf t p : Bytes) (stop : Bool) :
    destWrite (destAfter off buf t stop) t.length p =
      destAfter off buf (t ++ p) (stop || decide (off + buf.length < t.length)) := by
  unfold destAfter destWrite
  dsimp only
  by_cases h1 : t.length > off + buf.length
  · rw [if_pos h1, window_append_past t p (by omega)]
    simp [h1]
  · rw [if_neg h1]
    have hd : decide (off + buf.length < t.length) = false := by simpa using h1
    rw [hd, Bool.or_false]
    by_cases h2 : min (t.length + p.length) (off + buf.length) ≤ max t.length off
    · rw [if_pos h2]
      have hw : window (t ++ p) off buf.length = window t off buf.length := by
        unfold window
        by_cases h3 : off + buf.length ≤ t.length
        · exact window_append_past t p h3
        · by_cases h4 : p.length = 0
          · rw [List.eq_nil_of_length_eq_zero h4, List.append_nil]
          · by_cases h5 : buf.length = 0
            · rw [h5]; simp
            · rw [List.drop_eq_nil_of_le (by rw [List.length_append]; omega),
                List.drop_eq_nil_of_le (by omega)]
      rw [hw]
    · rw [if_neg h2]
      have hmo : memcpyOut p (max t.length off - t.length)
          (min (t.length + p.length) (off + buf.length) - max t.length off) =
          some ((p.drop (max t.length off - t.length)).take
            (min (t.length + p.length) (off + buf.length) - max t.length off)) :=
        memcpyOut_some (by omega)
      have hwl : (window t off buf.length).length = max t.length off - off := by
        unfold window; simp only [List.length_take, List.length_drop]; omega
      have hww : window (t ++ p) off buf.length = window t off buf.length ++
          (p.drop (max t.length off - t.length)).take
            (min (t.length + p.length) (off + buf.length) - max t.length off) := by
        unfold window
        by_cases h3 : off ≤ t.length
        · rw [List.drop_append_of_le_length h3, List.take_append, Nat.max_eq_left h3, Nat.sub_self,
            List.drop_zero, List.length_drop]
          congr 1
          rw [List.take_eq_take_iff]; omega
        · rw [List.drop_append, List.drop_eq_nil_of_le (show t.length ≤ off by omega),
            Nat.max_eq_right (by omega)]
          simp only [List.nil_append, List.take_nil]
          rw [List.take_eq_take_iff, List.length_drop]; omega
      obtain ⟨x, hx⟩ : ∃ x, x = (p.drop (max t.length off - t.length)).take
            (min (t.length + p.length) (off + buf.length) - max t.length off) := ⟨_, rfl⟩
      have hxl : x.length = min (t.length + p.length) (off + buf.length) - max t.length off := by
        rw [hx]; simp only [List.length_take, List.length_drop]; omega
      rw [← hx] at hww hmo
      simp only [Option.bind_some, hmo]
      rw [hww, List.length_append, hxl]
      rw [hwl, memcpyIn_at hwl (by rw [List.length_drop, hxl]; omega), hxl]
      simp only [List.drop_drop, List.append_assoc]

theorem feedWrites_dest (off : Nat) (buf : Bytes) (ps : List Bytes) : ∀ (t : Bytes) (stop : Bool),
    (stop = true → off + buf.length < t.length) →
    ∃ stop', Cbor.feedWrites destWrite t.length ps (destAfter off buf t stop) =
        destAfter off buf (t ++ ps.flatten) stop' ∧
      (stop' = true → off + buf.length < (t ++ ps.flatten).length) := by
  induction ps with
  | nil => intro t stop h; exact ⟨stop, by simp [Cbor.feedWrites], by simpa using h⟩
  | cons p ps ih =>
    intro t stop h
    simp only [Cbor.feedWrites, List.flatten_cons]
    rw [destWrite_eq, ← List.append_assoc, ← List.length_append]
    refine ih (t ++ p) _ ?_
    rw [Bool.or_eq_true, decide_eq_true_iff, List.length_append]
    rintro (hs | hs)
    · have := h hs; omega
    · omega

theorem hasLogs_eq {cfg : Config} (hc : ConfigOk cfg) (dev : SerializerHelper.Device)
    {s : State} {ro cap : Nat} {es : List Entry} (hcap : cap < 2 ^ 31 - 8)
    (hr : Ring s.cb ro cap es) (hok : ∀ e ∈ es, LineOk cfg e.line) (hn : 0 < s.trigger.numLogs)
    (ht : s.trigger.triggered = true) :
    hasLogs cfg dev s = some (some (emitAll (uploadCalls cfg dev s.trigger ro cap es)).length) := by
  obtain ⟨ws, rest, h1, h2, h3⟩ := encode_eq hc dev (fun (_ : Unit) => false) hcap hr hok hn
    (Encoder.initSizeOnly ()) (.inl rfl)
  have h3' : rest = [] := by simpa using h3
  subst h3'
  rw [List.append_nil] at h1
  unfold hasLogs
  rw [ht, h2, ← Cbor.piecesAll_flatten, h1]
  simp [push, Encoder.initSizeOnly]

theorem logsRead_eq {cfg : Config} (hc : ConfigOk cfg) (dev : SerializerHelper.Device)
    {s : State} {ro cap : Nat} {es : List Entry} (hcap : cap < 2 ^ 31 - 8)
    (hr : Ring s.cb ro cap es) (hok : ∀ e ∈ es, LineOk cfg e.line) (hn : 0 < s.trigger.numLogs)
    (hlen : (emitAll (uploadCalls cfg dev s.trigger ro cap es)).length < 2 ^ 32) (off : Nat) (buf : Bytes) :
    let w := window (emitAll (uploadCalls cfg dev s.trigger ro cap es)) off buf.length
    logsRead cfg dev s off buf = some (decide (buf.length = w.length), w ++ buf.drop w.length) := by
  obtain ⟨ws, rest, h1, h2, h3⟩ := encode_eq hc dev Dest.stop hcap hr hok hn
    (Encoder.init destWrite ⟨off, some buf, buf.length, 0, false⟩ (2 ^ 32 - 1))
    (.inr (by simp only [Encoder.init]; omega))
  have hd0 : (⟨off, some buf, buf.length, 0, false⟩ : Dest) = destAfter off buf [] false := by
    simp [destAfter, window]
  obtain ⟨st, f1, f2⟩ := feedWrites_dest off buf ws [] false (by simp)
  rw [← hd0] at f1
  simp only [List.length_nil, List.nil_append] at f1 f2
  have hctx : (push (Encoder.init destWrite ⟨off, some buf, buf.length, 0, false⟩ (2 ^ 32 - 1)) ws).ctx =
      destAfter off buf ws.flatten st := by
    simp only [push, Encoder.init]; exact f1
  rw [hctx] at h3
  have hw : window (emitAll (uploadCalls cfg dev s.trigger ro cap es)) off buf.length =
      window ws.flatten off buf.length := by
    rw [← Cbor.piecesAll_flatten, h1, List.flatten_append]
    rcases h3 with h3 | h3
    · subst h3; simp
    · have := f2 h3
      exact window_append_past _ _ (by omega)
  intro w
  unfold logsRead
  rw [h2]
  simp only [Option.bind_some, hctx, destAfter, Option.map_some]
  rw [← hw]

end Mflt.Log
