import Verif.Lemmas.CircBufCallback
import Verif.Lemmas.Mem
import Verif.Spec.LogClient
import Verif.Spec.LogFormat

/-! # Lemmas for the RAM log -/

namespace Mflt.Log

open Spec.Log (Line Entry total lineSize)

/-- What every stored line satisfies. -/
structure LineOk (cfg : Config) (l : Line) : Prop where
  level : l.level < 8
  type : l.type < 2
  len : (body l).length ≤ cfg.maxLine
  ts : l.timestamp.isSome → cfg.timestamps = true
  tsLt : ∀ t, l.timestamp = some t → t < 2 ^ 32

theorem le32_eq (t : Nat) : le32 t =
    [UInt8.ofNat t, UInt8.ofNat (t / 2 ^ 8), UInt8.ofNat (t / 2 ^ 16), UInt8.ofNat (t / 2 ^ 24)] := by
  unfold le32
  simp only [List.cons.injEq, and_true]
  refine ⟨?_, ?_, ?_, ?_⟩ <;> apply UInt8.toNat_inj.mp <;> simp only [UInt8.toNat_ofNat'] <;> omega

theorem body_eq (l : Line) : body l = (match l.timestamp with | some t => le32 t | none => []) ++ l.text := by
  unfold body; cases l.timestamp <;> simp [le32_eq]

theorem le32_length (n : Nat) : (le32 n).length = 4 := rfl

theorem ofLe32_le32 {n : Nat} (h : n < 2 ^ 32) (rest : Bytes) : ofLe32 (le32 n ++ rest) = n := by
  simp only [le32, List.cons_append, List.nil_append, ofLe32, UInt8.toNat_ofNat']
  omega

theorem lineSize_eq (l : Line) : lineSize l = 2 + (body l).length := by
  unfold lineSize; rw [body_eq]
  cases l.timestamp <;> simp [le32_length]; omega

theorem enc_length (e : Entry) : (enc e).length = lineSize e.line := by
  rw [lineSize_eq]; simp [enc]; omega

theorem total_nil : total [] = 0 := rfl

theorem total_cons (e : Entry) (es : List Entry) : total (e :: es) = lineSize e.line + total es := by
  simp [total]

theorem total_append (a b : List Entry) : total (a ++ b) = total a + total b := by
  simp [total]

theorem encAll_length (es : List Entry) : (encAll es).length = total es := by
  induction es with
  | nil => rfl
  | cons e es ih => rw [total_cons, ← ih]; simp [encAll, enc_length]

theorem encAll_append (a b : List Entry) : encAll (a ++ b) = encAll a ++ encAll b := by
  simp [encAll]

theorem encAll_cons (e : Entry) (es : List Entry) : encAll (e :: es) = enc e ++ encAll es := by
  simp [encAll]

theorem length_le_total (es : List Entry) : es.length ≤ total es := by
  induction es with
  | nil => simp
  | cons e es ih => rw [total_cons, lineSize_eq]; simp only [List.length_cons]; omega

/-! ## Header bits -/

theorem hdr_table : ∀ (l : Fin 8) (t : Fin 2) (ts sent read : Bool),
    let h := UInt8.ofNat (l.val + 8 * t.val + (if ts then 16 else 0) + (if sent then 64 else 0) +
      (if read then 128 else 0))
    levelOf h = l.val ∧ typeOf h = t.val ∧ timestampedOf h = ts ∧ isSent h = sent ∧
    (h &&& 0xC0 ≠ 0 ↔ (read || sent) = true) ∧
    h ||| 0x80 = UInt8.ofNat (l.val + 8 * t.val + (if ts then 16 else 0) + (if sent then 64 else 0) +
      128) ∧
    h ||| 0x40 = UInt8.ofNat (l.val + 8 * t.val + (if ts then 16 else 0) + 64 +
      (if read then 128 else 0)) ∧
    buildHeader l.val t.val ts = UInt8.ofNat (l.val + 8 * t.val + (if ts then 16 else 0)) := by
  decide +kernel

theorem hdr_facts {cfg : Config} {e : Entry} (h : LineOk cfg e.line) :
    levelOf (hdrOf e) = e.line.level ∧ typeOf (hdrOf e) = e.line.type ∧
    timestampedOf (hdrOf e) = e.line.timestamp.isSome ∧ isSent (hdrOf e) = e.sent ∧
    (hdrOf e &&& 0xC0 ≠ 0 ↔ (e.read || e.sent) = true) ∧
    hdrOf e ||| 0x80 = hdrOf { e with read := true } ∧
    hdrOf e ||| 0x40 = hdrOf { e with sent := true } ∧
    buildHeader e.line.level e.line.type e.line.timestamp.isSome = hdrOf ⟨e.line, false, false⟩ := by
  have := hdr_table ⟨e.line.level, h.level⟩ ⟨e.line.type, h.type⟩ e.line.timestamp.isSome e.sent e.read
  simp only at this
  obtain ⟨h1, h2, h3, h4, h5, h6, h7, h8⟩ := this
  refine ⟨h1, h2, h3, h4, h5, ?_, ?_, ?_⟩
  · simpa [hdrOf] using h6
  · simpa [hdrOf] using h7
  · simpa [hdrOf] using h8

theorem len_toNat {cfg : Config} (hmax : cfg.maxLine ≤ 255) {l : Line} (h : LineOk cfg l) :
    (UInt8.ofNat (body l).length).toNat = (body l).length := by
  rw [UInt8.toNat_ofNat']
  have := h.len
  omega

/-! ## The ring holds a list of entries -/

structure Ring (cb : CircBuf) (ro cap : Nat) (es : List Entry) : Prop where
  inv : cb.Inv
  ro : cb.readOffset = ro
  cap : cb.totalSpace = cap
  contents : cb.contents = encAll es

theorem Ring.readSize {cb : CircBuf} {ro cap : Nat} {es : List Entry} (h : Ring cb ro cap es) :
    cb.readSize = total es := by
  rw [← CircBuf.length_contents, h.contents, encAll_length]

theorem Ring.total_le {cb : CircBuf} {ro cap : Nat} {es : List Entry} (h : Ring cb ro cap es) :
    total es ≤ cap := by
  rw [← h.readSize, ← h.cap]; exact h.inv.size

theorem read32_eq {cb : CircBuf} (h : cb.Inv) (hcap : cb.totalSpace < 2 ^ 31) (off n : Nat)
    (ho : off + n < 2 ^ 31) :
    read32 cb off n = some (if off + n ≤ cb.contents.length then some ((cb.contents.drop off).take n)
      else none) := by
  have hoff := h.off
  rw [← CircBuf.read_eq h]
  unfold read32 CircBuf.read
  rw [add32_eq (by omega), add32_eq (by omega)]
  by_cases hc : cb.readSize < off + n
  · simp [hc]
  · simp only [hc, if_false, Option.bind_eq_bind]
    cases CircBuf.umod (cb.readOffset + off) cb.totalSpace with
    | none => rfl
    | some i =>
      simp only [Option.bind_some]
      cases memcpyOut cb.storage i (if cb.totalSpace - i > n then n else cb.totalSpace - i) with
      | none => rfl
      | some f =>
        simp only [Option.bind_some]
        by_cases hz : n - (if cb.totalSpace - i > n then n else cb.totalSpace - i) ≠ 0
        · rw [if_pos hz, if_pos hz]
          cases memcpyOut cb.storage 0 _ <;> rfl
        · rw [if_neg hz, if_neg hz]; rfl

/-- Reading inside the ring, at an entry. -/
theorem Ring.read_hdr {cb : CircBuf} {ro cap : Nat} {pre post : List Entry} {e : Entry}
    (h : Ring cb ro cap (pre ++ e :: post)) (hcap : cap < 2 ^ 31) :
    read32 cb (total pre) 2 = some (some [hdrOf e, UInt8.ofNat (body e.line).length]) := by
  have ht := h.total_le
  rw [total_append, total_cons, lineSize_eq] at ht
  rw [read32_eq h.inv (by rw [h.cap]; exact hcap) _ _ (by omega), h.contents, if_pos, encAll_append,
    List.drop_left' (encAll_length pre), encAll_cons]
  · rfl
  · rw [encAll_length, total_append, total_cons, lineSize_eq]; omega

theorem Ring.read_end {cb : CircBuf} {ro cap : Nat} {es : List Entry}
    (h : Ring cb ro cap es) (hcap : cap < 2 ^ 31 - 8) : read32 cb (total es) 2 = some none := by
  have ht := h.total_le
  rw [read32_eq h.inv (by rw [h.cap]; omega) _ _ (by omega), h.contents, if_neg]
  rw [encAll_length]; omega

theorem Ring.read_body {cb : CircBuf} {ro cap : Nat} {pre post : List Entry} {e : Entry}
    (h : Ring cb ro cap (pre ++ e :: post)) (hcap : cap < 2 ^ 31) :
    read32 cb (total pre + 2) (body e.line).length = some (some (body e.line)) := by
  have ht := h.total_le
  rw [total_append, total_cons, lineSize_eq] at ht
  rw [read32_eq h.inv (by rw [h.cap]; exact hcap) _ _ (by omega), h.contents, if_pos, encAll_append,
    ← List.drop_drop, List.drop_left' (encAll_length pre), encAll_cons, enc]
  · simp
  · rw [encAll_length, total_append, total_cons, lineSize_eq]; omega

/-- Rewriting the header of an entry. -/
theorem Ring.update {cb : CircBuf} {ro cap : Nat} {pre post : List Entry} {e e' : Entry}
    (h : Ring cb ro cap (pre ++ e :: post)) (hcap : cap < 2 ^ 31) (hl : e'.line = e.line) :
    ∃ cb', cb.writeAtOffset (sub32 cb.getReadSize (total pre))
        [hdrOf e', UInt8.ofNat (body e.line).length] = some (true, cb') ∧
      Ring cb' ro cap (pre ++ e' :: post) := by
  have ht := h.total_le
  have hr := h.readSize
  rw [total_append, total_cons, lineSize_eq] at ht hr
  have hs : sub32 cb.getReadSize (total pre) = (body e.line).length + 2 + total post := by
    unfold CircBuf.getReadSize
    rw [hr, sub32_eq (by omega) (by omega)]; omega
  rw [hs]
  obtain ⟨cb', e1, e2, e3, e4, e5⟩ := CircBuf.writeAtOffset_eq h.inv
    ((body e.line).length + 2 + total post) [hdrOf e', UInt8.ofNat (body e.line).length]
  have hc : (body e.line).length + 2 + total post ≤ cb.readSize ∧
      cb.readSize - ((body e.line).length + 2 + total post) +
        [hdrOf e', UInt8.ofNat (body e.line).length].length ≤ cb.totalSpace := by
    rw [h.cap, hr]; simp only [List.length_cons, List.length_nil]; omega
  rw [decide_eq_true hc] at e1
  rw [if_pos hc] at e5
  refine ⟨cb', e1, e2, by rw [e4, h.ro], by rw [e3, h.cap], ?_⟩
  rw [e5, h.contents]
  unfold Spec.ByteQueue.overwrite
  have hk : (encAll (pre ++ e :: post)).length - ((body e.line).length + 2 + total post) =
      (encAll pre).length := by
    rw [encAll_length, encAll_length, total_append, total_cons, lineSize_eq]; omega
  rw [hk, encAll_append, List.take_left' rfl, ← List.drop_drop, List.drop_left' rfl, encAll_cons,
    encAll_append, encAll_cons]
  simp [enc, hl]

/-! ## Iteration -/

/-- What an iteration does to a list of entries: `g` is the effect of the callback on its context and
the entry at a given offset. Result: context, entries, offset where it stopped. -/
def visit {σ : Type} (g : σ → Nat → Entry → Bool × σ × Entry) :
    Nat → σ → List Entry → σ × List Entry × Nat
  | off, ctx, [] => (ctx, [], off)
  | off, ctx, e :: es =>
    let r := g ctx off e
    if r.1 then
      let q := visit g (off + lineSize e.line) r.2.1 es
      (q.1, r.2.2 :: q.2.1, q.2.2)
    else (r.2.1, r.2.2 :: es, off + lineSize e.line)

theorem iterate_visit {σ : Type} {callback : Walk σ → Option (Bool × Walk σ)}
    {g : σ → Nat → Entry → Bool × σ × Entry} {ro cap : Nat} (hcap : cap < 2 ^ 31 - 8)
    {cfg : Config} (hmax : cfg.maxLine ≤ 255)
    (hsize : ∀ c o e, (g c o e).2.2.line = e.line)
    (hcb : ∀ cb pre e post ctx, Ring cb ro cap (pre ++ e :: post) → LineOk cfg e.line →
      ∃ w, callback ⟨cb, ⟨total pre, hdrOf e, UInt8.ofNat (body e.line).length⟩, ctx⟩ =
          some ((g ctx (total pre) e).1, w) ∧
        Ring w.cb ro cap (pre ++ (g ctx (total pre) e).2.2 :: post) ∧
        w.iter.readOffset = total pre ∧ w.iter.len = UInt8.ofNat (body e.line).length ∧
        w.ctx = (g ctx (total pre) e).2.1) :
    ∀ (es : List Entry) (fuel : Nat) (pre : List Entry) (cb : CircBuf) (iter : Iter) (ctx : σ),
    Ring cb ro cap (pre ++ es) → (∀ e ∈ es, LineOk cfg e.line) → iter.readOffset = total pre →
    (es.length ≤ fuel ∨ (1 ≤ fuel ∧ ∀ c o e, (g c o e).1 = false)) →
    ∃ w, iterate callback fuel ⟨cb, iter, ctx⟩ = some w ∧ w.ctx = (visit g (total pre) ctx es).1 ∧
      Ring w.cb ro cap (pre ++ (visit g (total pre) ctx es).2.1) ∧
      w.iter.readOffset = (visit g (total pre) ctx es).2.2 := by
  intro es
  induction es with
  | nil =>
    intro fuel pre cb iter ctx hr _ hi _
    rw [List.append_nil] at hr
    refine ⟨⟨cb, iter, ctx⟩, ?_, rfl, by simpa [visit] using hr, hi⟩
    unfold iterate
    simp only [hi, hr.read_end hcap, Option.bind_some]
  | cons e es ih =>
    intro fuel pre cb iter ctx hr hok hi hf
    obtain ⟨fuel, rfl⟩ : ∃ f, fuel = f + 1 := by
      refine ⟨fuel - 1, ?_⟩
      rcases hf with hf | hf
      · simp only [List.length_cons] at hf; omega
      · omega
    have hle := hok e (by simp)
    obtain ⟨w, c1, c2, c3, c4, c5⟩ := hcb cb pre e es ctx hr hle
    have ht := hr.total_le
    rw [total_append, total_cons, lineSize_eq] at ht
    have hadv : add32 w.iter.readOffset (2 + w.iter.len.toNat) = total (pre ++ [(g ctx (total pre) e).2.2]) := by
      rw [c3, c4, len_toNat hmax hle, add32_eq (by omega), total_append, total_cons, hsize, lineSize_eq]
      rfl
    unfold iterate
    simp only [hi, hr.read_hdr (by omega), Option.bind_some, List.getD_cons_zero, List.getD_cons_succ,
      c1, visit]
    cases hg : (g ctx (total pre) e).1 with
    | false =>
      simp only [Bool.false_eq_true, if_false]
      refine ⟨_, rfl, c5, c2, ?_⟩
      simp only [hadv, total_append, total_cons, total_nil, hsize]; omega
    | true =>
      simp only [if_true]
      obtain ⟨⟨o, h, l⟩, hw⟩ : ∃ x : Iter, x = { w.iter with readOffset := add32 w.iter.readOffset (2 + w.iter.len.toNat) } := ⟨_, rfl⟩
      obtain ⟨v, d1, d2, d3, d4⟩ := ih fuel (pre ++ [(g ctx (total pre) e).2.2]) w.cb
        { w.iter with readOffset := add32 w.iter.readOffset (2 + w.iter.len.toNat) } w.ctx
        (by simpa using c2) (fun x hx => hok x (by simp [hx])) hadv (by
          rcases hf with hf | ⟨hf, hg'⟩
          · simp only [List.length_cons] at hf; left; omega
          · rw [hg'] at hg; cases hg)
      have htt : total (pre ++ [(g ctx (total pre) e).2.2]) = total pre + lineSize e.line := by
        rw [total_append, total_cons, total_nil, hsize]; omega
      rw [htt, c5] at d2 d3 d4
      exact ⟨v, d1, d2, by simpa using d3, d4⟩

end Mflt.Log
