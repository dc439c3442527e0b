import Verif.Lemmas.CoredumpMem

/-! # Lemmas: what a save leaves in the storage -/

namespace Mflt.Coredump

open Spec.Coredump

/-- The bytes of a block. -/
def enc (b : Block) : Bytes := blockHeader b.type b.address b.payload.length ++ b.payload

/-- The bytes of blocks. -/
def encAll (bs : List Block) : Bytes := bs.flatMap enc

theorem encAll_append (a b : List Block) : encAll (a ++ b) = encAll a ++ encAll b := by
  simp [encAll]

theorem encAll_one (b : Block) : encAll [b] = enc b := by simp [encAll]

theorem enc_length (b : Block) : (enc b).length = 12 + b.payload.length := by
  simp [enc, length_blockHeader]

/-- Numbers that fit their fields. -/
structure BlockOk (b : Block) : Prop where
  type : b.type < 256
  address : b.address < 2 ^ 32
  length : b.payload.length < 2 ^ 32

theorem parseBlocks_encAll (bs : List Block) : ∀ (fuel : Nat), (∀ b ∈ bs, BlockOk b) → bs.length < fuel →
    parseBlocks fuel (encAll bs) = some bs := by
  induction bs with
  | nil =>
    intro fuel _ hf
    obtain ⟨f, rfl⟩ : ∃ f, fuel = f + 1 := ⟨fuel - 1, by simp only [List.length_nil] at hf; omega⟩
    rfl
  | cons b bs ih =>
    intro fuel hok hf
    obtain ⟨f, rfl⟩ : ∃ f, fuel = f + 1 := ⟨fuel - 1, by simp only [List.length_cons] at hf; omega⟩
    obtain ⟨h1, h2, h3⟩ := hok b (by simp)
    have e : encAll (b :: bs) = [UInt8.ofNat b.type, 0, 0, 0] ++ (le32 b.address ++ (le32 b.payload.length ++
        (b.payload ++ encAll bs))) := by
      simp [encAll, enc, blockHeader]
    have hlen : (encAll (b :: bs)).length = 12 + b.payload.length + (encAll bs).length := by
      rw [e]; simp only [List.length_append, length_le32, List.length_cons, List.length_nil]; omega
    have d4 : (encAll (b :: bs)).drop 4 = le32 b.address ++ (le32 b.payload.length ++
        (b.payload ++ encAll bs)) := by rw [e]; rfl
    have d8 : (encAll (b :: bs)).drop 8 = le32 b.payload.length ++ (b.payload ++ encAll bs) := by
      rw [e]; rfl
    have d12 : (encAll (b :: bs)).drop 12 = b.payload ++ encAll bs := by rw [e]; rfl
    have t1 : (encAll (b :: bs)).take 1 = [UInt8.ofNat b.type] := by rw [e]; rfl
    have dn : (encAll (b :: bs)).drop (12 + b.payload.length) = encAll bs := by
      rw [← List.drop_drop, d12, List.drop_left]
    have n8 : number (((encAll (b :: bs)).drop 8).take 4) = b.payload.length := by
      rw [d8, List.take_left' (length_le32 _), number_le32 h3]
    unfold parseBlocks
    dsimp only
    rw [if_neg (fun h => by rw [h] at hlen; simp only [List.length_nil] at hlen; omega),
      if_neg (by omega), n8, if_neg (by omega), dn,
      ih f (fun b hb => hok b (by simp [hb])) (by simp only [List.length_cons] at hf; omega)]
    simp only [Option.map_some, Option.some.injEq, List.cons.injEq, and_true]
    rw [t1, d4, d12, List.take_left' (length_le32 _), number_le32 h2, List.take_left]
    have : number [UInt8.ofNat b.type] = b.type := by
      simp only [number, UInt8.toNat_ofNat']; omega
    rw [this]

/-! ## The storage while saving -/

/-- The contents of the storage between the erase and the header. -/
def image (e : UInt8) (size : Nat) (out : Bytes) : Bytes :=
  List.replicate 12 e ++ out ++ List.replicate (size - 12 - out.length) e

theorem image_write {e : UInt8} {size : Nat} {out d : Bytes} (h : 12 + out.length + d.length ≤ size) :
    apply e (image e size out) (.write (12 + out.length) d) = image e size (out ++ d) := by
  have hl : (List.replicate 12 e ++ out).length = 12 + out.length := by
    rw [List.length_append, List.length_replicate]
  simp only [apply, image]
  rw [List.take_left' hl, List.drop_append, hl]
  rw [List.drop_of_length_le (by rw [hl]; omega), List.nil_append, List.drop_replicate,
    List.length_append, List.append_assoc, List.append_assoc, List.append_assoc, List.append_assoc]
  congr 4
  omega

/-- The blocks `bs` have been saved. -/
structure At (e : UInt8) (mem : Bytes) (c : Ctx) (bs : List Block) : Prop where
  mode : c.computeOnly = false
  small : c.storageSize ≤ mem.length
  noError : c.writeError = false
  off : c.offset = 12 + (encAll bs).length
  room : c.offset ≤ c.storageSize ∨ bs = []
  mem : c.ops.foldl (apply e) mem = image e mem.length (encAll bs)

/-- The same for bytes. -/
structure AtB (e : UInt8) (mem : Bytes) (c : Ctx) (out : Bytes) : Prop where
  mode : c.computeOnly = false
  noError : c.writeError = false
  off : c.offset = 12 + out.length
  mem : c.ops.foldl (apply e) mem = image e mem.length out

theorem platWrite_atB {p : Plat} (hp : ∀ i, p.answer i = true) {e : UInt8} {mem : Bytes} {c : Ctx}
    {out d : Bytes} (h : AtB e mem c out) (hd : c.offset + d.length ≤ mem.length) :
    ∃ c', platWrite p c d = (true, c') ∧ AtB e mem c' (out ++ d) ∧ c'.storageSize = c.storageSize ∧
      c'.truncated = c.truncated := by
  obtain ⟨h1, h2, h3, h4⟩ := h
  refine ⟨{ c with offset := c.offset + d.length, ops := c.ops ++ [.write c.offset d] }, ?_, ⟨h1, h2, ?_, ?_⟩,
    rfl, rfl⟩
  · unfold platWrite; rw [h1, hp]; simp
  · simp only [List.length_append]; omega
  · simp only [List.foldl_append, List.foldl_cons, List.foldl_nil]
    rw [h4, h3, image_write (by omega)]

theorem writeWords_atB {p : Plat} (hp : ∀ i, p.answer i = true) {e : UInt8} {mem : Bytes} (l : List Bytes) :
    ∀ {c : Ctx} {out : Bytes}, AtB e mem c out → c.offset + l.flatten.length ≤ mem.length →
    ∃ c', writeWords p c l = (true, c') ∧ AtB e mem c' (out ++ l.flatten) ∧ c'.storageSize = c.storageSize ∧
      c'.truncated = c.truncated := by
  induction l with
  | nil => intro c out h _; exact ⟨c, rfl, by simpa using h, rfl, rfl⟩
  | cons w l ih =>
    intro c out h hd
    simp only [List.flatten_cons, List.length_append] at hd ⊢
    obtain ⟨c1, e1, a1, b1, t1⟩ := platWrite_atB hp h (d := w) (by omega)
    have ho := a1.off
    have ho' := h.off
    rw [List.length_append] at ho
    obtain ⟨c2, e2, a2, b2, t2⟩ := ih a1 (by omega)
    refine ⟨c2, ?_, by rw [← List.append_assoc]; exact a2, by rw [b2, b1], by rw [t2, t1]⟩
    unfold writeWords
    rw [e1]
    exact e2

theorem putBlock_at {p : Plat} (hp : ∀ i, p.answer i = true) {e : UInt8} {mem : Bytes} {c : Ctx}
    {bs : List Block} {t a : Nat} {d : Bytes} {w : Bool} (h : At e mem c bs)
    (hd : c.offset + 12 + d.length ≤ c.storageSize) :
    ∃ r c', putBlock p c t a d w = (r, c') ∧ At e mem c' (bs ++ [⟨t, a, d⟩]) ∧
      c'.storageSize = c.storageSize ∧ c'.truncated = c.truncated ∧ (r = true ∨ c.truncated = true) := by
  have hs := h.small
  have hb : AtB e mem c (encAll bs) := ⟨h.mode, h.noError, h.off, h.mem⟩
  obtain ⟨c1, e1, a1, b1, t1⟩ := platWrite_atB hp hb (d := blockHeader t a d.length)
    (by rw [length_blockHeader]; omega)
  have ho := h.off
  have ho1 := a1.off
  rw [List.length_append, length_blockHeader] at ho1
  have fin : ∀ c2, AtB e mem c2 (encAll bs ++ blockHeader t a d.length ++ d) → c2.storageSize = c1.storageSize →
      At e mem c2 (bs ++ [⟨t, a, d⟩]) := by
    intro c2 a2 s2
    have hen : encAll (bs ++ [⟨t, a, d⟩]) = encAll bs ++ blockHeader t a d.length ++ d := by
      rw [encAll_append, encAll_one, List.append_assoc]; rfl
    have hlen : (encAll bs ++ blockHeader t a d.length ++ d).length = (encAll bs).length + 12 + d.length := by
      rw [List.length_append, List.length_append, length_blockHeader]
    refine ⟨a2.mode, by omega, a2.noError, by rw [hen]; exact a2.off, Or.inl ?_, by rw [hen]; exact a2.mem⟩
    have := a2.off
    omega
  unfold putBlock
  rw [e1]
  dsimp only
  split
  · obtain ⟨c2, e2, a2, b2, t2⟩ := platWrite_atB hp a1 (d := d) (by omega)
    exact ⟨true, c2, e2, fin c2 a2 b2, by omega, by rw [t2, t1], Or.inl rfl⟩
  · rename_i hw
    have h4 : d.length % 4 = 0 := by
      simp only [Bool.not_eq_eq_eq_not, Bool.not_true, Bool.or_eq_true, bne_iff_ne, ne_eq, not_or,
        Bool.not_eq_false, Decidable.not_not] at hw
      exact hw.2
    have hwf := words_flatten' h4
    obtain ⟨c2, e2, a2, b2, t2⟩ := writeWords_atB hp (words d) a1 (by rw [hwf]; omega)
    rw [hwf] at a2
    rw [e2]
    refine ⟨!c2.truncated, c2, rfl, fin c2 a2 b2, by omega, by rw [t2, t1], ?_⟩
    rw [t2, t1]
    cases c.truncated <;> simp

theorem At.flag {e : UInt8} {mem : Bytes} {c : Ctx} {bs : List Block} (h : At e mem c bs) (b : Bool) :
    At e mem { c with truncated := b } bs := ⟨h.mode, h.small, h.noError, h.off, h.room, h.mem⟩

/-- What a block does. -/
theorem writeBlock_at {p : Plat} (hp : ∀ i, p.answer i = true) {e : UInt8} {mem : Bytes} {c : Ctx}
    {bs : List Block} (t a : Nat) (d : Option Bytes) (w : Bool) (h : At e mem c bs) :
    ∃ r c', writeBlock p c t a d w = (r, c') ∧ c'.storageSize = c.storageSize ∧
      ((At e mem c' (bs ++ blockOf t a d) ∧ c'.truncated = c.truncated ∧ (r = true ∨ c.truncated = true)) ∨
       (∃ x n, d = some x ∧ 0 < n ∧ n < x.length ∧ n % 4 = 0 ∧ At e mem c' (bs ++ [⟨t, a, x.take n⟩]) ∧
          c'.truncated = true ∧ c'.storageSize - c'.offset < 4) ∨
       (∃ x, d = some x ∧ x ≠ [] ∧ At e mem c' bs ∧ c'.truncated = true ∧ r = false ∧
          c.storageSize - c.offset < 12 + x.length)) := by
  unfold writeBlock
  cases d with
  | none => exact ⟨true, c, rfl, rfl, Or.inl ⟨by simpa [blockOf] using h, rfl, Or.inl rfl⟩⟩
  | some d =>
    dsimp only
    by_cases h0 : d.length = 0
    · rw [if_pos h0]
      have : d = [] := List.length_eq_zero_iff.mp h0
      subst this
      exact ⟨true, c, rfl, rfl, Or.inl ⟨by simpa [blockOf] using h, rfl, Or.inl rfl⟩⟩
    · rw [if_neg h0]
      have hd : d ≠ [] := fun hh => h0 (by rw [hh]; rfl)
      have hbo : blockOf t a (some d) = [⟨t, a, d⟩] := by simp [blockOf, hd]
      have hroom := h.room
      have hoff := h.off
      cases hb : tooBig c d.length with
      | false =>
        have hfit : fitSize c d.length = some d.length := by simp [fitSize, hb]
        rw [hfit]
        dsimp only
        rw [List.take_length]
        have hle : c.offset + 12 + d.length ≤ c.storageSize := by
          unfold tooBig at hb
          rw [h.mode] at hb
          simp only [Bool.not_false, Bool.true_and, decide_eq_false_iff_not] at hb
          omega
        obtain ⟨r, c', e1, a1, s1, t1, r1⟩ := putBlock_at (t := t) (a := a) (w := w) hp
          (h.flag (c.truncated || false)) hle
        exact ⟨r, c', e1, s1, Or.inl ⟨by rw [hbo]; exact a1, by simpa using t1, by simpa using r1⟩⟩
      | true =>
        have hlt : c.storageSize - c.offset < 12 + d.length := by
          unfold tooBig at hb
          rw [h.mode] at hb
          simpa using hb
        have hfit : fitSize c d.length = if c.storageSize - c.offset < 12 then none
            else if (c.storageSize - c.offset - 12) / 4 * 4 = 0 then none
            else some ((c.storageSize - c.offset - 12) / 4 * 4) := by simp [fitSize, hb]
        rw [hfit]
        by_cases h12 : c.storageSize - c.offset < 12
        · rw [if_pos h12]
          exact ⟨false, { c with truncated := c.truncated || true }, rfl, rfl,
            Or.inr (Or.inr ⟨d, rfl, hd, h.flag _, by simp, rfl, hlt⟩)⟩
        · rw [if_neg h12]
          by_cases h4 : (c.storageSize - c.offset - 12) / 4 * 4 = 0
          · rw [if_pos h4]
            exact ⟨false, { c with truncated := c.truncated || true }, rfl, rfl,
              Or.inr (Or.inr ⟨d, rfl, hd, h.flag _, by simp, rfl, hlt⟩)⟩
          · rw [if_neg h4]
            dsimp only
            obtain ⟨n, hn⟩ : ∃ n, n = (c.storageSize - c.offset - 12) / 4 * 4 := ⟨_, rfl⟩
            rw [← hn]
            have hlen : (d.take n).length = n := by rw [List.length_take]; omega
            have hle : c.offset + 12 + (d.take n).length ≤ c.storageSize := by rw [hlen]; omega
            obtain ⟨r, c', e1, a1, s1, t1, r1⟩ := putBlock_at (t := t) (a := a) (w := w) hp
              (h.flag (c.truncated || true)) hle
            refine ⟨r, c', e1, s1, Or.inr (Or.inl ⟨d, n, rfl, by omega, by omega, by omega, a1, by
              simpa using t1, ?_⟩)⟩
            have o1 := a1.off
            rw [encAll_append, encAll_one, List.length_append, enc_length] at o1
            simp only at s1 o1
            rw [hlen] at o1
            omega

/-- Padding. -/
theorem pad_at {p : Plat} (hp : ∀ i, p.answer i = true) {e : UInt8} {mem : Bytes} {c : Ctx}
    {bs : List Block} (h : At e mem c bs) :
    ∃ ps, At e mem (pad p c) (bs ++ ps) ∧ content ps = [] ∧ (∀ b ∈ ps, BlockOk b) ∧
      (pad p c).storageSize = c.storageSize ∧ (c.truncated = true → (pad p c).truncated = true) ∧
      ((pad p c).truncated = c.truncated ∨ (pad p c).truncated = true) := by
  unfold pad
  by_cases h4 : c.offset % 4 = 0
  · rw [if_pos h4]
    exact ⟨[], by simpa using h, rfl, by simp, rfl, id, Or.inl rfl⟩
  · rw [if_neg h4]
    obtain ⟨r, c', e1, s1, h1⟩ := writeBlock_at hp 6 0 (some (List.replicate (4 - c.offset % 4) 0)) false h
    rw [e1]
    dsimp only
    rcases h1 with ⟨a1, t1, -⟩ | ⟨x, n, hx, h0, hlt, hn4, -⟩ | ⟨x, hx, -, a1, t1, -⟩
    · refine ⟨_, a1, ?_, ?_, s1, fun h => by rw [t1, h], Or.inl t1⟩
      · simp only [blockOf]; split <;> rfl
      · intro b hb
        simp only [blockOf] at hb
        split at hb
        · simp at hb
        · rw [List.mem_singleton.mp hb]
          exact ⟨by simp, by simp, by simp only [List.length_replicate]; omega⟩
    · injection hx with hx
      rw [← hx, List.length_replicate] at hlt
      omega
    · exact ⟨[], by simpa using a1, rfl, by simp, s1, fun _ => t1, Or.inr t1⟩

/-- Without room nothing is added. -/
theorem writeBlock_stuck {p : Plat} (hp : ∀ i, p.answer i = true) {e : UInt8} {mem : Bytes} {c : Ctx}
    {bs : List Block} {t a : Nat} {d : Option Bytes} {w : Bool} (h : At e mem c bs)
    (hf : c.storageSize - c.offset < 4) :
    At e mem (writeBlock p c t a d w).2 bs ∧ (writeBlock p c t a d w).2.storageSize = c.storageSize ∧
      (c.truncated = true → (writeBlock p c t a d w).2.truncated = true) := by
  obtain ⟨r, c', e1, s1, h1⟩ := writeBlock_at hp t a d w h
  rw [e1]
  dsimp only
  have ho := h.off
  have fits : ∀ b, At e mem c' (bs ++ [b]) → False := by
    intro b a1
    have o1 := a1.off
    rw [encAll_append, encAll_one, List.length_append, enc_length] at o1
    rcases a1.room with h | h
    · omega
    · simp at h
  rcases h1 with ⟨a1, t1, -⟩ | ⟨x, n, hx, h0, hlt, hn4, a1, -⟩ | ⟨x, hx, -, a1, t1, -⟩
  · cases hb : blockOf t a d with
    | nil => rw [hb, List.append_nil] at a1; exact ⟨a1, s1, fun h => by rw [t1, h]⟩
    | cons b l =>
      have : l = [] := by
        cases d with
        | none => simp [blockOf] at hb
        | some d =>
          simp only [blockOf] at hb
          split at hb
          · cases hb
          · injection hb with _ h; exact h.symm
      subst this
      rw [hb] at a1
      exact (fits b a1).elim
  · exact (fits _ a1).elim
  · exact ⟨a1, s1, fun _ => t1⟩

theorem writeRegions_stuck {p : Plat} (hp : ∀ i, p.answer i = true) {e : UInt8} {mem : Bytes}
    {bs : List Block} (rs : List Region) : ∀ {c : Ctx}, At e mem c bs → c.storageSize - c.offset < 4 →
    c.truncated = true →
    At e mem (writeRegions p c rs).2 bs ∧ (writeRegions p c rs).2.storageSize = c.storageSize ∧
      (writeRegions p c rs).2.truncated = true := by
  induction rs with
  | nil => intro c h _ ht; exact ⟨h, rfl, ht⟩
  | cons r rs ih =>
    intro c h hf ht
    obtain ⟨t, a, d, w, er, -, -⟩ := region_form p c r
    have hpad : At e mem (pad p c) bs ∧ (pad p c).storageSize = c.storageSize ∧ (pad p c).truncated = true := by
      unfold pad
      split
      · exact ⟨h, rfl, ht⟩
      · have := writeBlock_stuck (t := 6) (a := 0) (d := some (List.replicate (4 - c.offset % 4) 0))
          (w := false) hp h hf
        exact ⟨this.1, this.2.1, this.2.2 ht⟩
    obtain ⟨p1, p2, p3⟩ := hpad
    have ho := h.off
    have ho1 := p1.off
    have hw := writeBlock_stuck (t := t) (a := a) (d := d) (w := w) hp p1 (by omega)
    unfold writeRegions
    rw [er]
    generalize writeBlock p (pad p c) t a d w = x at hw
    obtain ⟨ok, c1⟩ := x
    obtain ⟨w1, w2, w3⟩ := hw
    simp only at w1 w2 w3
    cases ok with
    | false => exact ⟨w1, by simp only; omega, w3 p3⟩
    | true =>
      have ho2 := w1.off
      obtain ⟨b1, b2, b3⟩ := ih w1 (by omega) (w3 p3)
      exact ⟨b1, by simp only; omega, b3⟩

theorem content_append (a b : List Block) : content (a ++ b) = content a ++ content b := by
  simp [content]

theorem content_blockOf {t a : Nat} {d : Option Bytes} (ht : t ≠ 6) : content (blockOf t a d) = blockOf t a d := by
  cases d with
  | none => rfl
  | some d =>
    simp only [blockOf]
    split
    · rfl
    · simp [content, ht]

theorem blockOf_ok {mem : Bytes} {t a : Nat} {d : Option Bytes} (ht : t < 256)
    (ha : ∀ b ∈ blockOf t a d, b.address < 2 ^ 32) (hl : ∀ x, d = some x → x.length < 2 ^ 32) :
    ∀ b ∈ blockOf t a d, BlockOk b := by
  intro b hb
  refine ⟨?_, ha b hb, ?_⟩ <;>
  · cases d with
    | none => simp [blockOf] at hb
    | some d =>
      simp only [blockOf] at hb
      split at hb
      · simp at hb
      · have := List.mem_singleton.mp hb
        subst this
        first | exact ht | exact hl d rfl

end Mflt.Coredump
