import Verif.Spec.Coredump

/-! # Lemmas: coredumps -/

namespace Mflt.Coredump

open Spec.Coredump

theorem length_le32 (n : Nat) : (le32 n).length = 4 := rfl

theorem number_le32 {n : Nat} (h : n < 2 ^ 32) : number (le32 n) = n := by
  simp only [le32, number, UInt8.toNat_ofNat']
  omega

theorem ofLe32_le32 {n : Nat} (h : n < 2 ^ 32) : ofLe32 (le32 n) = n := by
  simp only [le32, ofLe32, UInt8.toNat_ofNat']
  omega

theorem length_blockHeader (t a n : Nat) : (blockHeader t a n).length = 12 := rfl

theorem words_flatten : ∀ (n : Nat) (d : Bytes), d.length = 4 * n → (words d).flatten = d
  | 0, d, h => by
    have : d = [] := List.length_eq_zero_iff.mp (by omega)
    subst this; rfl
  | n + 1, d, h => by
    match d, h with
    | a :: b :: c :: e :: r, h =>
      simp only [words, List.flatten_cons]
      rw [words_flatten n r (by simp only [List.length_cons] at h; omega)]
      rfl
    | [], h => simp at h
    | [_], h => simp only [List.length_cons, List.length_nil] at h; omega
    | [_, _], h => simp only [List.length_cons, List.length_nil] at h; omega
    | [_, _, _], h => simp only [List.length_cons, List.length_nil] at h; omega

theorem words_flatten' {d : Bytes} (h : d.length % 4 = 0) : (words d).flatten = d :=
  words_flatten (d.length / 4) d (by omega)

/-! ## What is never touched -/

/-- A write behind the header and inside the storage. -/
def Safe (size : Nat) : Op → Prop
  | .erase _ => False
  | .write off d => 12 ≤ off ∧ off + d.length ≤ size

/-- The storage was erased, and then written to only behind the header. -/
structure Good (size : Nat) (c : Ctx) : Prop where
  mode : c.computeOnly = false
  small : c.storageSize ≤ size
  behind : 12 ≤ c.offset
  room : c.offset ≤ c.storageSize ∨ c.offset = 12
  ops : ∃ ws, c.ops = .erase size :: ws ∧ ∀ w ∈ ws, Safe size w

theorem platWrite_good {p : Plat} {size : Nat} {c : Ctx} {d : Bytes} (h : Good size c)
    (hd : c.offset + d.length ≤ c.storageSize) :
    Good size (platWrite p c d).2 ∧ (platWrite p c d).2.storageSize = c.storageSize ∧
      (platWrite p c d).2.truncated = c.truncated ∧
      ((platWrite p c d).1 = true → (platWrite p c d).2.offset = c.offset + d.length) ∧
      (platWrite p c d).2.offset ≤ c.offset + d.length := by
  obtain ⟨h1, h2, h3, h4, ws, h5, h6⟩ := h
  have hw : Safe size (.write c.offset d) := ⟨h3, by omega⟩
  have hall : ∀ w ∈ ws ++ [Op.write c.offset d], Safe size w := by
    intro w hw'
    rcases List.mem_append.mp hw' with hw' | hw'
    · exact h6 w hw'
    · rw [List.mem_singleton.mp hw']; exact hw
  unfold platWrite
  rw [h1]
  simp only [Bool.false_eq_true, if_false]
  split
  · exact ⟨⟨rfl, h2, by simp only; omega, Or.inl hd, ws ++ [.write c.offset d], by simp [h5], hall⟩, rfl, rfl,
      fun _ => rfl, Nat.le_refl _⟩
  · exact ⟨⟨rfl, h2, h3, h4, ws ++ [.write c.offset d], by simp [h5], hall⟩, rfl, rfl,
      fun h => by simp at h, by simp only; omega⟩

theorem writeWords_good {p : Plat} {size : Nat} (l : List Bytes) : ∀ {c : Ctx}, Good size c →
    c.offset + l.flatten.length ≤ c.storageSize →
    Good size (writeWords p c l).2 ∧ (writeWords p c l).2.storageSize = c.storageSize ∧
      (writeWords p c l).2.truncated = c.truncated ∧
      ((writeWords p c l).1 = true → (writeWords p c l).2.offset = c.offset + l.flatten.length) ∧
      (writeWords p c l).2.offset ≤ c.offset + l.flatten.length := by
  induction l with
  | nil => intro c h _; exact ⟨h, rfl, rfl, fun _ => rfl, Nat.le_refl _⟩
  | cons w l ih =>
    intro c h hd
    simp only [List.flatten_cons, List.length_append] at hd ⊢
    have hp := platWrite_good (p := p) (d := w) h (by omega)
    unfold writeWords
    generalize platWrite p c w = r at hp
    obtain ⟨ok, c1⟩ := r
    obtain ⟨a1, a2, a3, a4, a5⟩ := hp
    cases ok with
    | false => exact ⟨a1, a2, a3, fun h => by simp at h, by simp only at a5 ⊢; omega⟩
    | true =>
      simp only at a1 a2 a3 a4 a5 ⊢
      have a4 := a4 (by trivial)
      obtain ⟨b1, b2, b3, b4, b5⟩ := ih a1 (by omega)
      exact ⟨b1, by omega, by rw [b3, a3], fun h => by rw [b4 h]; omega, by omega⟩

theorem putBlock_good {p : Plat} {size : Nat} {c : Ctx} {t a : Nat} {d : Bytes} {w : Bool}
    (h : Good size c) (hd : c.offset + 12 + d.length ≤ c.storageSize) :
    Good size (putBlock p c t a d w).2 ∧ (putBlock p c t a d w).2.storageSize = c.storageSize ∧
      ((putBlock p c t a d w).1 = true → (putBlock p c t a d w).2.offset = c.offset + 12 + d.length) ∧
      (putBlock p c t a d w).2.offset ≤ c.offset + 12 + d.length := by
  have hp := platWrite_good (p := p) (d := blockHeader t a d.length) h (by rw [length_blockHeader]; omega)
  rw [length_blockHeader] at hp
  unfold putBlock
  generalize platWrite p c (blockHeader t a d.length) = r at hp
  obtain ⟨ok, c1⟩ := r
  obtain ⟨a1, a2, a3, a4, a5⟩ := hp
  simp only at a1 a2 a3 a4 a5
  cases ok with
  | false => exact ⟨a1, a2, fun h => by simp at h, by simp only; omega⟩
  | true =>
    have a4 := a4 (by trivial)
    simp only
    split
    · obtain ⟨b1, b2, b3, b4, b5⟩ := platWrite_good (p := p) (d := d) a1 (by omega)
      exact ⟨b1, by omega, fun h => by rw [b4 h]; omega, by omega⟩
    · rename_i hw
      have h4 : d.length % 4 = 0 := by
        simp only [Bool.not_eq_eq_eq_not, Bool.not_true, Bool.or_eq_true, bne_iff_ne, ne_eq, not_or,
          Bool.not_eq_false, Decidable.not_not] at hw
        exact hw.2
      have hwf := words_flatten' h4
      have hq := writeWords_good (p := p) (words d) a1 (by rw [hwf]; omega)
      rw [hwf] at hq
      generalize writeWords p c1 (words d) = r at hq
      obtain ⟨ok, c2⟩ := r
      obtain ⟨b1, b2, b3, b4, b5⟩ := hq
      simp only at b1 b2 b3 b4 b5
      cases ok with
      | false => exact ⟨b1, by simp only; omega, fun h => by simp at h, by simp only; omega⟩
      | true =>
        have b4 := b4 (by trivial)
        exact ⟨b1, by simp only; omega, fun _ => by simp only; omega, by simp only; omega⟩

/-- Changing the flag keeps the invariant. -/
theorem Good.flag {size : Nat} {c : Ctx} (h : Good size c) (b : Bool) :
    Good size { c with truncated := b } := ⟨h.mode, h.small, h.behind, h.room, h.ops⟩

theorem fitSize_some {c : Ctx} {n m : Nat} (hm : c.computeOnly = false) (h : fitSize c n = some m) :
    c.offset + 12 + m ≤ c.storageSize ∨ (m = 0 ∧ n = 0) := by
  unfold fitSize tooBig at h
  rw [hm] at h
  simp only [Bool.not_false, Bool.true_and, decide_eq_true_eq] at h
  split at h
  · split at h
    · cases h
    · split at h
      · cases h
      · injection h with h; left; omega
  · injection h with h; omega

theorem writeBlock_good {p : Plat} {size : Nat} {c : Ctx} {t a : Nat} {d : Option Bytes} {w : Bool}
    (h : Good size c) :
    Good size (writeBlock p c t a d w).2 ∧ (writeBlock p c t a d w).2.storageSize = c.storageSize ∧
      ∀ x, d = some x → x.length = 4 → w = false → (writeBlock p c t a d w).1 = true →
        (writeBlock p c t a d w).2.offset = c.offset + 16 ∧ c.offset + 16 ≤ c.storageSize := by
  unfold writeBlock
  cases d with
  | none => exact ⟨h, rfl, fun x hx => nomatch hx⟩
  | some d =>
    simp only
    split
    · exact ⟨h, rfl, fun x hx hl => by injection hx with hx; subst hx; omega⟩
    · rename_i hne
      cases hf : fitSize c d.length with
      | none => exact ⟨h.flag _, rfl, fun x _ _ _ hr => by simp at hr⟩
      | some n =>
        dsimp only
        have hfit := fitSize_some h.mode hf
        have hroom : c.offset + 12 + (d.take n).length ≤ c.storageSize := by
          rw [List.length_take]; omega
        have hg := putBlock_good (p := p) (t := t) (a := a) (d := d.take n) (w := w)
          (h.flag (c.truncated || tooBig c d.length)) hroom
        refine ⟨hg.1, hg.2.1, ?_⟩
        intro x hx hl hw hr
        injection hx with hx
        subst hx
        have hn : n = 4 := by
          unfold fitSize at hf
          split at hf
          · rename_i hbig
            unfold tooBig at hbig
            rw [h.mode] at hbig
            simp only [Bool.not_false, Bool.true_and, decide_eq_true_eq] at hbig
            split at hf
            · cases hf
            · split at hf
              · cases hf
              · omega
          · injection hf with hf; omega
        subst hn
        have hlen : (d.take 4).length = 4 := by simp [hl]
        have h5 := hg.2.2.1 hr
        rw [hlen] at h5 hroom
        exact ⟨h5, by omega⟩

theorem pad_good {p : Plat} {size : Nat} {c : Ctx} (h : Good size c) :
    Good size (pad p c) ∧ (pad p c).storageSize = c.storageSize := by
  unfold pad
  split
  · exact ⟨h, rfl⟩
  · have := writeBlock_good (p := p) (t := 6) (a := 0) (d := some (List.replicate (4 - c.offset % 4) 0))
      (w := false) h
    exact ⟨this.1, this.2.1⟩

/-- Every region is a block written behind padding. -/
theorem region_form (p : Plat) (c : Ctx) (r : Region) : ∃ t a d w,
    writeRegion p c r = writeBlock p (pad p c) t a d w ∧ regionBlock r = blockOf t a d ∧
      (t = 1 ∨ t = 9) := by
  cases r with
  | memory a d => exact ⟨1, a, d, false, rfl, rfl, Or.inl rfl⟩
  | wordAccessOnly a d => exact ⟨1, a, d, true, rfl, rfl, Or.inl rfl⟩
  | imageIdentifier a d => exact ⟨1, a, d, false, rfl, rfl, Or.inl rfl⟩
  | mpuUnrolled a d => exact ⟨9, a, d, false, rfl, rfl, Or.inr rfl⟩
  | cached v a d =>
    cases v with
    | true => exact ⟨1, a, some d, false, rfl, rfl, Or.inl rfl⟩
    | false => exact ⟨1, a, none, false, rfl, rfl, Or.inl rfl⟩

theorem writeRegions_good {p : Plat} {size : Nat} (rs : List Region) : ∀ {c : Ctx}, Good size c →
    Good size (writeRegions p c rs).2 ∧ (writeRegions p c rs).2.storageSize = c.storageSize := by
  induction rs with
  | nil => intro c h; exact ⟨h, rfl⟩
  | cons r rs ih =>
    intro c h
    obtain ⟨t, a, d, w, e, -, -⟩ := region_form p c r
    have hp := pad_good (p := p) h
    have hw := writeBlock_good (p := p) (t := t) (a := a) (d := d) (w := w) hp.1
    unfold writeRegions
    rw [e]
    generalize writeBlock p (pad p c) t a d w = x at hw
    obtain ⟨ok, c1⟩ := x
    simp only at hw
    cases ok with
    | false => exact ⟨hw.1, by simp only; omega⟩
    | true =>
      obtain ⟨b1, b2⟩ := ih hw.1
      exact ⟨b1, by simp only; omega⟩

theorem writeRegions_append (p : Plat) (a b : List Region) : ∀ (c : Ctx),
    writeRegions p c (a ++ b) =
      match writeRegions p c a with
      | (true, c) => writeRegions p c b
      | (false, c) => (false, c) := by
  induction a with
  | nil => intro c; rfl
  | cons r a ih =>
    intro c
    simp only [List.cons_append, writeRegions]
    generalize writeRegion p c r = x
    obtain ⟨ok, c1⟩ := x
    cases ok with
    | false => rfl
    | true => exact ih c1

theorem writeAllRegions_eq (p : Plat) (c : Ctx) (info : SaveInfo) :
    writeAllRegions p c info = writeRegions p c (info.archRegions ++ info.sdkRegions ++ info.regions) := by
  rw [List.append_assoc, writeRegions_append]
  unfold writeAllRegions
  generalize writeRegions p c info.archRegions = x
  obtain ⟨ok, c1⟩ := x
  cases ok with
  | false => rfl
  | true =>
    simp only
    rw [writeRegions_append]
    generalize writeRegions p c1 info.sdkRegions = y
    obtain ⟨ok, c2⟩ := y
    cases ok <;> rfl

theorem writeFixed_append (p : Plat) (a b : List (Nat × Option Bytes)) : ∀ (c : Ctx),
    writeFixed p c (a ++ b) =
      match writeFixed p c a with
      | (true, c) => writeFixed p c b
      | (false, c) => (false, c) := by
  induction a with
  | nil => intro c; rfl
  | cons r a ih =>
    intro c
    simp only [List.cons_append, writeFixed]
    generalize writeBlock p c r.1 0 r.2 false = x
    obtain ⟨ok, c1⟩ := x
    cases ok with
    | false => rfl
    | true => exact ih c1

theorem writeFixed_good {p : Plat} {size : Nat} (bs : List (Nat × Option Bytes)) : ∀ {c : Ctx}, Good size c →
    Good size (writeFixed p c bs).2 ∧ (writeFixed p c bs).2.storageSize = c.storageSize := by
  induction bs with
  | nil => intro c h; exact ⟨h, rfl⟩
  | cons b bs ih =>
    intro c h
    have hw := writeBlock_good (p := p) (t := b.1) (a := 0) (d := b.2) (w := false) h
    unfold writeFixed
    generalize writeBlock p c b.1 0 b.2 false = x at hw
    obtain ⟨ok, c1⟩ := x
    simp only at hw
    cases ok with
    | false => exact ⟨hw.1, by simp only; omega⟩
    | true =>
      obtain ⟨b1, b2⟩ := ih hw.1
      exact ⟨b1, by simp only; omega⟩

/-- The fixed blocks end with the reason. -/
theorem fixedBlocks_eq (info : SaveInfo) : ∃ l, fixedBlocks info = l ++ [(5, some (le32 info.traceReason))] :=
  ⟨regBlocks info ++ [(12, info.buildId), (2, info.serial), (10, info.softwareVersion),
    (11, info.softwareType), (4, info.hardwareVersion), (7, some (le32 info.machineType))],
    by simp [fixedBlocks]⟩

theorem firstCtx_good (size : Nat) : Good size (firstCtx false size [.erase size]) := by
  refine ⟨rfl, ?_, Nat.le_refl _, Or.inr rfl, [], rfl, fun w hw => by simp at hw⟩
  unfold firstCtx
  simp only
  split <;> omega

/-- The operations of the sections: erase, safe writes, and perhaps the header. -/
theorem writeSections_ops {p : Plat} {size : Nat} (info : SaveInfo) :
    ∃ ws, (∀ w ∈ ws, Safe size w) ∧
      ((writeSections p (firstCtx false size [.erase size]) info).1 = none ∧
        (writeSections p (firstCtx false size [.erase size]) info).2.ops = .erase size :: ws ∨
       ∃ n, n ≤ size ∧ (writeSections p (firstCtx false size [.erase size]) info).2.ops =
          .erase size :: ws ++ [.write 0 (header n)] ∧ 28 ≤ n ∧
        ((writeSections p (firstCtx false size [.erase size]) info).1 = some n ∧
            p.answer (ws.length + 1) = true ∨
          (writeSections p (firstCtx false size [.erase size]) info).1 = none)) := by
  obtain ⟨l, hl⟩ := fixedBlocks_eq info
  have h0 := firstCtx_good size
  have hs0 : (firstCtx false size [.erase size]).storageSize = if size > 16 then size - 16 else size := rfl
  generalize firstCtx false size [.erase size] = c0 at h0 hs0
  unfold writeSections
  rw [hl, writeFixed_append]
  have h1 := writeFixed_good (p := p) l h0
  generalize writeFixed p c0 l = x at h1
  obtain ⟨ok, c1⟩ := x
  obtain ⟨g1, s1⟩ := h1
  simp only at g1 s1
  cases ok with
  | false =>
    obtain ⟨ws, e, hws⟩ := g1.ops
    exact ⟨ws, hws, Or.inl ⟨rfl, e⟩⟩
  | true =>
    simp only [writeFixed]
    have h2 := writeBlock_good (p := p) (t := 5) (a := 0) (d := some (le32 info.traceReason)) (w := false) g1
    generalize writeBlock p c1 5 0 (some (le32 info.traceReason)) false = y at h2
    obtain ⟨ok, c2⟩ := y
    obtain ⟨g2, s2, k2⟩ := h2
    simp only at g2 s2 k2
    cases ok with
    | false =>
      obtain ⟨ws, e, hws⟩ := g2.ops
      exact ⟨ws, hws, Or.inl ⟨rfl, e⟩⟩
    | true =>
      have k2 := k2 _ rfl rfl (by trivial) (by trivial)
      simp only
      rw [writeAllRegions_eq]
      have h3 := writeRegions_good (p := p) (info.archRegions ++ info.sdkRegions ++ info.regions) g2
      generalize writeRegions p c2 (info.archRegions ++ info.sdkRegions ++ info.regions) = z at h3
      obtain ⟨done, c3⟩ := z
      obtain ⟨g3, s3⟩ := h3
      simp only at g3 s3
      simp only
      split
      · obtain ⟨ws, e, hws⟩ := g3.ops
        exact ⟨ws, hws, Or.inl ⟨rfl, e⟩⟩
      · have hb := g1.behind
        have hsz : c3.storageSize + 16 = size := by
          have : c0.storageSize = c3.storageSize := by omega
          split at hs0 <;> omega
        have hoff : c3.offset + 16 ≤ size := by
          rcases g3.room with h | h <;> omega
        have g4 : Good size { c3 with storageSize := size } :=
          ⟨g3.mode, Nat.le_refl _, g3.behind, Or.inl (by simp only; omega), g3.ops⟩
        have h5 := platWrite_good (p := p) (d := footer c3.truncated) g4
          (by show c3.offset + 16 ≤ size; exact hoff)
        have hpw : ∀ d, platWrite p c3 d =
            ((platWrite p { c3 with storageSize := size } d).1,
              { (platWrite p { c3 with storageSize := size } d).2 with storageSize := c3.storageSize }) := by
          intro d
          unfold platWrite
          simp only
          split
          · rfl
          · split <;> rfl
        unfold writeEnd
        rw [hpw]
        generalize platWrite p { c3 with storageSize := size } (footer c3.truncated) = f at h5
        obtain ⟨ok, c5⟩ := f
        obtain ⟨g5, -, -, o5, -⟩ := h5
        obtain ⟨ws, e, hws⟩ := g5.ops
        simp only at e hws o5
        cases ok with
        | false => exact ⟨ws, hws, Or.inl ⟨rfl, e⟩⟩
        | true =>
          have o5 := o5 (by trivial)
          have o6 : c5.offset = c3.offset + 16 := o5
          have hm := g5.mode
          simp only at hm
          refine ⟨ws, hws, Or.inr ⟨c5.offset, by omega, ?_, ?_, ?_⟩⟩
          · by_cases ha : p.answer c5.ops.length = true <;>
              simp only [platWrite, hm, ha, Bool.false_eq_true, if_false, if_true, List.cons_append] <;>
              rw [e] <;> rfl
          · have := g3.behind; omega
          · have hl : c5.ops.length = ws.length + 1 := by rw [e]; rfl
            by_cases ha : p.answer c5.ops.length = true
            · left; exact ⟨by simp [platWrite, hm, ha], by rw [← hl]; exact ha⟩
            · right; simp [platWrite, hm, ha]

end Mflt.Coredump
