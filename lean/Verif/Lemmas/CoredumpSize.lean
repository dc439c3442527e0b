import Verif.Lemmas.CoredumpEnd

/-! # Lemmas: the computed size of a coredump -/

namespace Mflt.Coredump

open Spec.Coredump

/-- The padding before a region. -/
def padB (off : Nat) : List Block :=
  if off % 4 = 0 then [] else [⟨6, 0, List.replicate (4 - off % 4) 0⟩]

/-- The blocks of regions if nothing has to be cut. -/
def layout : Nat → List Region → List Block
  | _, [] => []
  | off, r :: rs =>
    padB off ++ (regionBlock r ++ layout (off + (encAll (padB off ++ regionBlock r)).length) rs)

theorem encAll_nil : (encAll ([] : List Block)).length = 0 := rfl

theorem content_padB (off : Nat) : content (padB off) = [] := by
  unfold padB; split <;> rfl

theorem content_regionBlock (r : Region) : content (regionBlock r) = regionBlock r := by
  obtain ⟨t, a, d, w, -, eb, ht⟩ := region_form ⟨0, true, true, fun _ => true⟩ ⟨true, 0, 0, false, false, []⟩ r
  rw [eb]; exact content_blockOf (by omega)

theorem content_layout (rs : List Region) : ∀ off, content (layout off rs) = rs.flatMap regionBlock := by
  induction rs with
  | nil => intro off; rfl
  | cons r rs ih =>
    intro off
    simp only [layout, content_append, content_padB, content_regionBlock, ih, List.flatMap_cons,
      List.nil_append]

theorem tame_layout (rs : List Region) : ∀ off, (∀ b ∈ rs.flatMap regionBlock, b.address < 2 ^ 32) →
    ∀ b ∈ layout off rs, Tame b := by
  induction rs with
  | nil => intro off _ b hb; simp [layout] at hb
  | cons r rs ih =>
    intro off h b hb
    obtain ⟨t, a, d, w, -, eb, ht⟩ := region_form ⟨0, true, true, fun _ => true⟩ ⟨true, 0, 0, false, false, []⟩ r
    simp only [layout, List.mem_append] at hb
    rcases hb with hb | hb | hb
    · unfold padB at hb
      split at hb
      · simp at hb
      · rw [List.mem_singleton.mp hb]
        exact ⟨(by decide : 6 < 256), (by decide : 0 < 2 ^ 32)⟩
    · rw [eb] at hb
      refine tame_blockOf (by omega) (fun b hb => h b ?_) b hb
      rw [List.flatMap_cons, eb]; exact List.mem_append_left _ hb
    · exact ih _ (fun b hb => h b (by rw [List.flatMap_cons]; exact List.mem_append_right _ hb)) b hb

/-! ## Computing only -/

theorem putWords_compute {p : Plat} (l : List Bytes) : ∀ {c : Ctx}, c.computeOnly = true →
    writeWords p c l = (true, { c with offset := c.offset + l.flatten.length }) := by
  induction l with
  | nil => intro c _; rfl
  | cons w l ih =>
    intro c h
    have e1 : platWrite p c w = (true, { c with offset := c.offset + w.length }) := by
      unfold platWrite; rw [if_pos h]
    simp only [writeWords]
    rw [e1]
    dsimp only
    rw [ih (by exact h), List.flatten_cons, List.length_append, ← Nat.add_assoc]

theorem putBlock_compute {p : Plat} {c : Ctx} {t a : Nat} {d : Bytes} {w : Bool} (h : c.computeOnly = true)
    (ht : c.truncated = false) :
    putBlock p c t a d w = (true, { c with offset := c.offset + (12 + d.length) }) := by
  have e1 : ∀ (c : Ctx) x, c.computeOnly = true →
      platWrite p c x = (true, { c with offset := c.offset + x.length }) := by
    intro c x h; unfold platWrite; rw [if_pos h]
  unfold putBlock
  rw [e1 c _ h, length_blockHeader]
  dsimp only
  split
  · rw [e1 _ _ (by exact h)]
    dsimp only
    rw [Nat.add_assoc]
  · rename_i hw
    have h4 : d.length % 4 = 0 := by
      simp only [Bool.not_eq_eq_eq_not, Bool.not_true, Bool.or_eq_true, bne_iff_ne, ne_eq, not_or,
        Bool.not_eq_false, Decidable.not_not] at hw
      exact hw.2
    rw [putWords_compute _ (by exact h), words_flatten' h4]
    dsimp only
    rw [ht, Nat.add_assoc]
    rfl

theorem encAll_blockOf {t a : Nat} {d : Bytes} (h : d.length ≠ 0) :
    (encAll (blockOf t a (some d))).length = 12 + d.length := by
  have hd : d ≠ [] := fun hh => h (by rw [hh]; rfl)
  rw [blockOf_some hd, encAll_one, enc_length]

theorem writeBlock_compute {p : Plat} {c : Ctx} {t a : Nat} {d : Option Bytes} {w : Bool}
    (h : c.computeOnly = true) (ht : c.truncated = false) :
    writeBlock p c t a d w = (true, { c with offset := c.offset + (encAll (blockOf t a d)).length }) := by
  unfold writeBlock
  cases d with
  | none => rfl
  | some d =>
    dsimp only
    by_cases h0 : d.length = 0
    · rw [if_pos h0]
      have : d = [] := List.length_eq_zero_iff.mp h0
      subst this
      rfl
    · rw [if_neg h0]
      have hb : tooBig c d.length = false := by unfold tooBig; rw [h]; rfl
      have hfit : fitSize c d.length = some d.length := by simp [fitSize, hb]
      rw [hfit, encAll_blockOf h0]
      dsimp only
      rw [List.take_length, putBlock_compute (by exact h) (by simp [ht, hb])]
      dsimp only
      rw [ht, hb]
      simp [ht]

theorem pad_compute {p : Plat} {c : Ctx} (h : c.computeOnly = true) (ht : c.truncated = false) :
    pad p c = { c with offset := c.offset + (encAll (padB c.offset)).length } := by
  unfold pad padB
  by_cases h4 : c.offset % 4 = 0
  · rw [if_pos h4, if_pos h4]; rfl
  · rw [if_neg h4, if_neg h4, writeBlock_compute h ht, blockOf_some]
    intro hh
    have := congrArg List.length hh
    simp only [List.length_replicate, List.length_nil] at this
    omega

theorem writeFixed_compute {p : Plat} (l : List (Nat × Option Bytes)) : ∀ {c : Ctx}, c.computeOnly = true →
    c.truncated = false →
    writeFixed p c l = (true, { c with offset := c.offset + (encAll (fixedOf l)).length }) := by
  induction l with
  | nil => intro c _ _; rfl
  | cons b l ih =>
    intro c h ht
    simp only [writeFixed]
    rw [writeBlock_compute h ht]
    dsimp only
    rw [ih (by exact h) (by exact ht)]
    have : fixedOf (b :: l) = blockOf b.1 0 b.2 ++ fixedOf l := by simp [fixedOf]
    rw [this, encAll_append, List.length_append, ← Nat.add_assoc]

theorem writeRegions_compute {p : Plat} (rs : List Region) : ∀ {c : Ctx}, c.computeOnly = true →
    c.truncated = false →
    writeRegions p c rs = (true, { c with offset := c.offset + (encAll (layout c.offset rs)).length }) := by
  induction rs with
  | nil => intro c _ _; rfl
  | cons r rs ih =>
    intro c h ht
    obtain ⟨t, a, d, w, er, eb, -⟩ := region_form p c r
    simp only [writeRegions]
    rw [er, pad_compute h ht, writeBlock_compute (by exact h) (by exact ht)]
    dsimp only
    rw [ih (by exact h) (by exact ht)]
    simp only [layout, eb, encAll_append, List.length_append, Nat.add_assoc]

/-- The computed size. -/
theorem getSaveSize_eq {info : SaveInfo} (h : info.regions ≠ []) :
    getSaveSize info = 28 + (encAll (infoBlocks info ++ layout (12 + (encAll (infoBlocks info)).length)
      (info.archRegions ++ info.sdkRegions ++ info.regions))).length := by
  unfold getSaveSize
  rw [if_neg h]
  unfold writeSections
  rw [writeFixed_compute _ rfl rfl, fixedOf_eq]
  dsimp only
  rw [writeAllRegions_eq, writeRegions_compute _ rfl rfl]
  dsimp only [firstCtx]
  unfold writeEnd
  simp only [platWrite, if_true, length_footer, Bool.not_true, Bool.false_and, Bool.false_eq_true, if_false,
    Option.getD_some, encAll_append, List.length_append]
  omega

/-! ## Room for everything -/

theorem writeBlock_fits {p : Plat} (hp : ∀ i, p.answer i = true) {e : UInt8} {mem : Bytes} {c : Ctx}
    {bs : List Block} {t a : Nat} {d : Option Bytes} {w : Bool} (h : At e mem c bs) (ht : c.truncated = false)
    (hf : c.offset + (encAll (blockOf t a d)).length ≤ c.storageSize) :
    ∃ c', writeBlock p c t a d w = (true, c') ∧ At e mem c' (bs ++ blockOf t a d) ∧
      c'.storageSize = c.storageSize ∧ c'.truncated = false := by
  unfold writeBlock
  cases d with
  | none => exact ⟨c, rfl, by simpa [blockOf] using h, rfl, ht⟩
  | some d =>
    dsimp only
    by_cases h0 : d.length = 0
    · rw [if_pos h0]
      have : d = [] := List.length_eq_zero_iff.mp h0
      subst this
      exact ⟨c, rfl, by simpa [blockOf] using h, rfl, ht⟩
    · rw [if_neg h0]
      rw [encAll_blockOf h0] at hf
      have hd : d ≠ [] := fun hh => h0 (by rw [hh]; rfl)
      have hb : tooBig c d.length = false := by
        unfold tooBig
        simp only [Bool.and_eq_false_imp, decide_eq_false_iff_not]
        intro _; omega
      have hfit : fitSize c d.length = some d.length := by simp [fitSize, hb]
      rw [hfit]
      dsimp only
      rw [List.take_length, hb, ht]
      obtain ⟨r, c', e1, a1, s1, t1, r1⟩ := putBlock_at (t := t) (a := a) (w := w) hp
        (h.flag (false || false)) (d := d) (by dsimp only; omega)
      have hr : r = true := by
        rcases r1 with r1 | r1
        · exact r1
        · cases r1
      subst hr
      exact ⟨c', e1, by rw [blockOf_some hd]; exact a1, s1, t1⟩

theorem padB_blockOf {off : Nat} (h : ¬ off % 4 = 0) :
    blockOf 6 0 (some (List.replicate (4 - off % 4) 0)) = padB off := by
  unfold padB
  rw [if_neg h, blockOf_some]
  intro hh
  have := congrArg List.length hh
  simp only [List.length_replicate, List.length_nil] at this
  omega

theorem writeRegions_fits {p : Plat} (hp : ∀ i, p.answer i = true) {e : UInt8} {mem : Bytes}
    (rs : List Region) : ∀ {c : Ctx} {bs : List Block}, At e mem c bs → c.truncated = false →
    c.offset + (encAll (layout c.offset rs)).length ≤ c.storageSize →
    ∃ c', writeRegions p c rs = (true, c') ∧ At e mem c' (bs ++ layout c.offset rs) ∧
      c'.storageSize = c.storageSize ∧ c'.truncated = false := by
  induction rs with
  | nil => intro c bs h ht _; exact ⟨c, rfl, by rw [layout, List.append_nil]; exact h, rfl, ht⟩
  | cons r rs ih =>
    intro c bs h ht hf
    obtain ⟨t, a, d, w, er, eb, -⟩ := region_form p c r
    simp only [layout, eb, encAll_append, List.length_append] at hf
    have hpad : ∃ c', pad p c = c' ∧ At e mem c' (bs ++ padB c.offset) ∧ c'.storageSize = c.storageSize ∧
        c'.truncated = false := by
      unfold pad
      by_cases h4 : c.offset % 4 = 0
      · rw [if_pos h4]
        exact ⟨c, rfl, by unfold padB; rw [if_pos h4, List.append_nil]; exact h, rfl, ht⟩
      · rw [if_neg h4]
        obtain ⟨c', e1, a1, s1, t1⟩ := writeBlock_fits (t := 6) (a := 0)
          (d := some (List.replicate (4 - c.offset % 4) 0)) (w := false) hp h ht
          (by rw [padB_blockOf h4]; omega)
        rw [e1]
        rw [padB_blockOf h4] at a1
        exact ⟨c', rfl, a1, s1, t1⟩
    obtain ⟨c1, e1, a1, s1, t1⟩ := hpad
    have o0 := h.off
    have o1 := a1.off
    rw [encAll_append, List.length_append] at o1
    obtain ⟨c2, e2, a2, s2, t2⟩ := writeBlock_fits (t := t) (a := a) (d := d) (w := w) hp a1 t1 (by omega)
    have o2 := a2.off
    rw [encAll_append, List.length_append, encAll_append, List.length_append] at o2
    have ho : c2.offset = c.offset + ((encAll (padB c.offset)).length + (encAll (blockOf t a d)).length) := by
      omega
    obtain ⟨c3, e3, a3, s3, t3⟩ := ih a2 t2 (by rw [ho]; omega)
    refine ⟨c3, ?_, ?_, by omega, t3⟩
    · simp only [writeRegions]
      rw [er, e1, e2]
      exact e3
    · simp only [layout, eb, encAll_append, List.length_append]
      rw [ho] at a3
      simpa only [List.append_assoc] using a3

/-- Nothing was cut only if everything had room. -/
theorem writeRegions_untruncated {p : Plat} (hp : ∀ i, p.answer i = true) {e : UInt8} {mem : Bytes}
    (rs : List Region) : ∀ {c : Ctx} {bs : List Block}, At e mem c bs →
    (∀ b ∈ rs.flatMap regionBlock, b.address < 2 ^ 32) →
    (writeRegions p c rs).2.truncated = false →
    c.truncated = false ∧ At e mem (writeRegions p c rs).2 (bs ++ layout c.offset rs) := by
  induction rs with
  | nil => intro c bs h _ ht; exact ⟨ht, by rw [layout, List.append_nil]; exact h⟩
  | cons r rs ih =>
    intro c bs h hadr ht
    obtain ⟨t, a, d, w, er, eb, -⟩ := region_form p c r
    have hadr2 : ∀ b ∈ rs.flatMap regionBlock, b.address < 2 ^ 32 := fun b hb =>
      hadr b (by rw [List.flatMap_cons]; exact List.mem_append_right _ hb)
    have hpad : (pad p c).truncated = false → c.truncated = false ∧ At e mem (pad p c) (bs ++ padB c.offset) := by
      unfold pad
      by_cases h4 : c.offset % 4 = 0
      · rw [if_pos h4]
        exact fun h' => ⟨h', by unfold padB; rw [if_pos h4, List.append_nil]; exact h⟩
      · rw [if_neg h4]
        obtain ⟨r, c', e1, s1, h1⟩ := writeBlock_at hp 6 0 (some (List.replicate (4 - c.offset % 4) 0)) false h
        rw [e1]
        dsimp only
        intro htr
        rcases h1 with ⟨a1, t1, -⟩ | ⟨x, n, -, -, -, -, -, t1, -⟩ | ⟨x, -, -, -, t1, -⟩
        · exact ⟨by rw [← t1]; exact htr, by rw [← padB_blockOf h4]; exact a1⟩
        · rw [t1] at htr; cases htr
        · rw [t1] at htr; cases htr
    obtain ⟨ps, p1, -⟩ := pad_at hp h
    obtain ⟨ok, c1, e1, s1, h1⟩ := writeBlock_at hp t a d w p1
    have hrun : writeRegions p c (r :: rs) = match (ok, c1) with
        | (true, c) => writeRegions p c rs
        | (false, c) => (false, c) := by
      simp only [writeRegions]; rw [er, e1]; cases ok <;> rfl
    rw [hrun] at ht ⊢
    -- the flag never goes away
    have hc1 : c1.truncated = false := by
      cases ok with
      | false => exact ht
      | true =>
        rcases h1 with ⟨a1, -⟩ | ⟨x, n, -, -, -, -, a1, -⟩ | ⟨x, -, -, a1, -⟩ <;>
        exact (ih a1 hadr2 ht).1
    rcases h1 with ⟨a1, t1, r1⟩ | ⟨x, n, -, -, -, -, -, t1, -⟩ | ⟨x, -, -, -, t1, -⟩
    · rw [t1] at hc1
      obtain ⟨q1, q2⟩ := hpad hc1
      have hok : ok = true := by
        rcases r1 with r1 | r1
        · exact r1
        · rw [hc1] at r1; cases r1
      subst hok
      refine ⟨q1, ?_⟩
      obtain ⟨ok, c1', e1', s1', h1'⟩ := writeBlock_at hp t a d w q2
      rw [e1] at e1'
      injection e1' with x1 x2
      subst x2
      have a1' : At e mem c1 (bs ++ padB c.offset ++ blockOf t a d) := by
        rcases h1' with ⟨a1, -⟩ | ⟨x, n, -, -, -, -, -, t1', -⟩ | ⟨x, -, -, -, t1', -⟩
        · exact a1
        · rw [t1, hc1] at t1'; cases t1'
        · rw [t1, hc1] at t1'; cases t1'
      have := (ih a1' hadr2 ht).2
      have o0 := h.off
      have o1 := a1'.off
      rw [encAll_append, List.length_append, encAll_append, List.length_append] at o1
      simp only [layout, eb, encAll_append, List.length_append]
      rw [show c1.offset = c.offset + ((encAll (padB c.offset)).length + (encAll (blockOf t a d)).length)
        by omega] at this
      simpa only [List.append_assoc] using this
    · rw [t1] at hc1; cases hc1
    · rw [t1] at hc1; cases hc1

end Mflt.Coredump
