import Verif.Lemmas.CoredumpAt

/-! # Lemmas: whole coredumps -/

namespace Mflt.Coredump

open Spec.Coredump

/-- Type and address fit their fields. -/
def Tame (b : Block) : Prop := b.type < 256 ∧ b.address < 2 ^ 32

theorem tame_blockOf {t a : Nat} {d : Option Bytes} (ht : t < 256)
    (ha : ∀ b ∈ blockOf t a d, b.address < 2 ^ 32) : ∀ b ∈ blockOf t a d, Tame b := by
  intro b hb
  refine ⟨?_, ha b hb⟩
  cases d with
  | none => simp [blockOf] at hb
  | some d =>
    simp only [blockOf] at hb
    split at hb
    · simp at hb
    · rw [List.mem_singleton.mp hb]; exact ht

theorem blockOf_some {t a : Nat} {x : Bytes} (h : x ≠ []) : blockOf t a (some x) = [⟨t, a, x⟩] := by
  simp [blockOf, h]

/-- What became of the regions. -/
def Outcome (full got : List Block) (before after : Bool) : Prop :=
  (got = full ∧ after = before) ∨ (after = true ∧ (got = full ∨ Shortened full got))

theorem shortened_cons {bl full got : List Block} (h : Shortened full got) :
    Shortened (bl ++ full) (bl ++ got) := by
  obtain ⟨done, b, rest, h1, h2⟩ := h
  refine ⟨bl ++ done, b, rest, by rw [h1]; simp, ?_⟩
  rcases h2 with h2 | ⟨n, a, b', h2⟩
  · left; rw [h2]
  · right; exact ⟨n, a, b', by rw [h2]; simp⟩

theorem shortened_nil {full : List Block} (h : full ≠ []) : Shortened full [] := by
  cases full with
  | nil => exact absurd rfl h
  | cons b rest => exact ⟨[], b, rest, rfl, Or.inl rfl⟩

theorem outcome_nil {full : List Block} : (([] : List Block) = full ∨ Shortened full []) := by
  cases full with
  | nil => left; rfl
  | cons b rest => right; exact shortened_nil (by simp)

theorem writeRegions_at {p : Plat} (hp : ∀ i, p.answer i = true) {e : UInt8} {mem : Bytes}
    (rs : List Region) : ∀ {c : Ctx} {bs : List Block}, At e mem c bs →
    (∀ b ∈ rs.flatMap regionBlock, b.address < 2 ^ 32) →
    ∃ new, At e mem (writeRegions p c rs).2 (bs ++ new) ∧ (writeRegions p c rs).2.storageSize = c.storageSize ∧
      (∀ b ∈ new, Tame b) ∧
      Outcome (rs.flatMap regionBlock) (content new) c.truncated (writeRegions p c rs).2.truncated := by
  induction rs with
  | nil =>
    intro c bs h _
    exact ⟨[], by rw [List.append_nil]; exact h, rfl, by simp, Or.inl ⟨rfl, rfl⟩⟩
  | cons r rs ih =>
    intro c bs h hadr
    obtain ⟨t, a, d, w, er, eb, ht⟩ := region_form p c r
    obtain ⟨ps, p1, p2, p3, p4, p5, p6⟩ := pad_at hp h
    obtain ⟨ok, c1, e1, s1, h1⟩ := writeBlock_at hp t a d w p1
    have hadr1 : ∀ b ∈ blockOf t a d, b.address < 2 ^ 32 := fun b hb =>
      hadr b (by rw [List.flatMap_cons, eb]; exact List.mem_append_left _ hb)
    have hadr2 : ∀ b ∈ rs.flatMap regionBlock, b.address < 2 ^ 32 := fun b hb =>
      hadr b (by rw [List.flatMap_cons]; exact List.mem_append_right _ hb)
    have htame := tame_blockOf (t := t) (by omega) hadr1
    have hcb := content_blockOf (t := t) (a := a) (d := d) (by omega)
    have hps : ∀ b ∈ ps, Tame b := fun b hb => ⟨(p3 b hb).type, (p3 b hb).address⟩
    rw [List.flatMap_cons, eb]
    have hrun : writeRegions p c (r :: rs) = match (ok, c1) with
        | (true, c) => writeRegions p c rs
        | (false, c) => (false, c) := by
      simp only [writeRegions]; rw [er, e1]; cases ok <;> rfl
    rw [hrun]
    rcases h1 with ⟨a1, t1, r1⟩ | ⟨x, n, hx, h0, hlt, hn4, a1, t1, f1⟩ | ⟨x, hx, hxne, a1, t1, r1, -⟩
    · cases ok with
      | true =>
        obtain ⟨new, n1, n2, n3, n4⟩ := ih a1 hadr2
        refine ⟨ps ++ (blockOf t a d ++ new), by simpa using n1, by dsimp only; omega, ?_, ?_⟩
        · intro b hb
          rcases List.mem_append.mp hb with hb | hb
          · exact hps b hb
          · rcases List.mem_append.mp hb with hb | hb
            · exact htame b hb
            · exact n3 b hb
        · rw [content_append, content_append, p2, hcb, List.nil_append]
          rw [t1] at n4
          dsimp only
          rcases n4 with ⟨g1, g2⟩ | ⟨g1, g2 | g2⟩
          · rw [g1]
            rcases p6 with p6 | p6
            · left; exact ⟨rfl, by rw [g2, p6]⟩
            · right; exact ⟨by rw [g2, p6], Or.inl rfl⟩
          · right; exact ⟨g1, Or.inl (by rw [g2])⟩
          · right; exact ⟨g1, Or.inr (shortened_cons g2)⟩
      | false =>
        have htr : (pad p c).truncated = true := by
          rcases r1 with r1 | r1
          · cases r1
          · exact r1
        refine ⟨ps ++ blockOf t a d, by simpa using a1, by dsimp only; omega, ?_, ?_⟩
        · intro b hb
          rcases List.mem_append.mp hb with hb | hb
          · exact hps b hb
          · exact htame b hb
        · rw [content_append, p2, hcb, List.nil_append]
          right
          refine ⟨by dsimp only; rw [t1, htr], ?_⟩
          rcases outcome_nil (full := rs.flatMap regionBlock) with h | h
          · left; rw [← h]; simp
          · right
            have := shortened_cons (bl := blockOf t a d) h
            rwa [List.append_nil] at this
    · subst hx
      have hxne : x ≠ [] := fun h => by rw [h] at hlt; simp at hlt
      rw [blockOf_some hxne] at hadr1 ⊢
      have hc1 : content [(⟨t, a, x.take n⟩ : Block)] = [⟨t, a, x.take n⟩] := by
        simp only [content, List.filter_cons, List.filter_nil]
        rw [if_pos (by simp only [bne_iff_ne, ne_eq]; omega)]
      have hsh : Shortened ([⟨t, a, x⟩] ++ rs.flatMap regionBlock) [⟨t, a, x.take n⟩] :=
        ⟨[], ⟨t, a, x⟩, rs.flatMap regionBlock, rfl, Or.inr ⟨n, h0, hlt, rfl⟩⟩
      have htm : ∀ b ∈ ps ++ [(⟨t, a, x.take n⟩ : Block)], Tame b := by
        intro b hb
        rcases List.mem_append.mp hb with hb | hb
        · exact hps b hb
        · rw [List.mem_singleton.mp hb]
          exact ⟨by dsimp only; omega, hadr1 ⟨t, a, x⟩ (by simp)⟩
      have hcont : content (ps ++ [(⟨t, a, x.take n⟩ : Block)]) = [⟨t, a, x.take n⟩] := by
        rw [content_append, p2, hc1, List.nil_append]
      cases ok with
      | false =>
        refine ⟨ps ++ [⟨t, a, x.take n⟩], by simpa using a1, by dsimp only; omega, htm, ?_⟩
        rw [hcont]
        right; exact ⟨t1, Or.inr hsh⟩
      | true =>
        obtain ⟨q1, q2, q3⟩ := writeRegions_stuck hp rs a1 f1 t1
        refine ⟨ps ++ [⟨t, a, x.take n⟩], by simpa using q1, by dsimp only; omega, htm, ?_⟩
        rw [hcont]
        right; exact ⟨q3, Or.inr hsh⟩
    · subst hx
      subst r1
      refine ⟨ps, a1, by dsimp only; omega, hps, ?_⟩
      rw [p2]
      right
      exact ⟨t1, Or.inr (shortened_nil (by rw [blockOf_some hxne]; simp))⟩

/-- The blocks of the fixed part. -/
def fixedOf (l : List (Nat × Option Bytes)) : List Block := l.flatMap fun b => blockOf b.1 0 b.2

theorem writeFixed_at {p : Plat} (hp : ∀ i, p.answer i = true) {e : UInt8} {mem : Bytes}
    (l : List (Nat × Option Bytes)) : ∀ {c : Ctx} {bs : List Block}, At e mem c bs → c.truncated = false →
    (writeFixed p c l).2.storageSize = c.storageSize ∧
    ((At e mem (writeFixed p c l).2 (bs ++ fixedOf l) ∧ (writeFixed p c l).2.truncated = false ∧
        (writeFixed p c l).1 = true) ∨
     (c.storageSize < 12 + (encAll (bs ++ fixedOf l)).length ∧
      ((writeFixed p c l).1 = false ∨ ((writeFixed p c l).2.storageSize - (writeFixed p c l).2.offset < 4 ∧
        ∃ bs', At e mem (writeFixed p c l).2 bs')))) := by
  induction l with
  | nil => intro c bs h ht; exact ⟨rfl, Or.inl ⟨by rw [show fixedOf [] = [] from rfl, List.append_nil]; exact h, ht, rfl⟩⟩
  | cons b l ih =>
    intro c bs h ht
    obtain ⟨ok, c1, e1, s1, h1⟩ := writeBlock_at hp b.1 0 b.2 false h
    have hrun : writeFixed p c (b :: l) = match (ok, c1) with
        | (true, c) => writeFixed p c l
        | (false, c) => (false, c) := by
      simp only [writeFixed]; rw [e1]; cases ok <;> rfl
    have hfo : fixedOf (b :: l) = blockOf b.1 0 b.2 ++ fixedOf l := by simp [fixedOf]
    have hoff := h.off
    have hroom := h.room
    rw [hrun, hfo]
    rcases h1 with ⟨a1, t1, r1⟩ | ⟨x, n, hx, h0, hlt, hn4, a1, t1, f1⟩ | ⟨x, hx, hxne, a1, t1, r1, f1⟩
    · have hok : ok = true := by
        rcases r1 with r1 | r1
        · exact r1
        · rw [ht] at r1; cases r1
      subst hok
      dsimp only
      obtain ⟨i1, i2⟩ := ih a1 (by rw [t1, ht])
      refine ⟨by rw [i1, s1], ?_⟩
      rw [List.append_assoc, s1] at i2
      exact i2
    · have hxne : x ≠ [] := fun h => by rw [h] at hlt; simp at hlt
      have o1 := a1.off
      have hbig : c.storageSize < 12 + (encAll (bs ++ (blockOf b.1 0 b.2 ++ fixedOf l))).length := by
        rw [hx, blockOf_some hxne]
        rw [encAll_append, encAll_one, List.length_append, enc_length] at o1
        simp only [List.length_take] at o1
        rw [encAll_append, encAll_append, encAll_one, List.length_append, List.length_append, enc_length]
        dsimp only
        have : min n x.length = n := by omega
        rw [this] at o1
        have hr := a1.room
        simp only [List.append_eq_nil_iff, List.cons_ne_self, and_false, or_false] at hr
        have : x.length ≥ n + 1 := hlt
        -- the cut was to the largest multiple of four that fits
        by_cases hc : c.storageSize < 12 + ((encAll bs).length + (12 + x.length + (encAll (fixedOf l)).length))
        · exact hc
        · exfalso
          have hnot : tooBig c x.length = false := by
            unfold tooBig
            simp only [Bool.and_eq_false_imp, decide_eq_false_iff_not]
            intro _; omega
          have hfit : fitSize c x.length = some x.length := by simp [fitSize, hnot]
          have hpb : c1.truncated = c.truncated := by
            have := e1
            unfold writeBlock at this
            rw [hx] at this
            dsimp only at this
            rw [if_neg (by omega), hfit] at this
            dsimp only at this
            rw [List.take_length] at this
            obtain ⟨r', c', e', -, -, t', -⟩ := putBlock_at (t := b.1) (a := 0) (w := false) hp
              (h.flag (c.truncated || tooBig c x.length)) (d := x) (by dsimp only; omega)
            rw [e'] at this
            injection this with _ h2
            rw [← h2, t']
            dsimp only
            rw [hnot, Bool.or_false]
          rw [t1, ht] at hpb
          cases hpb
      cases ok with
      | false => exact ⟨s1, Or.inr ⟨hbig, Or.inl rfl⟩⟩
      | true =>
        dsimp only
        refine ⟨?_, Or.inr ⟨hbig, ?_⟩⟩
        · have : ∀ (l : List (Nat × Option Bytes)) (c : Ctx), (∃ bs', At e mem c bs') →
              (writeFixed p c l).2.storageSize = c.storageSize := by
            intro l
            induction l with
            | nil => intro c _; rfl
            | cons b l ih =>
              rintro c ⟨bs', hc⟩
              obtain ⟨ok, c1, e1, s1, h1⟩ := writeBlock_at hp b.1 0 b.2 false hc
              simp only [writeFixed]
              rw [e1]
              cases ok with
              | false => exact s1
              | true =>
                dsimp only
                rw [ih c1 ?_, s1]
                rcases h1 with ⟨h, -⟩ | ⟨x, n, -, -, -, -, h, -⟩ | ⟨x, -, -, h, -⟩ <;> exact ⟨_, h⟩
          rw [this l c1 ⟨_, a1⟩, s1]
        · have stuck : ∀ (l : List (Nat × Option Bytes)) (c : Ctx) (bs' : List Block), At e mem c bs' →
              c.storageSize - c.offset < 4 → (writeFixed p c l).1 = false ∨
              ((writeFixed p c l).2.storageSize - (writeFixed p c l).2.offset < 4 ∧
                ∃ bs', At e mem (writeFixed p c l).2 bs') := by
            intro l
            induction l with
            | nil => intro c bs' hc hf; right; exact ⟨hf, bs', hc⟩
            | cons b l ih =>
              intro c bs' hc hf
              have hw := writeBlock_stuck (t := b.1) (a := 0) (d := b.2) (w := false) hp hc hf
              simp only [writeFixed]
              generalize writeBlock p c b.1 0 b.2 false = y at hw
              obtain ⟨ok, c1⟩ := y
              obtain ⟨w1, w2, -⟩ := hw
              simp only at w1 w2
              cases ok with
              | false => left; rfl
              | true =>
                have o1 := w1.off
                have o2 := hc.off
                exact ih c1 bs' w1 (by omega)
          exact stuck l c1 _ a1 f1
    · subst r1
      refine ⟨s1, Or.inr ⟨?_, Or.inl rfl⟩⟩
      rw [hx, blockOf_some hxne, encAll_append, encAll_append, encAll_one, List.length_append,
        List.length_append, enc_length]
      dsimp only
      rcases hroom with hroom | hroom <;> omega

/-- With the reason at the end, a success says that all went in. -/
theorem writeFixed_true {p : Plat} (hp : ∀ i, p.answer i = true) {e : UInt8} {mem : Bytes} {info : SaveInfo}
    {c : Ctx} (h : At e mem c []) (ht : c.truncated = false) :
    ((writeFixed p c (fixedBlocks info)).1 = true ↔
        12 + (encAll (fixedOf (fixedBlocks info))).length ≤ c.storageSize) ∧
    ((writeFixed p c (fixedBlocks info)).1 = true →
      At e mem (writeFixed p c (fixedBlocks info)).2 (fixedOf (fixedBlocks info)) ∧
      (writeFixed p c (fixedBlocks info)).2.truncated = false ∧
      (writeFixed p c (fixedBlocks info)).2.storageSize = c.storageSize) := by
  obtain ⟨l, hl⟩ := fixedBlocks_eq info
  have hfo : fixedOf (fixedBlocks info) = fixedOf l ++ [⟨5, 0, le32 info.traceReason⟩] := by
    rw [hl]; simp [fixedOf, blockOf, le32]
  have hne : fixedOf (fixedBlocks info) ≠ [] := by rw [hfo]; simp
  obtain ⟨s, h1⟩ := writeFixed_at hp (fixedBlocks info) h ht
  rw [List.nil_append] at h1
  rcases h1 with ⟨a1, t1, r1⟩ | ⟨hbig, h1⟩
  · refine ⟨⟨fun _ => ?_, fun _ => r1⟩, fun _ => ⟨a1, t1, s⟩⟩
    have := a1.off
    rcases a1.room with h | h
    · omega
    · exact absurd h hne
  · have hfalse : (writeFixed p c (fixedBlocks info)).1 = false := by
      rcases h1 with h1 | ⟨f1, bs', a1⟩
      · exact h1
      · -- the reason needs sixteen bytes
        cases hr : (writeFixed p c (fixedBlocks info)).1 with
        | false => rfl
        | true =>
          exfalso
          rw [hl, writeFixed_append] at hr f1 a1
          obtain ⟨s', h2⟩ := writeFixed_at hp l h ht
          generalize writeFixed p c l = y at hr f1 a1 s' h2
          obtain ⟨ok, c1⟩ := y
          cases ok with
          | false => simp at hr
          | true =>
            simp only [writeFixed] at hr f1 a1
            simp only [List.nil_append, Bool.true_eq_false, false_or] at h2
            rcases h2 with ⟨a2, t2, -⟩ | ⟨-, f2, bs2, a2⟩
            · obtain ⟨ok, c2, e2, s2, h3⟩ := writeBlock_at hp 5 0 (some (le32 info.traceReason)) false a2
              rw [e2] at hr f1 a1
              have hok : ok = true := by cases ok <;> simp_all
              subst hok
              simp only at hr f1 a1
              rcases h3 with ⟨a3, -⟩ | ⟨x, n, hx, h0, hlt, hn4, a3, t3, -⟩ | ⟨x, hx, -, -, -, r3, -⟩
              · have o3 := a3.off
                have hr3 := a3.room
                have hbo : blockOf 5 0 (some (le32 info.traceReason)) = [⟨5, 0, le32 info.traceReason⟩] := rfl
                rw [hbo] at o3 hr3
                rw [hfo] at hbig
                rcases hr3 with hr3 | hr3
                · simp only at s' ; omega
                · simp at hr3
              · injection hx with hx
                rw [← hx] at hlt
                simp only [le32, List.length_cons, List.length_nil] at hlt
                omega
              · cases r3
            · have hw := writeBlock_at hp 5 0 (some (le32 info.traceReason)) false a2
              obtain ⟨ok, c2, e2, s2, h3⟩ := hw
              rw [e2] at hr
              have hok : ok = true := by cases ok <;> simp_all
              subst hok
              have hst := writeBlock_stuck (t := 5) (a := 0) (d := some (le32 info.traceReason)) (w := false)
                hp a2 f2
              rw [e2] at hst
              have o2 := a2.off
              have fits : ∀ b, At e mem c2 (bs2 ++ [b]) → False := by
                intro b a1
                have o1 := a1.off
                rw [encAll_append, encAll_one, List.length_append, enc_length] at o1
                rcases a1.room with h | h
                · omega
                · simp at h
              rcases h3 with ⟨a3, -⟩ | ⟨x, n, hx, h0, hlt, hn4, a3, t3, -⟩ | ⟨x, hx, -, -, -, r3, -⟩
              · exact fits _ a3
              · exact fits _ a3
              · cases r3
    refine ⟨⟨fun h => ?_, fun h => by omega⟩, fun h => ?_⟩
    · rw [hfalse] at h; cases h
    · rw [hfalse] at h; cases h

end Mflt.Coredump
