import Verif.Props.Coredump
import Verif.Spec.BufferedStorage

/-! # A save writes in order, without gaps, the header last -/

namespace Mflt.Coredump

open Spec.BufferedStorage (pieces)

/-- A piece as a storage operation. -/
def wr (b : Nat × Bytes) : Op := .write b.1 b.2

theorem pieces_append (ds : List Bytes) (d : Bytes) : ∀ o,
    pieces o (ds ++ [d]) = pieces o ds ++ [(o + ds.flatten.length, d)] := by
  induction ds with
  | nil => intro o; simp [pieces]
  | cons x ds ih => intro o; simp [pieces, ih, Nat.add_assoc]

/-- Erased, and then written behind the header in order. -/
def Seq (size : Nat) (c : Ctx) : Prop :=
  c.computeOnly = false ∧ ∃ ds, (∀ d ∈ ds, d ≠ []) ∧ c.offset = 12 + ds.flatten.length ∧
    c.ops = .erase size :: (pieces 12 ds).map wr

theorem Seq.flag {size : Nat} {c : Ctx} (h : Seq size c) (b : Bool) : Seq size { c with truncated := b } := h

theorem platWrite_seq {p : Plat} (hp : ∀ i, p.answer i = true) {size : Nat} {c : Ctx} {d : Bytes}
    (h : Seq size c) (hd : d ≠ []) : Seq size (platWrite p c d).2 := by
  obtain ⟨h1, ds, h2, h3, h4⟩ := h
  unfold platWrite
  rw [h1]
  simp only [Bool.false_eq_true, if_false, hp, if_true]
  refine ⟨rfl, ds ++ [d], ?_, ?_, ?_⟩
  · intro x hx
    rcases List.mem_append.mp hx with hx | hx
    · exact h2 x hx
    · rw [List.mem_singleton.mp hx]; exact hd
  · simp [h3, Nat.add_assoc]
  · rw [pieces_append, h4, h3]; simp [wr]

theorem words_ne : ∀ (d : Bytes), ∀ w ∈ words d, w ≠ []
  | a :: b :: c :: e :: r, w, hw => by
    rw [words] at hw
    rcases List.mem_cons.mp hw with hw | hw
    · rw [hw]; simp
    · exact words_ne r w hw
  | [], w, hw => by simp [words] at hw
  | [_], w, hw => by simp [words] at hw
  | [_, _], w, hw => by simp [words] at hw
  | [_, _, _], w, hw => by simp [words] at hw

theorem writeWords_seq {p : Plat} (hp : ∀ i, p.answer i = true) {size : Nat} (l : List Bytes) : ∀ {c : Ctx},
    (∀ w ∈ l, w ≠ []) → Seq size c → Seq size (writeWords p c l).2 := by
  induction l with
  | nil => intro c _ h; exact h
  | cons w l ih =>
    intro c hw h
    have := platWrite_seq hp h (hw w (by simp))
    unfold writeWords
    generalize platWrite p c w = r at this
    obtain ⟨ok, c1⟩ := r
    cases ok with
    | false => exact this
    | true => exact ih (fun x hx => hw x (by simp [hx])) this

theorem putBlock_seq {p : Plat} (hp : ∀ i, p.answer i = true) {size : Nat} {c : Ctx} {t a : Nat} {d : Bytes}
    {w : Bool} (hd : d ≠ []) (h : Seq size c) : Seq size (putBlock p c t a d w).2 := by
  have h1 := platWrite_seq hp (d := blockHeader t a d.length) h (by simp [blockHeader])
  unfold putBlock
  generalize platWrite p c (blockHeader t a d.length) = r at h1
  obtain ⟨ok, c1⟩ := r
  cases ok with
  | false => exact h1
  | true =>
    simp only
    split
    · exact platWrite_seq hp h1 hd
    · have h2 := writeWords_seq hp (words d) (words_ne d) h1
      generalize writeWords p c1 (words d) = r at h2
      obtain ⟨ok, c2⟩ := r
      cases ok <;> exact h2

theorem writeBlock_seq {p : Plat} (hp : ∀ i, p.answer i = true) {size : Nat} {c : Ctx} {t a : Nat}
    {d : Option Bytes} {w : Bool} (h : Seq size c) : Seq size (writeBlock p c t a d w).2 := by
  unfold writeBlock
  cases d with
  | none => exact h
  | some d =>
    simp only
    split
    · exact h
    · rename_i h0
      cases hf : fitSize c d.length with
      | none => exact h.flag _
      | some n =>
        refine putBlock_seq hp ?_ (h.flag _)
        have hn : n ≠ 0 := by
          unfold fitSize at hf
          split at hf
          · split at hf
            · cases hf
            · split at hf
              · cases hf
              · cases hf; assumption
          · cases hf; exact h0
        intro hx
        have := congrArg List.length hx
        rw [List.length_take, List.length_nil] at this
        omega

theorem pad_seq {p : Plat} (hp : ∀ i, p.answer i = true) {size : Nat} {c : Ctx} (h : Seq size c) :
    Seq size (pad p c) := by
  unfold pad
  split
  · exact h
  · exact writeBlock_seq hp h

theorem writeRegion_seq {p : Plat} (hp : ∀ i, p.answer i = true) {size : Nat} {c : Ctx} (r : Region)
    (h : Seq size c) : Seq size (writeRegion p c r).2 := by
  cases r <;> unfold writeRegion
  case cached valid a d =>
    simp only
    split
    · exact writeBlock_seq hp (pad_seq hp h)
    · exact pad_seq hp h
  all_goals exact writeBlock_seq hp (pad_seq hp h)

theorem writeRegions_seq {p : Plat} (hp : ∀ i, p.answer i = true) {size : Nat} (rs : List Region) :
    ∀ {c : Ctx}, Seq size c → Seq size (writeRegions p c rs).2 := by
  induction rs with
  | nil => intro c h; exact h
  | cons r rs ih =>
    intro c h
    have := writeRegion_seq hp r h
    unfold writeRegions
    generalize writeRegion p c r = x at this
    obtain ⟨ok, c1⟩ := x
    cases ok with
    | false => exact this
    | true => exact ih this

theorem writeFixed_seq {p : Plat} (hp : ∀ i, p.answer i = true) {size : Nat} (bs : List (Nat × Option Bytes)) :
    ∀ {c : Ctx}, Seq size c → Seq size (writeFixed p c bs).2 := by
  induction bs with
  | nil => intro c h; exact h
  | cons b bs ih =>
    intro c h
    have := writeBlock_seq hp (t := b.1) (a := 0) (d := b.2) (w := false) h
    unfold writeFixed
    generalize writeBlock p c b.1 0 b.2 false = x at this
    obtain ⟨ok, c1⟩ := x
    cases ok with
    | false => exact this
    | true => exact ih this

theorem writeAllRegions_seq {p : Plat} (hp : ∀ i, p.answer i = true) {size : Nat} {c : Ctx} (info : SaveInfo)
    (h : Seq size c) : Seq size (writeAllRegions p c info).2 := by
  rw [writeAllRegions_eq]
  exact writeRegions_seq hp _ h

/-- The operations of a successful save on a storage that works. -/
theorem save_seq {p : Plat} (hp : ∀ i, p.answer i = true) {mem : Bytes} {info : SaveInfo} {n : Nat}
    (h : (save p mem info).1 = some n) :
    ∃ ds, (∀ d ∈ ds, d ≠ []) ∧ n = 12 + ds.flatten.length ∧ 16 ≤ ds.flatten.length ∧
      (save p mem info).2 = .erase mem.length :: (pieces 12 ds).map wr ++ [.write 0 (header n)] := by
  obtain ⟨h12, hs⟩ := Props.save_some h
  rw [hs] at h ⊢
  simp only at h ⊢
  have h0 : Seq mem.length (firstCtx false mem.length [.erase mem.length]) :=
    ⟨rfl, [], by simp, rfl, rfl⟩
  generalize firstCtx false mem.length [.erase mem.length] = c0 at h0 h ⊢
  unfold writeSections at h ⊢
  have h1 := writeFixed_seq hp (fixedBlocks info) h0
  generalize writeFixed p c0 (fixedBlocks info) = x at h1 h ⊢
  obtain ⟨ok, c1⟩ := x
  cases ok with
  | false => simp at h
  | true =>
    simp only at h h1 ⊢
    have h2 := writeAllRegions_seq hp info h1
    generalize writeAllRegions p c1 info = x at h2 h ⊢
    obtain ⟨completed, c2⟩ := x
    simp only at h h2 ⊢
    split at h
    · simp at h
    rename_i hc
    rw [if_neg hc]
    obtain ⟨m, ds, e1, e2, e3⟩ := h2
    have hf : footer c2.truncated ≠ [] := by simp [footer, le32]
    have hw : platWrite p c2 (footer c2.truncated) =
        (true, { c2 with offset := c2.offset + 16, ops := c2.ops ++ [.write c2.offset (footer c2.truncated)] }) := by
      unfold platWrite
      rw [m]
      simp only [Bool.false_eq_true, if_false, hp, if_true, length_footer]
    unfold writeEnd at h ⊢
    rw [hw] at h ⊢
    simp only at h ⊢
    unfold platWrite at h ⊢
    simp only [m, Bool.false_eq_true, if_false, hp, if_true] at h ⊢
    injection h with h
    refine ⟨ds ++ [footer c2.truncated], ?_, ?_, ?_, ?_⟩
    · intro x hx
      rcases List.mem_append.mp hx with hx | hx
      · exact e1 x hx
      · rw [List.mem_singleton.mp hx]; exact hf
    · rw [← h, e2]; simp [length_footer, Nat.add_assoc]
    · simp [length_footer]
    · rw [pieces_append, e3, e2]
      rw [← h, e2]
      simp [wr]

end Mflt.Coredump
