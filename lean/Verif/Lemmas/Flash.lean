import Verif.Spec.Flash
import Verif.Lemmas.CoredumpSeq

/-! # Lemmas: flash memory -/

namespace Mflt.Spec.Flash

open Mflt.Coredump (Op wr)
open Spec.BufferedStorage (pieces)
open Spec.Coredump (apply)

theorem ff_and (x : UInt8) : 0xff &&& x = x := by
  apply UInt8.toBitVec_inj.1
  apply BitVec.eq_of_getLsbD_eq
  intro i hi
  have : (0xff#8).getLsbD i = true := by
    have : i = 0 ∨ i = 1 ∨ i = 2 ∨ i = 3 ∨ i = 4 ∨ i = 5 ∨ i = 6 ∨ i = 7 := by omega
    rcases this with rfl | rfl | rfl | rfl | rfl | rfl | rfl | rfl <;> rfl
  show (0xff#8 &&& x.toBitVec).getLsbD i = _
  rw [BitVec.getLsbD_and, this, Bool.true_and]

theorem read_length (m : Flash) (a n : Nat) : (read m a n).length = n := by simp [read]

theorem read_get (m : Flash) (a n i : Nat) : (read m a n)[i]? = if i < n then some (m (a + i)) else none := by
  unfold read
  by_cases h : i < n <;> simp [h]

theorem read_ext {m m' : Flash} {a n : Nat} (h : ∀ i, i < n → m (a + i) = m' (a + i)) : read m a n = read m' a n := by
  apply List.ext_getElem?
  intro i
  rw [read_get, read_get]
  split
  · rw [h i (by assumption)]
  · rfl

theorem program_out {m : Flash} {a : Nat} {d : Bytes} {i : Nat} (h : ¬ (a ≤ i ∧ i < a + d.length)) :
    program m a d i = m i := by
  unfold program; rw [if_neg h]

theorem program_in {m : Flash} {a : Nat} {d : Bytes} {i : Nat} (h : i < d.length) :
    program m a d (a + i) = m (a + i) &&& d.getD i 0xff := by
  unfold program; rw [if_pos (by omega), Nat.add_sub_cancel_left]

theorem program_nil (m : Flash) (a : Nat) : program m a [] = m := by
  funext i; unfold program; rw [if_neg (by simp only [List.length_nil]; omega)]

theorem getD_append (x y : Bytes) (i : Nat) : (x ++ y).getD i 0xff =
    if i < x.length then x.getD i 0xff else y.getD (i - x.length) 0xff := by
  rw [List.getD_eq_getElem?_getD, List.getElem?_append]
  split <;> rw [List.getD_eq_getElem?_getD]

/-- Two parts one after the other. -/
theorem program_append (m : Flash) (a : Nat) (x y : Bytes) :
    program (program m a x) (a + x.length) y = program m a (x ++ y) := by
  funext i
  unfold program
  rw [List.length_append, getD_append]
  by_cases h1 : a ≤ i
  · by_cases h2 : i < a + x.length
    · rw [if_neg (by omega), if_pos (by omega), if_pos (by omega), if_pos (by omega)]
    · by_cases h3 : i < a + x.length + y.length
      · rw [if_pos (by omega), if_neg (by omega), if_pos (by omega), if_neg (by omega),
          show i - a - x.length = i - (a + x.length) by omega]
      · rw [if_neg (by omega), if_neg (by omega), if_neg (by omega)]
  · rw [if_neg (by omega), if_neg (by omega), if_neg (by omega)]

theorem erase_append (m : Flash) (a x y : Nat) : erase (erase m a x) (a + x) y = erase m a (x + y) := by
  funext i
  unfold erase
  by_cases h1 : a ≤ i ∧ i < a + x
  · rw [if_neg (by omega), if_pos h1, if_pos (by omega)]
  · by_cases h2 : a + x ≤ i ∧ i < a + x + y
    · rw [if_pos h2, if_pos (by omega)]
    · rw [if_neg h2, if_neg h1, if_neg (by omega)]

theorem erase_zero (m : Flash) (a : Nat) : erase m a 0 = m := by
  funext i; unfold erase; rw [if_neg (by omega)]

theorem erase_in {m : Flash} {a n i : Nat} (h : i < n) : erase m a n (a + i) = 0xff := by
  unfold erase; rw [if_pos (by omega)]

theorem Only.refl (a n : Nat) (m : Flash) : Only a n m m := fun _ _ => rfl

theorem Only.trans {a n : Nat} {m m1 m2 : Flash} (h1 : Only a n m m1) (h2 : Only a n m1 m2) : Only a n m m2 :=
  fun i hi => (h2 i hi).trans (h1 i hi)

theorem Only.widen {a n b k : Nat} {m m1 : Flash} (h : Only a n m m1) (h1 : b ≤ a) (h2 : a + n ≤ b + k) :
    Only b k m m1 := fun i hi => h i (by omega)

theorem only_program {m : Flash} {a : Nat} {d : Bytes} : Only a d.length m (program m a d) :=
  fun i hi => program_out (by omega)

theorem only_erase {m : Flash} {a n : Nat} : Only a n m (erase m a n) := by
  intro i hi; unfold erase; rw [if_neg (by omega)]

/-- A range of addresses is erased. -/
def Blank (m : Flash) (a n : Nat) : Prop := ∀ i, i < n → m (a + i) = 0xff

theorem program_blank {m : Flash} {a : Nat} {d : Bytes} {i : Nat} (hb : Blank m a d.length) (hi : i < d.length) :
    program m a d (a + i) = d.getD i 0xff := by
  rw [program_in hi, hb i hi, ff_and]

/-- The bytes of a storage after a write to an erased part of it. -/
theorem read_program {m : Flash} {start size o : Nat} {d : Bytes} (ho : o + d.length ≤ size)
    (hb : Blank m (start + o) d.length) :
    read (program m (start + o) d) start size = apply 0xff (read m start size) (.write o d) := by
  have hl := read_length m start size
  apply List.ext_getElem?
  intro i
  show _ = ((read m start size).take o ++ d ++ (read m start size).drop (o + d.length))[i]?
  rw [List.getElem?_append, List.getElem?_append, List.length_append, List.length_take, hl,
    Nat.min_eq_left (by omega), read_get, List.getElem?_drop, read_get]
  by_cases h1 : i < o
  · rw [if_pos (by omega), if_pos (by omega), if_pos h1, List.getElem?_take_of_lt h1, read_get, if_pos (by omega),
      program_out (by omega)]
  · by_cases h2 : i < o + d.length
    · rw [if_pos (by omega), if_pos h2, if_neg h1]
      have := program_blank (i := i - o) hb (by omega)
      rw [show start + o + (i - o) = start + i by omega] at this
      rw [this, List.getD_eq_getElem?_getD, List.getElem?_eq_getElem (by omega), Option.getD_some]
    · rw [if_neg h2, show o + d.length + (i - (o + d.length)) = i by omega]
      split
      · rw [program_out (by omega)]
      · rfl

theorem read_erase {m m' : Flash} {start size : Nat} (h : Blank m' start size) :
    read m' start size = apply 0xff (read m start size) (.erase size) := by
  have hl := read_length m start size
  apply List.ext_getElem?
  intro i
  show _ = (List.replicate size 0xff ++ (read m start size).drop size)[i]?
  rw [read_get, List.getElem?_append, List.length_replicate, List.getElem?_drop, read_get]
  by_cases h1 : i < size
  · rw [if_pos h1, if_pos h1, h i h1, List.getElem?_replicate, if_pos h1]
  · rw [if_neg h1, if_neg h1, if_neg (by omega)]

/-- The places of two writes have nothing in common. -/
def Apart (x y : Nat × Bytes) : Prop := x.1 + x.2.length ≤ y.1 ∨ y.1 + y.2.length ≤ x.1

theorem runOps_append (p : Port) (xs ys : List Op) : ∀ m, runOps p m (xs ++ ys) = (runOps p m xs).bind (runOps p · ys) := by
  induction xs with
  | nil => intro m; rfl
  | cons x xs ih =>
    intro m
    cases x with
    | erase n =>
      simp only [List.cons_append, runOps]
      rcases p.erase m 0 n with _ | ⟨b, m'⟩
      · rfl
      · cases b
        · rfl
        · exact ih m'
    | write o d =>
      simp only [List.cons_append, runOps]
      rcases p.write m o d with _ | ⟨b, m'⟩
      · rfl
      · cases b
        · rfl
        · exact ih m'

/-- Writes to different erased places. -/
theorem runOps_writes {start size lo len : Nat} {p : Port} (hS : Storage start size lo len p) (ws : List (Nat × Bytes)) :
    ∀ m, (∀ w ∈ ws, w.2 ≠ [] ∧ w.1 + w.2.length ≤ size ∧ Blank m (start + w.1) w.2.length) → ws.Pairwise Apart →
      ∃ m', runOps p m (ws.map wr) = some m' ∧ Only start size m m' ∧
        read m' start size = (ws.map wr).foldl (apply 0xff) (read m start size) := by
  induction ws with
  | nil => intro m _ _; exact ⟨m, rfl, Only.refl _ _ _, rfl⟩
  | cons w ws ih =>
    intro m hw hp
    obtain ⟨h1, h2, h3⟩ := hw w (by simp)
    rw [List.pairwise_cons] at hp
    obtain ⟨m', e1, e2, e3⟩ := ih (program m (start + w.1) w.2) (by
      intro x hx
      obtain ⟨x1, x2, x3⟩ := hw x (by simp [hx])
      refine ⟨x1, x2, fun i hi => ?_⟩
      have := hp.1 x hx
      unfold Apart at this
      rw [program_out (by omega), x3 i hi]) hp.2
    refine ⟨m', ?_, ?_, ?_⟩
    · rw [List.map_cons, wr, runOps, hS.write_eq _ _ _ h1 h2]
      exact e1
    · exact (only_program.widen (by omega) (by omega)).trans e2
    · rw [e3, List.map_cons, List.foldl_cons, wr, read_program h2 h3]

theorem pieces_ge (ds : List Bytes) : ∀ o, ∀ x ∈ pieces o ds, o ≤ x.1 ∧ x.1 + x.2.length ≤ o + ds.flatten.length ∧ x.2 ∈ ds := by
  induction ds with
  | nil => intro o x hx; simp [pieces] at hx
  | cons d ds ih =>
    intro o x hx
    rw [pieces] at hx
    rw [List.flatten_cons, List.length_append]
    rcases List.mem_cons.mp hx with rfl | hx
    · exact ⟨Nat.le_refl _, by simp only; omega, by simp⟩
    · obtain ⟨a, b, c⟩ := ih _ x hx
      exact ⟨by omega, by omega, by simp [c]⟩

theorem pieces_apart (ds : List Bytes) : ∀ o, (pieces o ds).Pairwise Apart := by
  induction ds with
  | nil => intro o; simp [pieces]
  | cons d ds ih =>
    intro o
    rw [pieces, List.pairwise_cons]
    exact ⟨fun x hx => .inl (pieces_ge ds _ x hx).1, ih _⟩

/-- All operations of a save, and any number of the first ones. -/
theorem runOps_save {start size lo len : Nat} {p : Port} (hS : Storage start size lo len p) {ds : List Bytes}
    {hdr : Bytes} (hd : ∀ d ∈ ds, d ≠ []) (hh : hdr.length = 12) (hn : 12 + ds.flatten.length ≤ size) (m : Flash) (k : Nat) :
    ∃ m', runOps p m ((Op.erase size :: (pieces 12 ds).map wr ++ [Op.write 0 hdr]).take k) = some m' ∧
      Only lo len m m' ∧ read m' start size =
        ((Op.erase size :: (pieces 12 ds).map wr ++ [Op.write 0 hdr]).take k).foldl (apply 0xff) (read m start size) := by
  cases k with
  | zero => exact ⟨m, rfl, Only.refl _ _ _, rfl⟩
  | succ k =>
    obtain ⟨m1, e1, e2, e3⟩ := hS.erase_all m
    have hin : ∀ w ∈ pieces 12 ds ++ [(0, hdr)], w.2 ≠ [] ∧ w.1 + w.2.length ≤ size := by
      intro w hw
      rcases List.mem_append.mp hw with hw | hw
      · obtain ⟨h1, h2, h3⟩ := pieces_ge _ _ _ hw
        exact ⟨hd _ h3, by omega⟩
      · rw [List.mem_singleton.mp hw]
        refine ⟨?_, by simp only; omega⟩
        intro h; rw [show hdr = [] from h] at hh; simp at hh
    have hap : (pieces 12 ds ++ [(0, hdr)]).Pairwise Apart := by
      rw [List.pairwise_append]
      refine ⟨pieces_apart _ _, by simp, ?_⟩
      intro x hx y hy
      rw [List.mem_singleton.mp hy]
      have := (pieces_ge _ _ _ hx).1
      right; simp only; omega
    obtain ⟨m2, f1, f2, f3⟩ := runOps_writes hS ((pieces 12 ds ++ [(0, hdr)]).take k) m1 (by
      intro w hw
      obtain ⟨w1, w2⟩ := hin w (List.mem_of_mem_take hw)
      refine ⟨w1, w2, fun i hi => ?_⟩
      rw [Nat.add_assoc]; exact e3 _ (by omega)) (hap.sublist (List.take_sublist ..))
    have hl : (pieces 12 ds).map wr ++ [Op.write 0 hdr] = (pieces 12 ds ++ [(0, hdr)]).map wr := by simp [wr]
    refine ⟨m2, ?_, e2.trans (f2.widen hS.inside.1 hS.inside.2), ?_⟩
    · rw [List.cons_append, hl, List.take_succ_cons, ← List.map_take, runOps, e1]
      exact f1
    · rw [f3, List.cons_append, hl, List.take_succ_cons, ← List.map_take, List.foldl_cons,
        ← read_erase (m := m) e3]

end Mflt.Spec.Flash
