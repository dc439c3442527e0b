import Verif.Model.CortexM

/-! # Lemmas: stacking and the exception handlers -/

namespace Mflt.CortexM

open Spec.CortexM

theorem sub_eq {a b : Nat} (h : b ≤ a) (ha : a < 4294967296) : sub a b = a - b := by
  unfold sub; omega

theorem add_eq {a b : Nat} (h : a + b < 4294967296) : add a b = a + b := by
  unfold add; omega

theorem store_at (ws : List Nat) : ∀ (mem : Nat → Nat) (a : Nat), a + 4 * ws.length ≤ 4294967296 →
    (∀ i, i < ws.length → store mem a ws (a + 4 * i) = ws.getD i 0) ∧
    ∀ x, (x < a ∨ a + 4 * ws.length ≤ x) → store mem a ws x = mem x := by
  induction ws with
  | nil => intro mem a _; exact ⟨by simp, fun x _ => rfl⟩
  | cons w ws ih =>
    intro mem a h
    simp only [List.length_cons] at h
    unfold store
    by_cases hlast : ws = []
    · subst hlast
      refine ⟨?_, ?_⟩
      · intro i hi
        simp only [List.length_cons, List.length_nil] at hi
        have : i = 0 := by omega
        subst this
        simp [store]
      · intro x hx
        simp only [List.length_cons, List.length_nil] at hx
        simp only [store]
        rw [if_neg (by omega)]
    · have hl : 0 < ws.length := List.length_pos_iff.2 hlast
      rw [add_eq (by omega)]
      obtain ⟨h1, h2⟩ := ih (fun x => if x = a then w else mem x) (a + 4) (by omega)
      refine ⟨?_, ?_⟩
      · intro i hi
        simp only [List.length_cons] at hi
        cases i with
        | zero =>
          rw [h2 _ (by omega)]
          simp
        | succ i =>
          have := h1 i (by omega)
          rw [show a + 4 * (i + 1) = a + 4 + 4 * i by omega, this]
          simp
      · intro x hx
        simp only [List.length_cons] at hx
        rw [h2 x (by omega), if_neg (by omega)]

theorem and_testBit (x i : Nat) : (x &&& 1 <<< i = 0) ↔ x.testBit i = false := by
  rw [Nat.one_shiftLeft]
  constructor
  · intro h
    have := congrArg (fun y => y.testBit i) h
    simpa [Nat.testBit_and, Nat.testBit_two_pow] using this
  · intro h
    apply Nat.eq_of_testBit_eq
    intro j
    rw [Nat.testBit_and, Nat.testBit_two_pow]
    by_cases hj : i = j
    · subst hj; simp [h]
    · simp [hj]

/-- What an exception handler passes on: the registers that are not stacked, in a structure on the main
stack, and the reason. -/
structure Passed (h h' : Handler) (reason : Nat) : Prop where
  r0 : h'.r 0 = h.msp - 40
  r1 : h'.r 1 = reason
  msp : h'.msp = h.msp - 40
  psp : h'.psp = h.psp
  state : ∀ i, i < 10 → h'.mem (h.msp - 40 + 4 * i) =
    [if h.lr.testBit 2 then h.psp else h.msp, h.r 4, h.r 5, h.r 6, h.r 7, h.r 8, h.r 9, h.r 10, h.r 11,
      h.lr].getD i 0
  mem : ∀ a, (a < h.msp - 40 ∨ h.msp ≤ a) → h'.mem a = h.mem a

theorem and_four (x : Nat) : (x &&& 4 == 0) = !x.testBit 2 := by
  have := and_testBit x 2
  rw [show (1 : Nat) <<< 2 = 4 from rfl] at this
  cases h : x.testBit 2
  · simpa using this.2 h
  · have hn : ¬ (x &&& 4 = 0) := fun hx => by rw [this.1 hx] at h; cases h
    simpa using hn

/-- What the two ways of pushing leave in memory. -/
theorem one_store {mem : Nat → Nat} {m : Nat} {ws : List Nat} (hl : ws.length = 10) (h0 : 40 ≤ m)
    (hm : m < 4294967296) :
    (∀ i, i < 10 → store mem (m - 40) ws (m - 40 + 4 * i) = ws.getD i 0) ∧
    ∀ a, (a < m - 40 ∨ m ≤ a) → store mem (m - 40) ws a = mem a := by
  have hs := store_at ws mem (m - 40) (by omega)
  exact ⟨fun i hi => hs.1 i (by omega), fun a ha => hs.2 a (by omega)⟩

theorem two_stores {mem : Nat → Nat} {m : Nat} {ws vs : List Nat} (hw : ws.length = 5) (hv : vs.length = 5)
    (h0 : 40 ≤ m) (hm : m < 4294967296) :
    (∀ i, i < 10 → store (store mem (m - 20) vs) (m - 40) ws (m - 40 + 4 * i) = (ws ++ vs).getD i 0) ∧
    ∀ a, (a < m - 40 ∨ m ≤ a) → store (store mem (m - 20) vs) (m - 40) ws a = mem a := by
  have h1 := store_at vs mem (m - 20) (by omega)
  have h2 := store_at ws (store mem (m - 20) vs) (m - 40) (by omega)
  refine ⟨fun i hi => ?_, fun a ha => ?_⟩
  · by_cases hi5 : i < 5
    · rw [h2.1 i (by omega), List.getD_eq_getElem?_getD, List.getD_eq_getElem?_getD,
        List.getElem?_append_left (by omega)]
    · rw [h2.2 _ (by omega), show m - 40 + 4 * i = m - 20 + 4 * (i - 5) by omega, h1.1 (i - 5) (by omega),
        List.getD_eq_getElem?_getD, List.getD_eq_getElem?_getD, List.getElem?_append_right (by omega), hw]
  · rw [h2.2 a (by omega), h1.2 a (by omega)]

theorem shim_passed {h : Handler} (compiler : Compiler) (v6 : Bool) (reason address : Nat)
    (h0 : 40 ≤ h.msp) (hm : h.msp < 4294967296) :
    Passed h (run h (shim compiler v6 reason address)) reason := by
  have s40 : sub h.msp 40 = h.msp - 40 := sub_eq h0 hm
  have s20 : sub h.msp 20 = h.msp - 20 := sub_eq (by omega) hm
  have s2020 : sub (h.msp - 20) 20 = h.msp - 40 := by rw [sub_eq (by omega) (by omega)]; omega
  cases compiler <;> cases v6 <;>
    cases hb : h.lr.testBit 2 <;>
    simp only [shim, shimGcc, shimGccV6, shimArmcc, shimArmccV6, shimTi, shimIar, shimIarV6, run,
      List.foldl_cons, List.foldl_nil, exec, Handler.set, Handler.get] <;>
    simp [and_four, hb, Handler.get, s40, s20, s2020] <;>
    refine ⟨by simp, by simp, by simp, by simp, ?_, ?_⟩ <;>
    first
    | (simp only [hb]; exact (one_store rfl h0 hm).1)
    | exact (one_store rfl h0 hm).2
    | (simp only [hb]; exact (two_stores rfl rfl h0 hm).1)
    | exact (two_stores rfl rfl h0 hm).2

end Mflt.CortexM
