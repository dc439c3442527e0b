import Verif.Model.ExampleSbrk

/-!
# C133: growing the heap of the FreeRTOS example
-/

namespace Mflt.Props

open Mflt.Spec.ExampleSbrk Mflt.ExampleSbrk

namespace ExampleSbrkAux

/-- The return value for an answer. -/
def ret (bottom : BitVec 32) : Option Nat → BitVec 32
  | some u => BitVec.ofNat 32 (bottom.toNat + u)
  | none => 0xFFFFFFFF#32

theorem step {bottom top e r : BitVec 32} {used : Nat} (hb : 0 < bottom.toNat) (ht : top.toNat < 2 ^ 31)
    (hu : bottom.toNat + used ≤ top.toNat) (he : e.toNat = bottom.toNat + used ∨ (e = 0 ∧ used = 0))
    (hk : 0 ≤ (used : Int) + r.toInt) :
    if (used : Int) + r.toInt ≤ (top.toNat - bottom.toNat : Nat) then
      (sbrk bottom top e r).2.toNat = bottom.toNat + used ∧
        (sbrk bottom top e r).1.toNat = bottom.toNat + ((used : Int) + r.toInt).toNat
    else (sbrk bottom top e r).2 = 0xFFFFFFFF#32 ∧ (sbrk bottom top e r).1.toNat = bottom.toNat + used := by
  have hx : (if e = 0 then bottom else e).toNat = bottom.toNat + used := by
    rcases he with he | ⟨he, h0⟩
    · rw [if_neg]
      · exact he
      · intro h
        rw [h] at he
        have : (0 : BitVec 32).toNat = 0 := rfl
        omega
    · rw [if_pos he, h0]
      rfl
  unfold sbrk
  generalize (if e = 0 then bottom else e) = x at hx
  have hr := BitVec.toInt_eq_toNat_cond r
  have hlt := r.isLt
  have hs : (x + r).toNat = bottom.toNat + ((used : Int) + r.toInt).toNat := by
    rw [BitVec.toNat_add, hx]
    rw [hr] at hk ⊢
    split at hk
    · rw [if_pos (by assumption)]
      omega
    · rw [if_neg (by assumption)]
      omega
  by_cases hc : (used : Int) + r.toInt ≤ (top.toNat - bottom.toNat : Nat)
  · rw [if_pos hc]
    have : ¬ top < x + r := by
      rw [BitVec.lt_def, hs]
      omega
    simp only [this, if_false]
    exact ⟨hx, hs⟩
  · rw [if_neg hc]
    have : top < x + r := by
      rw [BitVec.lt_def, hs]
      omega
    simp only [this, if_true]
    exact ⟨by decide, hx⟩

theorem all {bottom top : BitVec 32} (hb : 0 < bottom.toNat) (ht : top.toNat < 2 ^ 31) :
    ∀ (l : List (BitVec 32)) (e : BitVec 32) (used : Nat), bottom.toNat + used ≤ top.toNat →
      (e.toNat = bottom.toNat + used ∨ (e = 0 ∧ used = 0)) → Keeps (top.toNat - bottom.toNat) used (l.map BitVec.toInt) →
      calls bottom top e l = (answers (top.toNat - bottom.toNat) used (l.map BitVec.toInt)).map (ret bottom) := by
  intro l
  induction l with
  | nil => intros; rfl
  | cons r l ih =>
    intro e used hu he hk
    obtain ⟨hk1, hk2⟩ := hk
    have h := step hb ht hu he hk1
    show (sbrk bottom top e r).2 :: calls bottom top (sbrk bottom top e r).1 l = _
    show _ = List.map (ret bottom) (if 0 ≤ (used : Int) + r.toInt ∧ (used : Int) + r.toInt ≤ (top.toNat - bottom.toNat : Nat) then
      some used :: answers _ ((used : Int) + r.toInt).toNat (l.map BitVec.toInt) else none :: answers _ used (l.map BitVec.toInt))
    by_cases hc : (used : Int) + r.toInt ≤ (top.toNat - bottom.toNat : Nat)
    · rw [if_pos hc] at h hk2
      rw [if_pos ⟨hk1, hc⟩, List.map_cons, ih _ _ (by omega) (Or.inl h.2) hk2]
      congr 1
      refine BitVec.eq_of_toNat_eq ?_
      rw [h.1]
      show _ = (bottom.toNat + used) % 2 ^ 32
      rw [Nat.mod_eq_of_lt (by omega)]
    · rw [if_neg hc] at h hk2
      rw [if_neg fun h' => hc h'.2, List.map_cons, ih _ _ hu (Or.inl h.2) hk2, h.1]
      rfl

theorem keeps_grow {size : Nat} : ∀ (l : List Int) (used : Nat), (∀ i ∈ l, 0 ≤ i) → Keeps size used l := by
  intro l
  induction l with
  | nil => intros; trivial
  | cons i l ih =>
    intro used h
    have := h i (List.mem_cons_self ..)
    exact ⟨by omega, ih _ fun j hj => h j (List.mem_cons_of_mem _ hj)⟩

theorem answers_in {size : Nat} : ∀ (l : List Int) (used : Nat), (∀ i ∈ l, 0 ≤ i) → ∀ (k u : Nat) (r : Int),
    (answers size used l)[k]? = some (some u) → l[k]? = some r → used ≤ u ∧ (u : Int) + r ≤ size := by
  intro l
  induction l with
  | nil => intro _ _ k u r _ h; exact nomatch h
  | cons i l ih =>
    intro used hp k u r h hr
    have h0 := hp i (List.mem_cons_self ..)
    have hl : ∀ j ∈ l, 0 ≤ j := fun j hj => hp j (List.mem_cons_of_mem _ hj)
    unfold answers at h
    by_cases hc : 0 ≤ (used : Int) + i ∧ (used : Int) + i ≤ size
    · rw [if_pos hc] at h
      cases k with
      | zero =>
        rw [List.getElem?_cons_zero] at h hr
        injection h with h
        injection h with h
        injection hr with hr
        omega
      | succ k =>
        rw [List.getElem?_cons_succ] at h hr
        have := ih _ hl k u r h hr
        omega
    · rw [if_neg hc] at h
      cases k with
      | zero =>
        rw [List.getElem?_cons_zero] at h
        injection h with h
        exact nomatch h
      | succ k =>
        rw [List.getElem?_cons_succ] at h hr
        exact ih _ hl k u r h hr

theorem answers_apart {size : Nat} : ∀ (l : List Int) (used : Nat), (∀ i ∈ l, 0 ≤ i) → ∀ (j k u v : Nat) (r q : Int), j < k →
    (answers size used l)[j]? = some (some u) → (answers size used l)[k]? = some (some v) → l[j]? = some r → l[k]? = some q →
    (u : Int) + r ≤ v := by
  intro l
  induction l with
  | nil => intro _ _ j k u v r q _ _ _ h; exact nomatch h
  | cons i l ih =>
    intro used hp j k u v r q hjk hu hv hr hq
    have h0 := hp i (List.mem_cons_self ..)
    have hl : ∀ j ∈ l, 0 ≤ j := fun j hj => hp j (List.mem_cons_of_mem _ hj)
    obtain ⟨k, rfl⟩ : ∃ m, k = m + 1 := ⟨k - 1, by omega⟩
    unfold answers at hu hv
    by_cases hc : 0 ≤ (used : Int) + i ∧ (used : Int) + i ≤ size
    · rw [if_pos hc] at hu hv
      rw [List.getElem?_cons_succ] at hv hq
      cases j with
      | zero =>
        rw [List.getElem?_cons_zero] at hu hr
        injection hu with hu
        injection hu with hu
        injection hr with hr
        have := answers_in l _ hl k v q hv hq
        omega
      | succ j =>
        rw [List.getElem?_cons_succ] at hu hr
        exact ih _ hl j k u v r q (by omega) hu hv hr hq
    · rw [if_neg hc] at hu hv
      rw [List.getElem?_cons_succ] at hv hq
      cases j with
      | zero =>
        rw [List.getElem?_cons_zero] at hu
        injection hu with hu
        exact nomatch hu
      | succ j =>
        rw [List.getElem?_cons_succ] at hu hr
        exact ih _ hl j k u v r q (by omega) hu hv hr hq

theorem ret_some {bottom top : BitVec 32} {l : List (BitVec 32)} {k : Nat} {p r : BitVec 32} (hb : 0 < bottom.toNat)
    (ht : top.toNat < 2 ^ 31) (hbt : bottom.toNat ≤ top.toNat) (hg : ∀ r ∈ l, 0 ≤ r.toInt)
    (hp : (calls bottom top 0 l)[k]? = some p) (hr : l[k]? = some r) (hn : p ≠ 0xFFFFFFFF#32) :
    ∃ u, (answers (top.toNat - bottom.toNat) 0 (l.map BitVec.toInt))[k]? = some (some u) ∧ p.toNat = bottom.toNat + u := by
  have hl : ∀ i ∈ l.map BitVec.toInt, 0 ≤ i := by
    intro i hi
    obtain ⟨r, hr, rfl⟩ := List.mem_map.1 hi
    exact hg r hr
  rw [all hb ht l 0 0 (by omega) (Or.inr ⟨rfl, rfl⟩) (keeps_grow _ _ hl), List.getElem?_map] at hp
  obtain ⟨a, ha, hp⟩ := Option.map_eq_some_iff.1 hp
  cases a with
  | none => exact absurd hp.symm hn
  | some u =>
    refine ⟨u, ha, ?_⟩
    rw [← hp]
    have hm : (l.map BitVec.toInt)[k]? = some r.toInt := by rw [List.getElem?_map, hr]; rfl
    have h1 := answers_in _ _ hl k u _ ha hm
    have h2 := hl _ (List.mem_of_getElem? hm)
    show (bottom.toNat + u) % 2 ^ 32 = _
    rw [Nat.mod_eq_of_lt (by omega)]

end ExampleSbrkAux

open ExampleSbrkAux

/-- C133. Every sequence of requests to grow and shrink the heap is answered as by a heap of the size between the two symbols of the
linker: with where the memory starts, or with -1 exactly if it has not that much left. Missing: a request that gives back more than
is given out (`C133_false_shrink`). -/
theorem C133_answers_partial (bottom top : BitVec 32) (hb : 0 < bottom.toNat) (hbt : bottom.toNat ≤ top.toNat)
    (ht : top.toNat < 2 ^ 31) (requests : List (BitVec 32))
    (hk : Keeps (top.toNat - bottom.toNat) 0 (requests.map BitVec.toInt)) :
    calls bottom top 0 requests = (answers (top.toNat - bottom.toNat) 0 (requests.map BitVec.toInt)).map fun a =>
      match a with
      | some u => BitVec.ofNat 32 (bottom.toNat + u)
      | none => 0xFFFFFFFF#32 := by
  rw [all hb ht requests 0 0 (by omega) (Or.inr ⟨rfl, rfl⟩) hk]
  refine List.map_congr_left fun a _ => ?_
  cases a <;> rfl

example : calls 0x1000 0x1010 0 [8, 9, 8, -4, 0, 5] = [0x1000, -1, 0x1008, 0x1010, 0x100c, -1] ∧
    answers 0x10 0 [8, 9, 8, -4, 0, 5] = [some 0, none, some 8, some 16, some 12, none] ∧
    Keeps 0x10 0 [8, 9, 8, -4, 0, 5] := by
  refine ⟨by decide, by decide, ?_⟩
  simp [Keeps]

/-- C133. As long as the heap only grows, all memory given out is in the heap. -/
theorem C133_inside (bottom top : BitVec 32) (hb : 0 < bottom.toNat) (hbt : bottom.toNat ≤ top.toNat) (ht : top.toNat < 2 ^ 31)
    (requests : List (BitVec 32)) (hg : ∀ r ∈ requests, 0 ≤ r.toInt) (k : Nat) (p r : BitVec 32)
    (hp : (calls bottom top 0 requests)[k]? = some p) (hr : requests[k]? = some r) (hn : p ≠ 0xFFFFFFFF#32) :
    bottom.toNat ≤ p.toNat ∧ (p.toNat : Int) + r.toInt ≤ top.toNat := by
  obtain ⟨u, hu, he⟩ := ret_some hb ht hbt hg hp hr hn
  have hl : ∀ i ∈ requests.map BitVec.toInt, 0 ≤ i := by
    intro i hi
    obtain ⟨r, hr, rfl⟩ := List.mem_map.1 hi
    exact hg r hr
  have := answers_in _ _ hl k u r.toInt hu (by rw [List.getElem?_map, hr]; rfl)
  omega

/-- C133. As long as the heap only grows, no memory is given out twice. -/
theorem C133_apart (bottom top : BitVec 32) (hb : 0 < bottom.toNat) (hbt : bottom.toNat ≤ top.toNat) (ht : top.toNat < 2 ^ 31)
    (requests : List (BitVec 32)) (hg : ∀ r ∈ requests, 0 ≤ r.toInt) (j k : Nat) (hjk : j < k) (p q r s : BitVec 32)
    (hp : (calls bottom top 0 requests)[j]? = some p) (hr : requests[j]? = some r) (hn : p ≠ 0xFFFFFFFF#32)
    (hq : (calls bottom top 0 requests)[k]? = some q) (hs : requests[k]? = some s) (hm : q ≠ 0xFFFFFFFF#32) :
    (p.toNat : Int) + r.toInt ≤ q.toNat := by
  obtain ⟨u, hu, he⟩ := ret_some hb ht hbt hg hp hr hn
  obtain ⟨v, hv, hf⟩ := ret_some hb ht hbt hg hq hs hm
  have hl : ∀ i ∈ requests.map BitVec.toInt, 0 ≤ i := by
    intro i hi
    obtain ⟨r, hr, rfl⟩ := List.mem_map.1 hi
    exact hg r hr
  have := answers_apart _ _ hl j k u v r.toInt s.toInt hjk hu hv (by rw [List.getElem?_map, hr]; rfl)
    (by rw [List.getElem?_map, hs]; rfl)
  omega

example : (calls 0x1000 0x1010 0 [8, 9, 8])[0]? = some 0x1000 ∧ (calls 0x1000 0x1010 0 [8, 9, 8])[2]? = some 0x1008 := by decide

/-- C133 is false for a request that gives back more than is given out: it is granted, and the next request is given memory
below the heap. -/
theorem C133_false_shrink (bottom top : BitVec 32) (h16 : 16 < bottom.toNat) (hbt : bottom.toNat ≤ top.toNat) :
    ∃ p, calls bottom top 0 [-16, 16] = [bottom, p] ∧ p.toNat < bottom.toNat := by
  have h16' : (-16 : BitVec 32).toNat = 2 ^ 32 - 16 := rfl
  have hlt := bottom.isLt
  have hs : (bottom + -16).toNat = bottom.toNat - 16 := by
    rw [BitVec.toNat_add, h16']
    omega
  have h1 : sbrk bottom top 0 (-16) = (bottom + -16, bottom) := by
    unfold sbrk
    have : ¬ top < bottom + -16 := by
      rw [BitVec.lt_def, hs]
      omega
    simp only [if_true, this, if_false]
  have h2 : (sbrk bottom top (bottom + -16) 16).2 = bottom + -16 := by
    unfold sbrk
    have hne : ¬ bottom + -16 = 0 := by
      intro h
      rw [h] at hs
      have : (0 : BitVec 32).toNat = 0 := rfl
      omega
    have h3 : bottom + -16 + 16 = bottom := by
      refine BitVec.eq_of_toNat_eq ?_
      rw [BitVec.toNat_add, hs]
      show (bottom.toNat - 16 + 16) % 2 ^ 32 = _
      omega
    have : ¬ top < bottom := by
      rw [BitVec.lt_def]
      omega
    simp only [hne, h3, this, if_false]
  refine ⟨bottom + -16, ?_, by rw [hs]; omega⟩
  show [(sbrk bottom top 0 (-16)).2, (sbrk bottom top (sbrk bottom top 0 (-16)).1 16).2] = _
  rw [h1, h2]

end Mflt.Props
