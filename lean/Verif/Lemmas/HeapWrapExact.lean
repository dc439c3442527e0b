import Verif.Lemmas.HeapWrap

/-! # Lemmas: when the heap statistics match the allocator -/

namespace Mflt.HeapWrap

open Spec.HeapStats (Alloc)

attribute [local irreducible] HeapStats.increment HeapStats.decrement

/-- The block of the call that must not be in the list. -/
def Job.hidden : Job → Nat
  | .taken a => a.ptr
  | .counting a _ => a.ptr
  | .allocated a => a.ptr
  | .recording a _ => a.ptr
  | .unrecorded p => p
  | _ => 0

/-- Blocks of the allocator that are not counted. -/
def Job.plus (port : Port) : Job → Nat
  | .taken a => 1 + if automatic port = true ∧ a.ptr ≠ 0 then 1 else 0
  | .counting a _ => 1 + if automatic port = true ∧ a.ptr ≠ 0 then 1 else 0
  | .allocated a => if automatic port = true ∧ a.ptr ≠ 0 then 1 else 0
  | .recording a _ => if automatic port = true ∧ a.ptr ≠ 0 then 1 else 0
  | .unrecorded p => if automatic port = true ∧ p ≠ 0 then 1 else 0
  | _ => 0

/-- Blocks that are counted and that the allocator does not have any more. -/
def Job.minus : Job → Nat
  | .released => 1
  | .uncounting _ => 1
  | _ => 0

def Job.hook : Job → Bool
  | .taken _ => true
  | .counting .. => true
  | .released => true
  | .uncounting _ => true
  | _ => false

theorem sum_set {f : Job → Nat} : ∀ {l : List Job} {t : Nat} {j j' : Job}, l[t]? = some j →
    ((l.set t j').map f).sum + f j = (l.map f).sum + f j' := by
  intro l
  induction l with
  | nil => intro t j j' h; simp at h
  | cons x l ih =>
    intro t j j' h
    cases t with
    | zero =>
      simp only [List.getElem?_cons_zero, Option.some.injEq] at h
      subst h
      simp only [List.set_cons_zero, List.map_cons, List.sum_cons]
      omega
    | succ t =>
      simp only [List.getElem?_cons_succ] at h
      have := ih (j' := j') h
      simp only [List.set_cons_succ, List.map_cons, List.sum_cons]
      omega

theorem alloc_ptr {j : Job} {a : Alloc} (h : j.alloc = some a) : j.ptr = a.ptr ∧ j.hidden = a.ptr := by
  cases j <;> simp only [Job.alloc, Option.some.injEq, reduceCtorEq] at h <;> subst h <;> exact ⟨rfl, rfl⟩

theorem hidden_ptr (j : Job) : j.hidden = 0 ∨ j.hidden = j.ptr := by
  cases j <;> simp [Job.hidden, Job.ptr]

structure Exact (port : Port) (n : Nat) (over : Prop) (w : World) (as : List Alloc) : Prop where
  safe : Safe port n w
  listed : Listed n w.stats as
  nodupL : (w.live.map Alloc.ptr).Nodup
  nz : ∀ a ∈ w.live, a.ptr ≠ 0
  blocks : ∀ (i : Nat) (j : Job), w.tasks[i]? = some j → j.ptr ≠ 0 → ∃ a ∈ w.live, a.ptr = j.ptr
  allocs : ∀ (i : Nat) (j : Job) a, w.tasks[i]? = some j → j.alloc = some a → a.ptr ≠ 0 → a ∈ w.live
  distinct : ∀ (i i' : Nat) (j j' : Job), w.tasks[i]? = some j → w.tasks[i']? = some j' → j.ptr = j'.ptr →
    j.ptr ≠ 0 → i = i'
  kind : ∀ (i : Nat) (j : Job), w.tasks[i]? = some j → port ≠ .espIdf → j.hook = false
  sub : ∀ a ∈ as, a ∈ w.live ∧ ∀ (i : Nat) (j : Job), w.tasks[i]? = some j → j.hidden ≠ a.ptr
  nodupA : (as.map Alloc.ptr).Nodup
  full : ¬ over → ∀ a ∈ w.live, (∀ (i : Nat) (j : Job), w.tasks[i]? = some j → j.hidden ≠ a.ptr) → a ∈ as
  count : (w.stats.inUseCount + (w.tasks.map (Job.plus port)).sum) % 2 ^ 32 =
    (w.live.length + (w.tasks.map Job.minus).sum) % 2 ^ 32
  small : w.stats.inUseCount < 2 ^ 32
  bound : w.live.length < 2 ^ 32

theorem Exact.set {port : Port} {n : Nat} {over over' : Prop} {w w' : World} {as as' : List Alloc}
    (h : Exact port n over w as) {t : Nat} {j j' : Job} (hj : w.tasks[t]? = some j) (hsafe : Safe port n w')
    (hlisted : Listed n w'.stats as') (ht : w'.tasks = w.tasks.set t j')
    (hnodupL : (w'.live.map Alloc.ptr).Nodup) (hnz : ∀ a ∈ w'.live, a.ptr ≠ 0)
    (hkeep : ∀ a ∈ w.live, a.ptr ≠ j.ptr → a ∈ w'.live)
    (hptr : j'.ptr ≠ 0 → (∃ a ∈ w'.live, a.ptr = j'.ptr) ∧
      ∀ (i : Nat) (k : Job), i ≠ t → w.tasks[i]? = some k → k.ptr ≠ j'.ptr)
    (halloc : ∀ a, j'.alloc = some a → a.ptr ≠ 0 → a ∈ w'.live)
    (hkind : port ≠ .espIdf → j'.hook = false)
    (hsub : ∀ a ∈ as', a ∈ w'.live ∧ j'.hidden ≠ a.ptr ∧
      ∀ (i : Nat) (k : Job), i ≠ t → w.tasks[i]? = some k → k.hidden ≠ a.ptr)
    (hnodupA : (as'.map Alloc.ptr).Nodup)
    (hfull : ¬ over' → ∀ a ∈ w'.live, j'.hidden ≠ a.ptr →
      (∀ (i : Nat) (k : Job), i ≠ t → w.tasks[i]? = some k → k.hidden ≠ a.ptr) → a ∈ as')
    (hcount : (w'.stats.inUseCount + j'.plus port + j.minus + w.live.length) % 2 ^ 32 =
      (w.stats.inUseCount + j.plus port + j'.minus + w'.live.length) % 2 ^ 32)
    (hsmall : w'.stats.inUseCount < 2 ^ 32) (hbound : w'.live.length < 2 ^ 32) : Exact port n over' w' as' := by
  have hlt : t < w.tasks.length := HeapStats.lt_of_get hj
  have hself : w'.tasks[t]? = some j' := by rw [ht, List.getElem?_set_self hlt]
  have hother : ∀ (i : Nat) (k : Job), i ≠ t → w.tasks[i]? = some k → w'.tasks[i]? = some k := by
    intro i k hi hk
    rw [ht, List.getElem?_set_ne (fun hx => hi hx.symm)]
    exact hk
  have hne : ∀ (i : Nat) (k : Job), i ≠ t → w.tasks[i]? = some k → k.ptr ≠ 0 → k.ptr ≠ j.ptr :=
    fun i k hi hk h0 hx => hi (h.distinct i t k j hk hj hx h0)
  refine ⟨hsafe, hlisted, hnodupL, hnz, ?_, ?_, ?_, ?_, ?_, hnodupA, ?_, ?_, hsmall, hbound⟩
  · intro i k hk h0
    rw [ht] at hk
    rcases get_set hk with ⟨rfl, rfl⟩ | ⟨hi, hk⟩
    · exact (hptr h0).1
    · obtain ⟨a, ha, hak⟩ := h.blocks i k hk h0
      exact ⟨a, hkeep a ha (by rw [hak]; exact hne i k hi hk h0), hak⟩
  · intro i k a hk hka h0
    rw [ht] at hk
    rcases get_set hk with ⟨rfl, rfl⟩ | ⟨hi, hk⟩
    · exact halloc a hka h0
    · have hp := (alloc_ptr hka).1
      exact hkeep a (h.allocs i k a hk hka h0) (by rw [← hp]; exact hne i k hi hk (by rw [hp]; exact h0))
  · intro i i' k k' hk hk' he h0
    rw [ht] at hk hk'
    replace hk := get_set hk
    rcases hk with ⟨rfl, rfl⟩ | ⟨hi, hk⟩
    · rcases get_set hk' with ⟨rfl, rfl⟩ | ⟨hi', hk'⟩
      · rfl
      · exact absurd he.symm ((hptr h0).2 i' k' hi' hk')
    · rcases get_set hk' with ⟨rfl, rfl⟩ | ⟨hi', hk'⟩
      · exact absurd he ((hptr (he ▸ h0)).2 i k hi hk)
      · exact h.distinct i i' k k' hk hk' he h0
  · intro i k hk hp
    rw [ht] at hk
    rcases get_set hk with ⟨rfl, rfl⟩ | ⟨hi, hk⟩
    · exact hkind hp
    · exact h.kind i k hk hp
  · intro a ha
    obtain ⟨b1, b2, b3⟩ := hsub a ha
    refine ⟨b1, fun i k hk => ?_⟩
    rw [ht] at hk
    rcases get_set hk with ⟨rfl, rfl⟩ | ⟨hi, hk⟩
    · exact b2
    · exact b3 i k hi hk
  · intro ho a ha hx
    exact hfull ho a ha (hx t j' hself) (fun i k hi hk => hx i k (hother i k hi hk))
  · have h1 := sum_set (f := Job.plus port) (j' := j') hj
    have h2 := sum_set (f := Job.minus) (j' := j') hj
    have h3 := h.count
    rw [ht]
    revert h1 h2 h3 hcount
    generalize ((w.tasks.set t j').map (Job.plus port)).sum = p'
    generalize ((w.tasks.set t j').map Job.minus).sum = m'
    generalize (w.tasks.map (Job.plus port)).sum = p
    generalize (w.tasks.map Job.minus).sum = m
    intros
    omega

/-- Nothing but the job and the count changes. -/
theorem Exact.same {port : Port} {n : Nat} {over : Prop} {w w' : World} {as : List Alloc}
    (h : Exact port n over w as) {t : Nat} {j j' : Job} (hj : w.tasks[t]? = some j) (hsafe : Safe port n w')
    (hlisted : Listed n w'.stats as) (ht : w'.tasks = w.tasks.set t j') (hlive : w'.live = w.live)
    (hp : j'.ptr = j.ptr) (ha : j'.alloc = j.alloc ∨ j'.alloc = none) (hh : j'.hidden = j.hidden)
    (hk : j'.hook = j.hook ∨ j'.hook = false)
    (hcount : (w'.stats.inUseCount + j'.plus port + j.minus) % 2 ^ 32 =
      (w.stats.inUseCount + j.plus port + j'.minus) % 2 ^ 32)
    (hsmall : w'.stats.inUseCount < 2 ^ 32) : Exact port n over w' as := by
  refine h.set hj hsafe hlisted ht (hlive ▸ h.nodupL) (hlive ▸ h.nz) (fun a ha _ => hlive ▸ ha) ?_ ?_ ?_ ?_ h.nodupA ?_ ?_
    hsmall (hlive ▸ h.bound)
  · intro h0
    rw [hp] at h0 ⊢
    refine ⟨hlive ▸ h.blocks t j hj h0, fun i k hi hk hx => hi ?_⟩
    exact h.distinct i t k j hk hj hx (by rw [hx]; exact h0)
  · intro a haj h0
    rw [hlive]
    rcases ha with ha | ha
    · exact h.allocs t j a hj (ha ▸ haj) h0
    · rw [ha] at haj; cases haj
  · intro hpo
    rcases hk with hk | hk
    · rw [hk]; exact h.kind t j hj hpo
    · exact hk
  · intro a haa
    obtain ⟨b1, b2⟩ := h.sub a haa
    exact ⟨hlive ▸ b1, by rw [hh]; exact b2 t j hj, fun i k _ hk => b2 i k hk⟩
  · intro ho a haa b1 b2
    refine h.full ho a (hlive ▸ haa) (fun i k hk => ?_)
    by_cases hi : i = t
    · subst hi
      rw [hj] at hk
      cases hk
      rw [← hh]; exact b1
    · exact b2 i k hi hk
  · rw [hlive]; omega

theorem length_le_of_nodup {l1 : List Nat} : ∀ {l2 : List Nat}, l1.Nodup → (∀ a ∈ l1, a ∈ l2) →
    l1.length ≤ l2.length := by
  induction l1 with
  | nil => intro l2 _ _; exact Nat.zero_le _
  | cons x l ih =>
    intro l2 h hs
    rw [List.nodup_cons] at h
    have hx := hs x List.mem_cons_self
    have := ih (l2 := l2.erase x) h.2 (fun a ha => by
      have hne : a ≠ x := fun hx => h.1 (hx ▸ ha)
      exact (List.mem_erase_of_ne hne).2 (hs a (List.mem_cons_of_mem _ ha)))
    rw [List.length_erase_of_mem hx] at this
    have := List.length_pos_of_mem hx
    simp only [List.length_cons]
    omega

/-- The list after a new entry. -/
theorem take_facts {n : Nat} {live as : List Alloc} {a : Alloc} (hnod : (as.map Alloc.ptr).Nodup)
    (hnew : ∀ b ∈ as, b.ptr ≠ a.ptr) (hin : ∀ b ∈ a :: as, b ∈ live) :
    (((a :: as).take n).map Alloc.ptr).Nodup ∧ (∀ b ∈ (a :: as).take n, b = a ∨ b ∈ as) ∧
    (¬ n < live.length → (a :: as).take n = a :: as) := by
  have h1 : ((a :: as).map Alloc.ptr).Nodup := by
    rw [List.map_cons, List.nodup_cons]
    refine ⟨fun hx => ?_, hnod⟩
    obtain ⟨b, hb, he⟩ := List.mem_map.1 hx
    exact hnew b hb he
  refine ⟨?_, ?_, ?_⟩
  · rw [List.map_take]
    exact h1.sublist (List.take_sublist _ _)
  · intro b hb
    exact List.mem_cons.1 (List.mem_of_mem_take hb)
  · intro hn
    apply List.take_of_length_le
    have := length_le_of_nodup (l2 := live.map Alloc.ptr) h1 (fun p hp => by
      obtain ⟨b, hb, rfl⟩ := List.mem_map.1 hp
      exact List.mem_map_of_mem (hin b hb))
    simp only [List.length_map] at this
    omega

theorem eq_of_ptr {live : List Alloc} (h : (live.map Alloc.ptr).Nodup) {a b : Alloc} (ha : a ∈ live) (hb : b ∈ live)
    (he : a.ptr = b.ptr) : a = b := by
  induction live with
  | nil => cases ha
  | cons x l ih =>
    rw [List.map_cons, List.nodup_cons] at h
    replace ha := List.mem_cons.1 ha
    rcases ha with rfl | ha
    · rcases List.mem_cons.1 hb with rfl | hb
      · rfl
      · exact absurd (he ▸ List.mem_map_of_mem hb) h.1
    · rcases List.mem_cons.1 hb with rfl | hb
      · exact absurd (he ▸ List.mem_map_of_mem ha) h.1
      · exact ih h.2 ha hb

theorem gone_facts {as as' : List Alloc} {p : Nat} (hg : Gone p as as') (hnod : (as.map Alloc.ptr).Nodup) :
    (as'.map Alloc.ptr).Nodup ∧ ∀ b, b ∈ as' ↔ b ∈ as ∧ (p ≠ 0 → b.ptr ≠ p) := by
  rcases hg with ⟨rfl, hno⟩ | ⟨as1, a, as2, rfl, rfl, rfl, hp⟩
  · exact ⟨hnod, fun b => ⟨fun hb => ⟨hb, fun h0 => hno h0 b hb⟩, fun hb => hb.1⟩⟩
  · simp only [List.map_append, List.map_cons] at hnod ⊢
    rw [List.nodup_append] at hnod ⊢
    obtain ⟨n1, n2, n3⟩ := hnod
    rw [List.nodup_cons] at n2
    refine ⟨⟨n1, n2.2, fun x hx y hy => n3 x hx y (List.mem_cons_of_mem _ hy)⟩, fun b => ?_⟩
    constructor
    · intro hb
      rcases List.mem_append.1 hb with hb | hb
      · refine ⟨by simp [hb], fun _ hx => ?_⟩
        exact n3 b.ptr (List.mem_map_of_mem hb) a.ptr List.mem_cons_self hx
      · refine ⟨by simp [hb], fun _ hx => n2.1 ?_⟩
        rw [← hx]
        exact List.mem_map_of_mem hb
    · rintro ⟨hb, hx⟩
      rcases List.mem_append.1 hb with hb | hb
      · exact List.mem_append_left _ hb
      · rcases List.mem_cons.1 hb with rfl | hb
        · exact absurd rfl (hx hp)
        · exact List.mem_append_right _ hb

/-- The blocks after a free. -/
theorem drop_facts {live : List Alloc} (hnod : (live.map Alloc.ptr).Nodup) (p : Nat) :
    ((drop live p).map Alloc.ptr).Nodup ∧
    (drop live p).length + (if (∃ a ∈ live, a.ptr = p) then 1 else 0) = live.length := by
  refine ⟨hnod.sublist (List.Sublist.map _ List.filter_sublist), ?_⟩
  induction live with
  | nil => simp [drop]
  | cons x l ih =>
    rw [List.map_cons, List.nodup_cons] at hnod
    have h1 := ih hnod.2
    by_cases hx : x.ptr = p
    · have hno : ¬ ∃ a ∈ l, a.ptr = p := by
        rintro ⟨a, ha, he⟩
        exact hnod.1 (hx ▸ he ▸ List.mem_map_of_mem ha)
      rw [if_neg hno] at h1
      rw [if_pos ⟨x, List.mem_cons_self, hx⟩]
      unfold drop at h1 ⊢
      rw [List.filter_cons_of_neg (by simp [hx])]
      simp only [List.length_cons]
      omega
    · have hiff : (∃ a ∈ x :: l, a.ptr = p) ↔ ∃ a ∈ l, a.ptr = p := by
        constructor
        · rintro ⟨a, ha, he⟩
          rcases List.mem_cons.1 ha with rfl | ha
          · exact absurd he hx
          · exact ⟨a, ha, he⟩
        · rintro ⟨a, ha, he⟩
          exact ⟨a, List.mem_cons_of_mem _ ha, he⟩
      unfold drop at h1 ⊢
      rw [List.filter_cons_of_pos (by simp [hx])]
      simp only [List.length_cons, hiff]
      omega

theorem mem_drop {live : List Alloc} {p : Nat} {a : Alloc} : a ∈ drop live p ↔ a ∈ live ∧ a.ptr ≠ p := by
  simp [drop]

theorem Exact.mono {port : Port} {n : Nat} {over over' : Prop} {w : World} {as : List Alloc}
    (h : Exact port n over w as) (hi : over → over') : Exact port n over' w as :=
  { h with full := fun ho => h.full fun hx => ho (hi hx) }

/-- A block of the allocator enters the list. -/
theorem Exact.record {port : Port} {n : Nat} {over : Prop} {w w' : World} {as : List Alloc}
    (h : Exact port n over w as) {t : Nat} {j : Job} {a : Alloc} (hj : w.tasks[t]? = some j) (hja : j.alloc = some a)
    (hsafe : Safe port n w') (hlisted : Listed n w'.stats (if a.ptr = 0 then as else (a :: as).take n))
    (ht : w'.tasks = w.tasks.set t .idle) (hlive : w'.live = w.live)
    (hcount : (w'.stats.inUseCount + j.minus) % 2 ^ 32 = (w.stats.inUseCount + j.plus port) % 2 ^ 32)
    (hsmall : w'.stats.inUseCount < 2 ^ 32) :
    Exact port n (over ∨ n < w'.live.length) w' (if a.ptr = 0 then as else (a :: as).take n) := by
  obtain ⟨hp, hh⟩ := alloc_ptr hja
  have hidle : Job.plus port .idle = 0 ∧ Job.minus .idle = 0 := ⟨rfl, rfl⟩
  by_cases h0 : a.ptr = 0
  · rw [if_pos h0] at hlisted ⊢
    refine (h.same hj hsafe hlisted ht hlive (by rw [hp, h0]; rfl) (.inr rfl) (by rw [hh, h0]; rfl) (.inr rfl) ?_
      hsmall).mono .inl
    rw [hidle.1, hidle.2]; exact hcount
  · rw [if_neg h0] at hlisted ⊢
    have hal := h.allocs t j a hj hja h0
    have hnew : ∀ b ∈ as, b.ptr ≠ a.ptr := fun b hb hx => (h.sub b hb).2 t j hj (by rw [hh, hx])
    obtain ⟨f1, f2, f3⟩ := take_facts (n := n) (live := w.live) h.nodupA hnew (fun b hb => by
      rcases List.mem_cons.1 hb with rfl | hb
      · exact hal
      · exact (h.sub b hb).1)
    refine h.set hj hsafe hlisted ht (hlive ▸ h.nodupL) (hlive ▸ h.nz) (fun a ha _ => hlive ▸ ha)
      (fun hx => absurd rfl hx) (fun a ha => by cases ha) (fun _ => rfl) ?_ f1 ?_ ?_ hsmall (hlive ▸ h.bound)
    · intro b hb
      have hbl : b ∈ w.live := by
        rcases f2 b hb with rfl | hb
        · exact hal
        · exact (h.sub b hb).1
      refine ⟨hlive ▸ hbl, fun hx => h.nz b hbl hx.symm, fun i k hi hk => ?_⟩
      rcases f2 b hb with rfl | hb
      · intro hx
        have hk2 : k.ptr = b.ptr := by
          rcases hidden_ptr k with h1 | h1
          · exact absurd (h1 ▸ hx).symm h0
          · rw [← h1]; exact hx
        exact hi (h.distinct i t k j hk hj (hk2.trans hp.symm) (by rw [hk2]; exact h0))
      · exact (h.sub b hb).2 i k hk
    · intro ho b hb _ hx
      rw [f3 (fun hx => ho (.inr (by rw [hlive]; exact hx)))]
      rw [hlive] at hb
      by_cases he : b.ptr = a.ptr
      · rw [eq_of_ptr h.nodupL hb hal he]; exact List.mem_cons_self
      · refine List.mem_cons_of_mem _ (h.full (fun hx => ho (.inl hx)) b hb (fun i k hk => ?_))
        by_cases hi : i = t
        · subst hi
          rw [hj] at hk
          cases hk
          rw [hh]; exact fun hx => he hx.symm
        · exact hx i k hi hk
    · rw [hlive, hidle.1, hidle.2]; omega

/-- The entry of a block leaves the list. -/
theorem Exact.unrecord {port : Port} {n : Nat} {over : Prop} {w w' : World} {as as' : List Alloc}
    (h : Exact port n over w as) {t : Nat} {j : Job} {p : Nat} (hj : w.tasks[t]? = some j) (hjp : j.ptr = p)
    (hjh : j.hidden = 0)
    (hsafe : Safe port n w') (hlisted : Listed n w'.stats as') (hg : Gone p as as')
    (ht : w'.tasks = w.tasks.set t (.unrecorded p)) (hlive : w'.live = w.live)
    (hcount : (w'.stats.inUseCount + Job.plus port (.unrecorded p) + j.minus) % 2 ^ 32 =
      (w.stats.inUseCount + j.plus port) % 2 ^ 32)
    (hsmall : w'.stats.inUseCount < 2 ^ 32) : Exact port n over w' as' := by
  obtain ⟨g1, g2⟩ := gone_facts hg h.nodupA
  refine h.set hj hsafe hlisted ht (hlive ▸ h.nodupL) (hlive ▸ h.nz) (fun a ha _ => hlive ▸ ha)
    ?_ (fun a ha => by cases ha) (fun _ => rfl) ?_ g1 ?_ ?_ hsmall (hlive ▸ h.bound)
  · intro h0
    refine ⟨hlive ▸ hjp ▸ h.blocks t j hj (by rw [hjp]; exact h0), fun i k hi hk hx => hi ?_⟩
    exact h.distinct i t k j hk hj (hx.trans hjp.symm) (by rw [hx]; exact h0)
  · intro a ha
    obtain ⟨b1, b2⟩ := (g2 a).1 ha
    obtain ⟨b3, b4⟩ := h.sub a b1
    refine ⟨hlive ▸ b3, fun hx => ?_, fun i k _ hk => b4 i k hk⟩
    have hx' : p = a.ptr := hx
    exact b2 (by rw [hx']; exact h.nz a b3) hx'.symm
  · intro ho a ha b1 b2
    rw [hlive] at ha
    refine (g2 a).2 ⟨h.full ho a ha (fun i k hk => ?_), fun _ hx => b1 hx.symm⟩
    by_cases hi : i = t
    · subst hi
      rw [hj] at hk
      cases hk
      rw [hjh]; exact fun hx => h.nz a ha hx.symm
    · exact b2 i k hi hk
  · have : Job.minus (.unrecorded p) = 0 := rfl
    rw [hlive, this]; omega

/-- The allocator takes a block back that is not in the list. -/
theorem Exact.release {port : Port} {n : Nat} {over : Prop} {w w' : World} {as : List Alloc}
    (h : Exact port n over w as) {t p : Nat} {j' : Job} (hj : w.tasks[t]? = some (.unrecorded p))
    (hsafe : Safe port n w') (hs : w'.stats = w.stats) (ht : w'.tasks = w.tasks.set t j')
    (hlive : w'.live = drop w.live p) (hj' : j' = if port = .espIdf ∧ p ≠ 0 then .released else .idle) :
    Exact port n over w' as := by
  obtain ⟨d1, d2⟩ := drop_facts h.nodupL p
  have hp : j'.ptr = 0 ∧ j'.alloc = none ∧ j'.hidden = 0 ∧ j'.plus port = 0 ∧
      j'.minus = (if port = .espIdf ∧ p ≠ 0 then 1 else 0) ∧ (port ≠ .espIdf → j'.hook = false) := by
    rw [hj']
    split
    · rename_i hx; exact ⟨rfl, rfl, rfl, rfl, rfl, fun hy => absurd hx.1 hy⟩
    · exact ⟨rfl, rfl, rfl, rfl, rfl, fun _ => rfl⟩
  obtain ⟨p1, p2, p3, p4, p5, p6⟩ := hp
  have hex : (∃ a ∈ w.live, a.ptr = p) ↔ p ≠ 0 := by
    constructor
    · rintro ⟨a, ha, rfl⟩; exact h.nz a ha
    · intro h0; exact h.blocks t _ hj h0
  refine h.set hj hsafe (hs ▸ h.listed) ht (hlive ▸ d1) ?_ ?_ (fun hx => absurd p1 hx)
    (fun a ha => by rw [p2] at ha; cases ha) p6 ?_ h.nodupA ?_ ?_ (hs ▸ h.small) ?_
  · intro a ha
    rw [hlive] at ha
    exact h.nz a (mem_drop.1 ha).1
  · intro a ha hne
    rw [hlive]
    exact mem_drop.2 ⟨ha, hne⟩
  · intro a ha
    obtain ⟨b1, b2⟩ := h.sub a ha
    exact ⟨by rw [hlive]; exact mem_drop.2 ⟨b1, fun hx => b2 t _ hj hx.symm⟩,
      by rw [p3]; exact fun hx => h.nz a b1 hx.symm, fun i k _ hk => b2 i k hk⟩
  · intro ho a ha _ hx
    rw [hlive] at ha
    obtain ⟨b1, b2⟩ := mem_drop.1 ha
    refine h.full ho a b1 (fun i k hk => ?_)
    by_cases hi : i = t
    · subst hi
      rw [hj] at hk
      cases hk
      exact fun hx => b2 hx.symm
    · exact hx i k hi hk
  · have e1 : Job.minus (.unrecorded p) = 0 := rfl
    have e2 : Job.plus port (.unrecorded p) = if automatic port = true ∧ p ≠ 0 then 1 else 0 := rfl
    rw [hs, hlive, p4, p5, e1, e2]
    rw [if_congr hex rfl rfl] at d2
    revert d2
    cases port <;> simp only [automatic, reduceCtorEq, false_and, if_false, true_and, Bool.false_eq_true] <;>
      split <;> intro d2 <;> omega
  · rw [hlive]
    have := h.bound
    revert d2
    split <;> intro d2 <;> omega

/-- The allocator returns a block. -/
theorem Exact.allocate {port : Port} {n : Nat} {over : Prop} {w w' : World} {as : List Alloc}
    (h : Exact port n over w as) {t : Nat} {a : Alloc} {j' : Job} (hj : w.tasks[t]? = some .idle)
    (hc : canReturn w a.ptr a.size = true)
    (hsafe : Safe port n w') (hs : w'.stats = w.stats) (ht : w'.tasks = w.tasks.set t j')
    (hlive : w'.live = add w.live a) (hja : j'.alloc = some a) (hm : j'.minus = 0)
    (hp : j'.plus port = if a.ptr = 0 then 0 else 1) (hk : port ≠ .espIdf → j'.hook = false) :
    Exact port n over w' as := by
  obtain ⟨q1, q2⟩ := alloc_ptr hja
  simp only [canReturn, Bool.and_eq_true, Bool.or_eq_true, beq_iff_eq, List.all_eq_true, bne_iff_ne,
    decide_eq_true_eq] at hc
  obtain ⟨⟨hc1, -⟩, hc3⟩ := hc
  have e1 : Job.minus .idle = 0 := rfl
  have e2 : Job.plus port .idle = 0 := rfl
  by_cases h0 : a.ptr = 0
  · rw [if_pos h0] at hp
    have hlive' : w'.live = w.live := by rw [hlive, add, if_pos h0]
    refine h.set hj hsafe (hs ▸ h.listed) ht (hlive' ▸ h.nodupL) (hlive' ▸ h.nz) (fun b hb _ => hlive' ▸ hb)
      (fun hx => absurd (q1.trans h0) hx) (fun b hb hx => ?_) hk ?_ h.nodupA ?_ ?_ (hs ▸ h.small) (hlive' ▸ h.bound)
    · rw [hja] at hb; cases hb; exact absurd h0 hx
    · intro b hb
      obtain ⟨b1, b2⟩ := h.sub b hb
      exact ⟨hlive' ▸ b1, by rw [q2, h0]; exact fun hx => h.nz b b1 hx.symm, fun i k _ hk => b2 i k hk⟩
    · intro ho b hb _ hx
      rw [hlive'] at hb
      refine h.full ho b hb (fun i k hk => ?_)
      by_cases hi : i = t
      · subst hi
        rw [hj] at hk
        cases hk
        exact fun hx => h.nz b hb hx.symm
      · exact hx i k hi hk
    · rw [hs, hlive', hp, hm, e1, e2]
  · rw [if_neg h0] at hp
    have hfresh : ∀ b ∈ w.live, b.ptr ≠ a.ptr := hc1.resolve_left h0
    have hlive' : w'.live = a :: w.live := by rw [hlive, add, if_neg h0]
    have hpn : ∀ (i : Nat) (k : Job), w.tasks[i]? = some k → k.ptr ≠ a.ptr := by
      intro i k hk hx
      obtain ⟨b, hb, hbk⟩ := h.blocks i k hk (by rw [hx]; exact h0)
      exact hfresh b hb (hbk.trans hx)
    refine h.set hj hsafe (hs ▸ h.listed) ht ?_ ?_ (fun b hb _ => by rw [hlive']; exact List.mem_cons_of_mem _ hb)
      ?_ (fun b hb _ => ?_) hk ?_ h.nodupA ?_ ?_ (hs ▸ h.small) ?_
    · rw [hlive', List.map_cons, List.nodup_cons]
      refine ⟨fun hx => ?_, h.nodupL⟩
      obtain ⟨b, hb, he⟩ := List.mem_map.1 hx
      exact hfresh b hb he
    · intro b hb
      rw [hlive'] at hb
      rcases List.mem_cons.1 hb with rfl | hb
      · exact h0
      · exact h.nz b hb
    · intro _
      rw [hlive', q1]
      exact ⟨⟨a, List.mem_cons_self, rfl⟩, fun i k _ hk => hpn i k hk⟩
    · rw [hja] at hb
      cases hb
      rw [hlive']; exact List.mem_cons_self
    · intro b hb
      obtain ⟨b1, b2⟩ := h.sub b hb
      exact ⟨by rw [hlive']; exact List.mem_cons_of_mem _ b1, by rw [q2]; exact fun hx => hfresh b b1 hx.symm,
        fun i k _ hk => b2 i k hk⟩
    · intro ho b hb hne hx
      rw [hlive'] at hb
      rw [q2] at hne
      rcases List.mem_cons.1 hb with rfl | hb
      · exact absurd rfl hne
      · refine h.full ho b hb (fun i k hk => ?_)
        by_cases hi : i = t
        · subst hi
          rw [hj] at hk
          cases hk
          exact fun hx => h.nz b hb hx.symm
        · exact hx i k hi hk
    · rw [hs, hlive', hp, hm, e1, e2, List.length_cons]; omega
    · rw [hlive', List.length_cons]; omega

/-- A call of free begins. -/
theorem Exact.begin {port : Port} {n : Nat} {over : Prop} {w w' : World} {as : List Alloc}
    (h : Exact port n over w as) {t p : Nat} (hj : w.tasks[t]? = some .idle) (hm : mayFree w p = true)
    (hsafe : Safe port n w') (hs : w'.stats = w.stats) (ht : w'.tasks = w.tasks.set t (.freeing p))
    (hlive : w'.live = w.live) : Exact port n over w' as := by
  simp only [mayFree, Bool.or_eq_true, beq_iff_eq, Bool.and_eq_true, List.any_eq_true, List.all_eq_true,
    bne_iff_ne] at hm
  refine h.set hj hsafe (hs ▸ h.listed) ht (hlive ▸ h.nodupL) (hlive ▸ h.nz) (fun b hb _ => hlive ▸ hb)
    ?_ (fun b hb => by cases hb) (fun _ => rfl) ?_ h.nodupA ?_ ?_ (hs ▸ h.small) (hlive ▸ h.bound)
  · intro h0
    obtain ⟨m1, m2⟩ := hm.resolve_left h0
    exact ⟨hlive ▸ m1, fun i k _ hk => m2 k (List.mem_of_getElem? hk)⟩
  · intro b hb
    obtain ⟨b1, b2⟩ := h.sub b hb
    exact ⟨hlive ▸ b1, fun hx => h.nz b b1 hx.symm, fun i k _ hk => b2 i k hk⟩
  · intro ho b hb _ hx
    rw [hlive] at hb
    refine h.full ho b hb (fun i k hk => ?_)
    by_cases hi : i = t
    · subst hi
      rw [hj] at hk
      cases hk
      exact fun hx => h.nz b hb hx.symm
    · exact hx i k hi hk
  · rw [hs, hlive]; rfl

theorem advance_exact {port : Port} {n : Nat} (hn : 0 < n) {over : Prop} {w : World} {as : List Alloc}
    (h : Exact port n over w as) {t : Nat} {j : Job} (hj : w.tasks[t]? = some j)
    (hok : port = .espIdf → w.locked = true → j.snapshot.isSome) :
    ∃ w' as', advance port w t j = some w' ∧ Exact port n (over ∨ n < w'.live.length) w' as' := by
  obtain ⟨w', hw, hsafe⟩ := advance_safe hn h.safe hj
  have hl := h.listed
  have hsz := h.safe.sizes t j
  have hkd := h.kind t j hj
  by_cases hfr : port = .freertos
  · have := (h.safe.freertos hfr).2 t j hj
    subst this
    exact ⟨w, as, rfl, h.mono .inl⟩
  have hz : port ≠ .espIdf → port = .zephyr := by cases port <;> simp at hfr ⊢
  cases j with
  | idle => exact ⟨w, as, rfl, h.mono .inl⟩
  | taken a =>
    have hesp : port = .espIdf := by
      cases port with
      | espIdf => rfl
      | freertos => have := hkd (by decide); cases this
      | zephyr => have := hkd (by decide); cases this
    have hk : w.locked = false := by
      cases hk : w.locked with
      | false => rfl
      | true => have := hok hesp hk; cases this
    simp only [advance, hk] at hw
    rw [if_neg (by decide)] at hw
    cases hw
    exact ⟨_, as, by simp only [advance, hk]; exact if_neg (by decide),
      (h.same hj hsafe hl rfl rfl rfl (.inl rfl) rfl (.inl rfl) rfl h.small).mono .inl⟩
  | counting a s =>
    obtain ⟨-, rfl⟩ := h.safe.excl.held t _ s hj rfl
    cases hw
    refine ⟨_, as, rfl, (h.same hj hsafe (increment_listed hl) rfl rfl rfl (.inl rfl) rfl (.inr rfl) ?_ ?_).mono .inl⟩
    · have e1 : Job.plus port (.allocated a) = if automatic port = true ∧ a.ptr ≠ 0 then 1 else 0 := rfl
      have e2 : Job.plus port (.counting a w.stats) = 1 + if automatic port = true ∧ a.ptr ≠ 0 then 1 else 0 := rfl
      have e3 : Job.minus (.counting a w.stats) = 0 := rfl
      have e4 : Job.minus (.allocated a) = 0 := rfl
      rw [e1, e2, e3, e4]
      simp only [setJob]
      rw [increment_count]
      omega
    · simp only [setJob]
      rw [increment_count]
      exact Nat.mod_lt _ (by decide)
  | allocated a =>
    cases hk : w.locked with
    | true =>
      have hzp : port = .zephyr := hz (fun hx => by have := hok hx hk; cases this)
      exact ⟨w, as, by simp only [advance, hk, if_true, hzp], h.mono .inl⟩
    | false =>
      simp only [advance, hk] at hw
      rw [if_neg (by decide)] at hw
      cases hw
      exact ⟨_, as, by simp only [advance, hk]; exact if_neg (by decide),
        (h.same hj hsafe hl rfl rfl rfl (.inl rfl) rfl (.inl rfl) rfl h.small).mono .inl⟩
  | recording a s =>
    obtain ⟨-, rfl⟩ := h.safe.excl.held t _ s hj rfl
    obtain ⟨s', a1, a2, a3⟩ := statsMalloc_listed hn (automatic port) hl (hsz a hj rfl)
    simp only [advance, a1, Option.map_some, Option.some.injEq] at hw
    subst hw
    refine ⟨_, _, by simp only [advance, a1, Option.map_some], h.record hj rfl hsafe a2 rfl rfl ?_ ?_⟩
    · have e1 : Job.plus port (.recording a w.stats) = if automatic port = true ∧ a.ptr ≠ 0 then 1 else 0 := rfl
      have e2 : Job.minus (.recording a w.stats) = 0 := rfl
      simp only [setJob]
      rw [e1, e2, a3]
      rw [if_congr (and_comm (a := a.ptr ≠ 0)) rfl rfl]
      split <;> omega
    · simp only [setJob]
      rw [a3]
      split
      · exact Nat.mod_lt _ (by decide)
      · exact h.small
  | freeing p =>
    cases hk : w.locked with
    | true =>
      have hzp : port = .zephyr := hz (fun hx => by have := hok hx hk; cases this)
      exact ⟨w, as, by simp only [advance, hk, if_true, hzp], h.mono .inl⟩
    | false =>
      simp only [advance, hk] at hw
      rw [if_neg (by decide)] at hw
      cases hw
      exact ⟨_, as, by simp only [advance, hk]; exact if_neg (by decide),
        (h.same hj hsafe hl rfl rfl rfl (.inl rfl) rfl (.inl rfl) rfl h.small).mono .inl⟩
  | unrecording p s =>
    obtain ⟨-, rfl⟩ := h.safe.excl.held t _ s hj rfl
    obtain ⟨s', as', a1, a2, a3, a4⟩ := statsFree_listed (automatic port) hl p
    simp only [advance, a1, Option.map_some, Option.some.injEq] at hw
    subst hw
    refine ⟨_, as', by simp only [advance, a1, Option.map_some],
      (h.unrecord (p := p) hj rfl rfl hsafe a2 a3 rfl rfl ?_ ?_).mono .inl⟩
    · have e1 : Job.plus port (.unrecorded p) = if automatic port = true ∧ p ≠ 0 then 1 else 0 := rfl
      have e2 : Job.minus (.unrecording p w.stats) = 0 := rfl
      have e3 : Job.plus port (.unrecording p w.stats) = 0 := rfl
      simp only [setJob]
      rw [e1, e2, e3, a4]
      rw [if_congr (and_comm (a := p ≠ 0)) rfl rfl]
      have := h.small
      split <;> omega
    · simp only [setJob]
      rw [a4]
      split
      · exact Nat.mod_lt _ (by decide)
      · exact h.small
  | unrecorded p =>
    cases hw
    exact ⟨_, as, rfl, (h.release hj hsafe rfl rfl rfl rfl).mono .inl⟩
  | released =>
    have hesp : port = .espIdf := by
      cases port with
      | espIdf => rfl
      | freertos => have := hkd (by decide); cases this
      | zephyr => have := hkd (by decide); cases this
    have hk : w.locked = false := by
      cases hk : w.locked with
      | false => rfl
      | true => have := hok hesp hk; cases this
    simp only [advance, hk] at hw
    rw [if_neg (by decide)] at hw
    cases hw
    exact ⟨_, as, by simp only [advance, hk]; exact if_neg (by decide),
      (h.same hj hsafe hl rfl rfl rfl (.inl rfl) rfl (.inl rfl) rfl h.small).mono .inl⟩
  | uncounting s =>
    obtain ⟨-, rfl⟩ := h.safe.excl.held t _ s hj rfl
    cases hw
    refine ⟨_, as, rfl, (h.same hj hsafe (decrement_listed hl) rfl rfl rfl (.inl rfl) rfl (.inr rfl) ?_ ?_).mono .inl⟩
    · have e1 : Job.plus port .idle = 0 := rfl
      have e2 : Job.plus port (.uncounting w.stats) = 0 := rfl
      have e3 : Job.minus (.uncounting w.stats) = 1 := rfl
      have e4 : Job.minus .idle = 0 := rfl
      rw [e1, e2, e3, e4]
      simp only [setJob]
      rw [decrement_count]
      omega
    · simp only [setJob]
      rw [decrement_count]
      exact Nat.mod_lt _ (by decide)

/-- For a port that waits, or where nobody else has the lock. -/
theorem step_exact {port : Port} {n : Nat} (hn : 0 < n) {over : Prop} {w : World} {as : List Alloc}
    (h : Exact port n over w as) {op : Op} (hop : Spec.HeapWrap.wrapped op = true) (hp : port ≠ .freertos)
    (hok : port = .espIdf → w.locked = true → ∀ t, op = .step t → ∀ j, w.tasks[t]? = some j → j.snapshot.isSome) :
    ∃ w' as', step port w op = some w' ∧ Exact port n (over ∨ n < w'.live.length) w' as' := by
  obtain ⟨w', hw, hsafe⟩ := step_safe hn h.safe op
  cases op with
  | malloc t lr ptr size =>
    by_cases hc : w.tasks[t]? = some .idle ∧ canReturn w ptr size = true
    · simp only [step, if_pos hc] at hw ⊢
      cases port with
      | freertos => exact absurd rfl hp
      | zephyr =>
        cases hw
        refine ⟨_, as, rfl, (h.allocate (a := ⟨lr, ptr, size⟩) hc.1 hc.2 hsafe rfl rfl rfl rfl rfl ?_
          (fun _ => rfl)).mono .inl⟩
        show (if automatic .zephyr = true ∧ ptr ≠ 0 then 1 else 0) = if ptr = 0 then 0 else 1
        by_cases hx : ptr = 0 <;> simp [automatic, hx]
      | espIdf =>
        cases hw
        refine ⟨_, as, rfl, (h.allocate (a := ⟨lr, ptr, size⟩) hc.1 hc.2 hsafe rfl rfl rfl ?_ ?_ ?_
          (fun hx => absurd rfl hx)).mono .inl⟩
        · split <;> rfl
        · split <;> rfl
        · by_cases hx : ptr = 0 <;> simp [automatic, hx, Job.plus]
    · simp only [step, if_neg hc]
      exact ⟨w, as, rfl, h.mono .inl⟩
  | free t ptr =>
    by_cases hc : w.tasks[t]? = some .idle ∧ mayFree w ptr = true
    · simp only [step, if_pos hc] at hw ⊢
      cases port with
      | freertos => exact absurd rfl hp
      | zephyr => cases hw; exact ⟨_, as, rfl, (h.begin hc.1 hc.2 hsafe rfl rfl rfl).mono .inl⟩
      | espIdf => cases hw; exact ⟨_, as, rfl, (h.begin hc.1 hc.2 hsafe rfl rfl rfl).mono .inl⟩
    · simp only [step, if_neg hc]
      exact ⟨w, as, rfl, h.mono .inl⟩
  | step t =>
    cases hj : w.tasks[t]? with
    | none => exact ⟨w, as, by simp only [step, hj, Option.map_none, Option.getD_none], h.mono .inl⟩
    | some j =>
      obtain ⟨w2, as2, b1, b2⟩ := advance_exact hn h hj (fun hx hl => hok hx hl t rfl j hj)
      exact ⟨w2, as2, by simp only [step, hj, Option.map_some, Option.getD_some, b1], b2⟩
  | isrMalloc _ _ _ => cases hop
  | isrFree _ => cases hop
  | realloc _ _ _ => cases hop

theorem start_exact (port : Port) (tasks : Nat) {n : Nat} (h : n < 65535) : Exact port n False (start tasks n) [] := by
  have hid : ∀ (i : Nat) (j : Job), (start tasks n).tasks[i]? = some j → j = .idle := by
    intro i j hj
    have := List.mem_of_getElem? hj
    simp only [start, List.mem_replicate] at this
    exact this.2
  have hsum : ∀ (f : Job → Nat), f .idle = 0 → ((List.replicate tasks Job.idle).map f).sum = 0 := by
    intro f hf
    rw [List.map_replicate, hf]
    simp
  refine ⟨start_safe port tasks h, reset_listed h, List.nodup_nil, (fun a ha => by cases ha), ?_, ?_, ?_, ?_,
    (fun a ha => by cases ha), List.nodup_nil, (fun _ a ha => by cases ha), ?_, ?_, ?_⟩
  · intro i j hj h0; rw [hid i j hj] at h0; exact absurd rfl h0
  · intro i j a hj h0; rw [hid i j hj] at h0; cases h0
  · intro i i' j j' hj _ _ h0; rw [hid i j hj] at h0; exact absurd rfl h0
  · intro i j hj _; rw [hid i j hj]; rfl
  · simp only [start]
    rw [hsum _ rfl, hsum _ rfl]
    rfl
  · show 0 < 2 ^ 32; decide
  · show 0 < 2 ^ 32; decide

/-! ## FreeRTOS: the same steps as Zephyr, all at once -/

theorem Exact.asZephyr {n : Nat} {over : Prop} {w : World} {as : List Alloc} (h : Exact .freertos n over w as) :
    Exact .zephyr n over w as :=
  ⟨⟨h.safe.excl, h.safe.listed, h.safe.sizes, fun hx => by cases hx⟩, h.listed, h.nodupL, h.nz, h.blocks, h.allocs,
    h.distinct, fun i j hj _ => h.kind i j hj (by decide), h.sub, h.nodupA, h.full, h.count, h.small, h.bound⟩

theorem Exact.asFreertos {n : Nat} {over : Prop} {w : World} {as : List Alloc} (h : Exact .zephyr n over w as)
    (hs : Safe .freertos n w) : Exact .freertos n over w as :=
  ⟨hs, h.listed, h.nodupL, h.nz, h.blocks, h.allocs,
    h.distinct, fun i j hj _ => h.kind i j hj (by decide), h.sub, h.nodupA, h.full, h.count, h.small, h.bound⟩

theorem set_same {l : List Job} {t : Nat} {j j' : Job} (h : l[t]? = some j) : (l.set t j').set t j = l := by
  rw [List.set_set]
  apply List.ext_getElem?
  intro i
  rw [List.getElem?_set]
  split
  · rename_i hi
    subst hi
    rw [if_pos (HeapStats.lt_of_get h), h]
  · rfl

theorem idle_safe {n : Nat} {w : World} (hl : w.locked = false) (h : ∃ as, Listed n w.stats as)
    (hid : ∀ (i : Nat) (j : Job), w.tasks[i]? = some j → j.snapshot = none ∧ j.alloc = none) : Safe .zephyr n w := by
  refine ⟨⟨?_, ?_, ?_⟩, h, ?_, fun hx => by cases hx⟩
  · intro i j s hj hs; rw [(hid i j hj).1] at hs; cases hs
  · intro i i' j j' hj _ hs; rw [(hid i j hj).1] at hs; cases hs
  · intro hx; rw [hl] at hx; cases hx
  · intro i j a hj hs; rw [(hid i j hj).2] at hs; cases hs

theorem step_exact_freertos {n : Nat} (hn : 0 < n) {over : Prop} {w : World} {as : List Alloc}
    (h : Exact .freertos n over w as) {op : Op} (hop : Spec.HeapWrap.wrapped op = true) :
    ∃ w' as', step .freertos w op = some w' ∧ Exact .freertos n (over ∨ n < w'.live.length) w' as' := by
  obtain ⟨w', hw, hsafe⟩ := step_safe hn h.safe op
  have hz := h.asZephyr
  obtain ⟨hlk, hid⟩ := h.safe.freertos rfl
  have hz' : ∀ {v : World}, Safe .freertos n v → Safe .zephyr n v := fun {v} hv =>
    ⟨hv.excl, hv.listed, hv.sizes, fun hx => by cases hx⟩
  cases op with
  | malloc t lr ptr size =>
    by_cases hc : w.tasks[t]? = some .idle ∧ canReturn w ptr size = true
    · have hlt : t < w.tasks.length := HeapStats.lt_of_get hc.1
      obtain ⟨s', a1, a2, a3⟩ := statsMalloc_listed hn true h.listed (a := ⟨lr, ptr, size⟩) (canReturn_size hc.2)
      simp only [step, if_pos hc, a1, Option.map_some, Option.some.injEq] at hw
      subst hw
      obtain ⟨v, hv, hvs⟩ := step_safe hn (hz' h.safe) (.malloc t lr ptr size)
      simp only [step, if_pos hc, Option.some.injEq] at hv
      subst hv
      have hp : Job.plus .zephyr (.allocated ⟨lr, ptr, size⟩) = if ptr = 0 then 0 else 1 := by
        show (if automatic .zephyr = true ∧ ptr ≠ 0 then 1 else 0) = if ptr = 0 then 0 else 1
        by_cases hx : ptr = 0 <;> simp [automatic, hx]
      have h1 := hz.allocate (a := ⟨lr, ptr, size⟩) hc.1 hc.2 hvs rfl rfl rfl rfl rfl hp (fun _ => rfl)
      refine ⟨_, _, by simp only [step, if_pos hc, a1, Option.map_some],
        (h1.record (t := t) (j := .allocated ⟨lr, ptr, size⟩) (a := ⟨lr, ptr, size⟩) ?_ rfl (hz' hsafe) a2 ?_ rfl ?_ ?_).asFreertos
          hsafe⟩
      · simp only [setJob]; rw [List.getElem?_set_self hlt]
      · simp only [setJob]; exact (set_same hc.1).symm
      · have e2 : Job.minus (.allocated ⟨lr, ptr, size⟩) = 0 := rfl
        simp only [setJob]
        rw [e2, hp, a3]
        by_cases hx : ptr = 0
        · rw [if_pos hx, if_neg (fun hy => hy.1 hx)]
        · rw [if_neg hx, if_pos ⟨hx, rfl⟩]; omega
      · show s'.inUseCount < 2 ^ 32
        rw [a3]
        split
        · exact Nat.mod_lt _ (by decide)
        · exact h.small
    · simp only [step, if_neg hc]
      exact ⟨w, as, rfl, h.mono .inl⟩
  | free t p =>
    by_cases hc : w.tasks[t]? = some .idle ∧ mayFree w p = true
    · have hlt : t < w.tasks.length := HeapStats.lt_of_get hc.1
      obtain ⟨s', as', a1, a2, a3, a4⟩ := statsFree_listed true h.listed p
      simp only [step, if_pos hc, a1, Option.map_some, Option.some.injEq] at hw
      subst hw
      obtain ⟨v, hv, hvs⟩ := step_safe hn (hz' h.safe) (.free t p)
      simp only [step, if_pos hc, Option.some.injEq] at hv
      subst hv
      have h1 := hz.begin hc.1 hc.2 hvs rfl rfl rfl
      have hs2 : Safe .zephyr n (setJob { w with stats := s' } t (.unrecorded p)) := by
        refine idle_safe hlk ⟨as', a2⟩ (fun i j hj => ?_)
        rcases get_set hj with ⟨-, rfl⟩ | ⟨-, hj⟩
        · exact ⟨rfl, rfl⟩
        · rw [hid i j hj]; exact ⟨rfl, rfl⟩
      have h2 := h1.unrecord (t := t) (j := .freeing p) (p := p) (w' := setJob { w with stats := s' } t (.unrecorded p))
        (by simp only [setJob]; rw [List.getElem?_set_self hlt]) rfl rfl hs2 a2 a3
        (by simp only [setJob]; rw [List.set_set]) rfl
        (by
          have e1 : Job.plus .zephyr (.unrecorded p) = if automatic .zephyr = true ∧ p ≠ 0 then 1 else 0 := rfl
          have e2 : Job.minus (.freeing p) = 0 := rfl
          have e3 : Job.plus .zephyr (.freeing p) = 0 := rfl
          have := h.small
          simp only [setJob]
          rw [e1, e2, e3, a4]
          by_cases hx : p = 0
          · rw [if_neg (fun hy => hy.1 hx), if_neg (fun hy => hy.2 hx)]
          · rw [if_pos ⟨hx, rfl⟩, if_pos ⟨rfl, hx⟩]; omega)
        (by
          show s'.inUseCount < 2 ^ 32
          rw [a4]
          split
          · exact Nat.mod_lt _ (by decide)
          · exact h.small)
      refine ⟨_, as', by simp only [step, if_pos hc, a1, Option.map_some],
        ((h2.release (t := t) (p := p) (j' := .idle) ?_ (hz' hsafe) rfl ?_ rfl rfl).asFreertos hsafe).mono .inl⟩
      · simp only [setJob]; rw [List.getElem?_set_self hlt]
      · simp only [setJob]; exact (set_same hc.1).symm
    · simp only [step, if_neg hc]
      exact ⟨w, as, rfl, h.mono .inl⟩
  | step t =>
    cases hj : w.tasks[t]? with
    | none => exact ⟨w, as, by simp only [step, hj, Option.map_none, Option.getD_none], h.mono .inl⟩
    | some j =>
      have := hid t j hj
      subst this
      exact ⟨w, as, by simp only [step, hj, Option.map_some, Option.getD_some, advance], h.mono .inl⟩
  | isrMalloc _ _ _ => cases hop
  | isrFree _ => cases hop
  | realloc _ _ _ => cases hop

open Spec.HeapWrap (states wrapped Call undisturbed)

theorem mem_states_self (port : Port) (w : World) (ops : List Op) : w ∈ states port w ops := by
  cases ops <;> exact List.mem_cons_self

theorem mem_states_cons {port : Port} {w w' v : World} {op : Op} {ops : List Op} (h : step port w op = some w')
    (hv : v ∈ states port w' ops) : v ∈ states port w (op :: ops) := by
  simp only [states, h, Option.map_some, Option.getD_some]
  exact List.mem_cons_of_mem _ hv

theorem mem_states_left {port : Port} : ∀ (a b : List Op) {w v : World}, v ∈ states port w a → v ∈ states port w (a ++ b) := by
  intro a
  induction a with
  | nil =>
    intro b w v hv
    simp only [states, List.mem_singleton] at hv
    subst hv
    exact mem_states_self _ _ _
  | cons op a ih =>
    intro b w v hv
    simp only [states] at hv
    rcases List.mem_cons.1 hv with rfl | hv
    · exact mem_states_self _ _ _
    · cases hs : step port w op with
      | none => rw [hs] at hv; cases hv
      | some w' =>
        rw [hs] at hv
        exact mem_states_cons hs (ih b hv)

theorem mem_states_right {port : Port} : ∀ (a b : List Op) {w w' v : World}, run port w a = some w' →
    v ∈ states port w' b → v ∈ states port w (a ++ b) := by
  intro a
  induction a with
  | nil => intro b w w' v hr hv; cases hr; exact hv
  | cons op a ih =>
    intro b w w' v hr hv
    simp only [run, Option.bind_eq_some_iff] at hr
    obtain ⟨w1, h1, h2⟩ := hr
    exact mem_states_cons h1 (ih b h2 hv)

theorem run_append {port : Port} : ∀ (a b : List Op) {w w' : World}, run port w a = some w' →
    run port w (a ++ b) = run port w' b := by
  intro a
  induction a with
  | nil => intro b w w' hr; cases hr; rfl
  | cons op a ih =>
    intro b w w' hr
    simp only [run, Option.bind_eq_some_iff] at hr
    obtain ⟨w1, h1, h2⟩ := hr
    simp only [List.cons_append, run, h1, Option.bind_some]
    exact ih b h2

theorem run_exact {port : Port} {n : Nat} (hn : 0 < n) (hp : port ≠ .espIdf) {over : Prop} : ∀ (ops : List Op)
    {w : World} {as : List Alloc}, Exact port n over w as → (∀ op ∈ ops, wrapped op = true) →
    (∀ v ∈ states port w ops, n < v.live.length → over) →
    ∃ w' as', run port w ops = some w' ∧ Exact port n over w' as' := by
  intro ops
  induction ops with
  | nil => intro w as h _ _; exact ⟨w, as, rfl, h⟩
  | cons op ops ih =>
    intro w as h hw ho
    have h1 : ∃ w' as', step port w op = some w' ∧ Exact port n (over ∨ n < w'.live.length) w' as' := by
      cases port with
      | freertos => exact step_exact_freertos hn h (hw op List.mem_cons_self)
      | zephyr => exact step_exact hn h (hw op List.mem_cons_self) (by decide) (fun hx => by cases hx)
      | espIdf => exact absurd rfl hp
    obtain ⟨w1, as1, a1, a2⟩ := h1
    have a3 : Exact port n over w1 as1 := a2.mono (fun hx => by
      rcases hx with hx | hx
      · exact hx
      · exact ho w1 (mem_states_cons a1 (mem_states_self _ _ _)) hx)
    obtain ⟨w2, as2, b1, b2⟩ := ih a3 (fun o ho => hw o (List.mem_cons_of_mem _ ho))
      (fun v hv => ho v (mem_states_cons a1 hv))
    exact ⟨w2, as2, by simp only [run, a1, Option.bind_some, b1], b2⟩

/-! ## ESP-IDF: calls one after the other -/

def Job.rank : Job → Nat
  | .idle => 0
  | .recording .. => 1
  | .allocated _ => 2
  | .counting .. => 3
  | .taken _ => 4
  | .uncounting _ => 1
  | .released => 2
  | .unrecorded _ => 3
  | .unrecording .. => 4
  | .freeing _ => 5

theorem advance_rank {w w' : World} {t : Nat} {j : Job} (hj : w.tasks[t]? = some j)
    (h : advance .espIdf w t j = some w') : ∃ j', w'.tasks = w.tasks.set t j' ∧ j'.rank ≤ j.rank - 1 := by
  have hsame : w.tasks = w.tasks.set t j := by
    have := set_same (j' := j) hj
    rw [List.set_set] at this
    exact this.symm
  cases j with
  | idle => cases h; exact ⟨.idle, hsame, by decide⟩
  | taken a =>
    simp only [advance] at h
    split at h <;> cases h <;> exact ⟨_, rfl, by simp [Job.rank]⟩
  | counting a s => cases h; exact ⟨_, rfl, by simp [Job.rank]⟩
  | allocated a =>
    simp only [advance] at h
    split at h <;> cases h <;> exact ⟨_, rfl, by simp [Job.rank]⟩
  | recording a s =>
    simp only [advance, Option.map_eq_some_iff] at h
    obtain ⟨s', -, rfl⟩ := h
    exact ⟨_, rfl, by simp [Job.rank]⟩
  | freeing p =>
    simp only [advance] at h
    split at h <;> cases h <;> exact ⟨_, rfl, by simp [Job.rank]⟩
  | unrecording p s =>
    simp only [advance, Option.map_eq_some_iff] at h
    obtain ⟨s', -, rfl⟩ := h
    exact ⟨_, rfl, by simp [Job.rank]⟩
  | unrecorded p =>
    cases h
    refine ⟨_, rfl, ?_⟩
    split <;> simp [Job.rank]
  | released =>
    simp only [advance] at h
    split at h <;> cases h <;> exact ⟨_, rfl, by simp [Job.rank]⟩
  | uncounting s => cases h; exact ⟨_, rfl, by simp [Job.rank]⟩

/-- Only task `t` is in a call, at most `r` steps from its end. -/
def Busy (t r : Nat) (w : World) : Prop :=
  ∀ (i : Nat) (j : Job), w.tasks[i]? = some j → (i ≠ t → j = .idle) ∧ (i = t → j.rank ≤ r)

theorem busy_free {port : Port} {n t r : Nat} {w : World} (h : Safe port n w) (hb : Busy t r w)
    (hl : w.locked = true) {j : Job} (hj : w.tasks[t]? = some j) : j.snapshot.isSome := by
  obtain ⟨i, k, hk, hs⟩ := h.excl.holder hl
  by_cases hi : i = t
  · subst hi
    rw [hj] at hk
    cases hk
    exact hs
  · rw [(hb i k hk).1 hi] at hs
    cases hs

theorem steps_exact {n : Nat} (hn : 0 < n) {over : Prop} {t : Nat} : ∀ (m r : Nat) {w : World} {as : List Alloc},
    Exact .espIdf n over w as → Busy t r w →
    (∀ v ∈ states .espIdf w (List.replicate m (.step t)), n < v.live.length → over) →
    ∃ w' as', run .espIdf w (List.replicate m (.step t)) = some w' ∧ Exact .espIdf n over w' as' ∧ Busy t (r - m) w' := by
  intro m
  induction m with
  | zero => intro r w as h hb _; exact ⟨w, as, rfl, h, hb⟩
  | succ m ih =>
    intro r w as h hb ho
    rw [List.replicate_succ] at ho ⊢
    obtain ⟨w1, as1, a1, a2⟩ := step_exact hn h (op := .step t) rfl (by decide)
      (fun _ hl t' ht j hj => by cases ht; exact busy_free h.safe hb hl hj)
    have a3 : Exact .espIdf n over w1 as1 := a2.mono (fun hx => by
      rcases hx with hx | hx
      · exact hx
      · exact ho w1 (mem_states_cons a1 (mem_states_self _ _ _)) hx)
    have hb1 : Busy t (r - 1) w1 := by
      simp only [step] at a1
      cases hj : w.tasks[t]? with
      | none =>
        rw [hj] at a1
        cases a1
        intro i j hij
        refine ⟨(hb i j hij).1, fun hx => ?_⟩
        subst hx
        rw [hj] at hij; cases hij
      | some j =>
        rw [hj] at a1
        simp only [Option.map_some, Option.getD_some] at a1
        obtain ⟨j', e1, e2⟩ := advance_rank hj a1
        intro i k hk
        rw [e1] at hk
        rcases get_set hk with ⟨rfl, rfl⟩ | ⟨hi, hk⟩
        · have := (hb i j hj).2 rfl
          exact ⟨fun hx => absurd rfl hx, fun _ => by omega⟩
        · exact ⟨(hb i k hk).1, fun hx => absurd hx hi⟩
    obtain ⟨w2, as2, b1, b2, b3⟩ := ih (r - 1) a3 hb1 (fun v hv => ho v (mem_states_cons a1 hv))
    refine ⟨w2, as2, by simp only [run, a1, Option.bind_some, b1], b2, ?_⟩
    rw [show r - (m + 1) = r - 1 - m by omega]
    exact b3

theorem call_exact {n : Nat} (hn : 0 < n) {over : Prop} {w : World} {as : List Alloc} (c : Call)
    (h : Exact .espIdf n over w as) (hq : ∀ (i : Nat) (j : Job), w.tasks[i]? = some j → j = .idle)
    (ho : ∀ v ∈ states .espIdf w (undisturbed c), n < v.live.length → over) :
    ∃ w' as', run .espIdf w (undisturbed c) = some w' ∧ Exact .espIdf n over w' as' ∧
      ∀ (i : Nat) (j : Job), w'.tasks[i]? = some j → j = .idle := by
  have key : ∀ (op : Op) (t : Nat), wrapped op = true → (∀ t', op ≠ .step t') →
      (∀ w1, step .espIdf w op = some w1 → Busy t 5 w1) →
      (∀ v ∈ states .espIdf w (op :: List.replicate 5 (.step t)), n < v.live.length → over) →
      ∃ w' as', run .espIdf w (op :: List.replicate 5 (.step t)) = some w' ∧ Exact .espIdf n over w' as' ∧
      ∀ (i : Nat) (j : Job), w'.tasks[i]? = some j → j = .idle := by
    intro op t h1 h2 h3 h4
    obtain ⟨w1, as1, a1, a2⟩ := step_exact hn h h1 (by decide) (fun _ _ t' ht => absurd ht (h2 t'))
    have a3 : Exact .espIdf n over w1 as1 := a2.mono (fun hx => by
      rcases hx with hx | hx
      · exact hx
      · exact h4 w1 (mem_states_cons a1 (mem_states_self _ _ _)) hx)
    obtain ⟨w2, as2, b1, b2, b3⟩ := steps_exact hn 5 5 a3 (h3 w1 a1) (fun v hv => h4 v (mem_states_cons a1 hv))
    refine ⟨w2, as2, by simp only [run, a1, Option.bind_some, b1], b2, fun i j hj => ?_⟩
    by_cases hi : i = t
    · have := (b3 i j hj).2 hi
      cases j <;> first | rfl | (simp [Job.rank] at this)
    · exact (b3 i j hj).1 hi
  have hset : ∀ (t : Nat) (j' : Job) (w1 : World), w1.tasks = w.tasks.set t j' → j'.rank ≤ 5 → Busy t 5 w1 := by
    intro t j' w1 ht hr i k hk
    rw [ht] at hk
    rcases get_set hk with ⟨rfl, rfl⟩ | ⟨hi, hk⟩
    · exact ⟨fun hx => absurd rfl hx, fun _ => hr⟩
    · exact ⟨fun _ => hq i k hk, fun hx => absurd hx hi⟩
  have hno : ∀ t, Busy t 5 w := fun t i k hk => by
    rw [hq i k hk]
    exact ⟨fun _ => rfl, fun _ => by decide⟩
  cases c with
  | malloc t lr ptr size =>
    refine key _ t rfl (fun _ hx => by cases hx) (fun w1 h1 => ?_) ho
    simp only [step] at h1
    split at h1
    · cases h1
      exact hset t _ _ rfl (by split <;> simp [Job.rank])
    · cases h1; exact hno t
  | free t ptr =>
    refine key _ t rfl (fun _ hx => by cases hx) (fun w1 h1 => ?_) ho
    simp only [step] at h1
    split at h1
    · cases h1
      exact hset t _ _ rfl (by simp [Job.rank])
    · cases h1; exact hno t

theorem calls_exact {n : Nat} (hn : 0 < n) {over : Prop} : ∀ (cs : List Call) {w : World} {as : List Alloc},
    Exact .espIdf n over w as → (∀ (i : Nat) (j : Job), w.tasks[i]? = some j → j = .idle) →
    (∀ v ∈ states .espIdf w (cs.flatMap undisturbed), n < v.live.length → over) →
    ∃ w' as', run .espIdf w (cs.flatMap undisturbed) = some w' ∧ Exact .espIdf n over w' as' ∧
      ∀ (i : Nat) (j : Job), w'.tasks[i]? = some j → j = .idle := by
  intro cs
  induction cs with
  | nil => intro w as h hq _; exact ⟨w, as, rfl, h, hq⟩
  | cons c cs ih =>
    intro w as h hq ho
    rw [List.flatMap_cons] at ho ⊢
    obtain ⟨w1, as1, a1, a2, a3⟩ := call_exact hn c h hq (fun v hv => ho v (mem_states_left _ _ hv))
    obtain ⟨w2, as2, b1, b2, b3⟩ := ih a2 a3 (fun v hv => ho v (mem_states_right _ _ a1 hv))
    exact ⟨w2, as2, by rw [run_append _ _ a1]; exact b1, b2, b3⟩

end Mflt.HeapWrap
