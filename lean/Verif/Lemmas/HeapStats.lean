import Verif.Model.HeapStats
import Verif.Spec.HeapStats
import Mathlib.Data.List.Perm.Subperm

/-! # The linked list in the pool of the heap statistics -/

namespace Mflt.HeapStats

open Spec.HeapStats (Alloc)

def Entry.alloc (e : Entry) : Alloc := ⟨e.lr, e.ptr, e.size⟩

/-- From `h` the links lead through the entries `is`, which hold the allocations `as`, to the end. -/
def Chain (pool : List Entry) : Nat → List Nat → List Alloc → Prop
  | h, [], [] => h = listEnd
  | h, i :: is, a :: as =>
    h = i ∧ ∃ e, pool[i]? = some e ∧ e.inUse = true ∧ e.alloc = a ∧ Chain pool e.next is as
  | _, _, _ => False

theorem lt_of_get {α} {l : List α} {i : Nat} {a : α} (h : l[i]? = some a) : i < l.length := by
  rcases Nat.lt_or_ge i l.length with hx | hx
  · exact hx
  · rw [List.getElem?_eq_none hx] at h; cases h

theorem Chain.lt {pool : List Entry} : ∀ {is h as}, Chain pool h is as → ∀ i ∈ is, i < pool.length := by
  intro is
  induction is with
  | nil => intro h as _ i hi; cases hi
  | cons j is ih =>
    intro h as hc i hi
    cases as with
    | nil => exact hc.elim
    | cons a as =>
      obtain ⟨_, e, he, _, _, hc⟩ := hc
      rcases List.mem_cons.mp hi with rfl | hi
      · exact lt_of_get he
      · exact ih hc i hi

theorem Chain.length {pool : List Entry} : ∀ {is h as}, Chain pool h is as → is.length = as.length := by
  intro is
  induction is with
  | nil => intro h as hc; cases as with
    | nil => rfl
    | cons a as => exact hc.elim
  | cons j is ih =>
    intro h as hc
    cases as with
    | nil => exact hc.elim
    | cons a as =>
      obtain ⟨_, e, he, _, _, hc⟩ := hc
      simp [ih hc]

/-- The head is the first of the list, or the end. -/
theorem Chain.head {pool : List Entry} {is h as} (hc : Chain pool h is as) :
    h = (is ++ [listEnd]).headD 0 := by
  cases is with
  | nil => cases as with
    | nil => exact hc
    | cons a as => exact hc.elim
  | cons j is => cases as with
    | nil => exact hc.elim
    | cons a as => exact hc.1

theorem Chain.split {pool : List Entry} : ∀ {pre h as i post}, Chain pool h (pre ++ i :: post) as →
    ∃ e as1 as2, pool[i]? = some e ∧ e.inUse = true ∧ as = as1 ++ e.alloc :: as2 ∧
      as1.length = pre.length ∧ Chain pool e.next post as2 := by
  intro pre
  induction pre with
  | nil =>
    intro h as i post hc
    cases as with
    | nil => exact hc.elim
    | cons a as =>
      obtain ⟨_, e, he, hu, ha, hc⟩ := hc
      exact ⟨e, [], as, he, hu, by rw [ha]; rfl, rfl, hc⟩
  | cons j pre ih =>
    intro h as i post hc
    cases as with
    | nil => exact hc.elim
    | cons a as =>
      obtain ⟨_, e, he, hu, ha, hc⟩ := hc
      obtain ⟨e', as1, as2, h1, h2, h3, h4, h5⟩ := ih hc
      exact ⟨e', a :: as1, as2, h1, h2, by rw [h3]; rfl, by simp [h4], h5⟩

/-- An update elsewhere does not matter. -/
theorem Chain.set {pool : List Entry} {k : Nat} {v : Entry} : ∀ {is h as}, Chain pool h is as → k ∉ is →
    Chain (pool.set k v) h is as := by
  intro is
  induction is with
  | nil => intro h as hc _; cases as with
    | nil => exact hc
    | cons a as => exact hc.elim
  | cons j is ih =>
    intro h as hc hk
    cases as with
    | nil => exact hc.elim
    | cons a as =>
      obtain ⟨hj, e, he, hu, ha, hc⟩ := hc
      simp only [List.mem_cons, not_or] at hk
      exact ⟨hj, e, by rw [List.getElem?_set_ne hk.1]; exact he, hu, ha, ih hc hk.2⟩

/-- Changing the link of the entry `p`. -/
theorem Chain.relink {pool : List Entry} {p q : Nat} {post' : List Nat} {as2' : List Alloc} {e : Entry}
    (hp : pool[p]? = some e) (hq : Chain (pool.set p { e with next := q }) q post' as2') :
    ∀ {pre h as1 as2 post}, Chain pool h (pre ++ p :: post) (as1 ++ e.alloc :: as2) → p ∉ pre →
      as1.length = pre.length →
      Chain (pool.set p { e with next := q }) h (pre ++ p :: post') (as1 ++ e.alloc :: as2') := by
  intro pre
  induction pre with
  | nil =>
    intro h as1 as2 post hc _ hl
    cases as1 with
    | cons => simp at hl
    | nil =>
      obtain ⟨hj, e', he, hu, ha, hc⟩ := hc
      rw [hp] at he
      cases he
      exact ⟨hj, { e with next := q }, List.getElem?_set_self (lt_of_get hp), hu, rfl, hq⟩
  | cons j pre ih =>
    intro h as1 as2 post hc hn hl
    cases as1 with
    | nil => simp at hl
    | cons a as1 =>
      obtain ⟨hj, e', he, hu, ha, hc⟩ := hc
      simp only [List.mem_cons, not_or] at hn
      exact ⟨hj, e', by rw [List.getElem?_set_ne hn.1]; exact he, hu, ha, ih hc hn.2 (by simpa using hl)⟩

theorem findIdx?_unique {α} {P : α → Bool} {l : List α} {p : Nat} {a : α} (hp : l[p]? = some a)
    (hP : P a = true) (hu : ∀ j b, l[j]? = some b → P b = true → j = p) : l.findIdx? P = some p := by
  cases h : l.findIdx? P with
  | none =>
    rw [List.findIdx?_eq_none_iff] at h
    have := h a (List.mem_of_getElem? hp)
    rw [hP] at this; cases this
  | some j =>
    obtain ⟨hj, h1, _⟩ := List.findIdx?_eq_some_iff_getElem.mp h
    rw [hu j _ (List.getElem?_eq_getElem hj) h1]

theorem findIdx?_none {α} {P : α → Bool} {l : List α}
    (hu : ∀ (j : Nat) b, l[j]? = some b → P b = false) : l.findIdx? P = none := by
  rw [List.findIdx?_eq_none_iff]
  intro x hx
  obtain ⟨i, hi⟩ := List.mem_iff_getElem?.mp hx
  exact hu i x hi

/-- In a list without repetitions only one element is followed by `k`. -/
theorem succ_unique {l : List Nat} (hn : l.Nodup) {a b a' b' : List Nat} {x y k : Nat}
    (h1 : l = a ++ x :: k :: b) (h2 : l = a' ++ y :: k :: b') : x = y := by
  have e1 : a.length + 1 < l.length := by rw [h1]; simp
  have e2 : a'.length + 1 < l.length := by rw [h2]; simp
  have g1 : l[a.length + 1]? = some k := by rw [h1]; simp
  have g2 : l[a'.length + 1]? = some k := by rw [h2]; simp
  have hlen : a.length + 1 = a'.length + 1 := by
    apply (List.getElem?_inj e1 hn).mp
    rw [g1, g2]
  have g3 : l[a.length]? = some x := by rw [h1]; simp
  have g4 : l[a'.length]? = some y := by rw [h2]; simp
  rw [show a'.length = a.length by omega, g3] at g4
  simpa using g4

/-- The invariant. -/
structure Inv (s : State) (is : List Nat) (as : List Alloc) : Prop where
  small : s.pool.length < listEnd
  chain : Chain s.pool s.head is as
  nodup : is.Nodup
  used : ∀ i e, s.pool[i]? = some e → e.inUse = true → i ∈ is

theorem Chain.next {pool : List Entry} {h is as} (hc : Chain pool h is as) {i : Nat} (hi : i ∈ is) {e : Entry}
    (he : pool[i]? = some e) : ∃ a b, is ++ [listEnd] = a ++ i :: e.next :: b ∧ e.inUse = true := by
  obtain ⟨pre, post, rfl⟩ := List.append_of_mem hi
  obtain ⟨e', as1, as2, h1, h2, h3, h4, h5⟩ := hc.split
  rw [he] at h1; cases h1
  have := h5.head
  cases post with
  | nil => exact ⟨pre, [], by simp at this; simp [this], h2⟩
  | cons k post => exact ⟨pre, post ++ [listEnd], by simp at this; simp [this], h2⟩

theorem nodup_end {pool : List Entry} {h is as} (hs : pool.length < listEnd) (hc : Chain pool h is as)
    (hn : is.Nodup) : (is ++ [listEnd]).Nodup := by
  rw [List.nodup_append]
  refine ⟨hn, by simp, ?_⟩
  intro a ha b hb
  have := hc.lt a ha
  simp at hb
  omega

/-- `previousEntry` finds the predecessor in the list. -/
theorem previousEntry_pre {pool : List Entry} {h is as} (hs : pool.length < listEnd)
    (hc : Chain pool h is as) (hn : is.Nodup) (hu : ∀ i e, pool[i]? = some e → e.inUse = true → i ∈ is)
    {a b : List Nat} {p k : Nat} (hl : is ++ [listEnd] = a ++ p :: k :: b) : previousEntry pool k = p := by
  have hend := nodup_end hs hc hn
  have hp : p ∈ is := by
    have h1 : (is ++ [listEnd])[a.length]? = some p := by rw [hl]; simp
    have h2 : a.length < is.length := by
      have := congrArg List.length hl
      simp at this; omega
    rw [List.getElem?_append_left h2] at h1
    exact List.mem_of_getElem? h1
  have hlt := hc.lt p hp
  have hget := List.getElem?_eq_getElem hlt
  obtain ⟨a', b', h1, h2⟩ := hc.next hp hget
  have hk : pool[p].next = k := by
    have hlen : a.length = a'.length := by
      apply (List.getElem?_inj (l := is ++ [listEnd]) (by rw [hl]; simp) hend).mp
      have g1 : (is ++ [listEnd])[a.length]? = some p := by rw [hl]; simp
      have g2 : (is ++ [listEnd])[a'.length]? = some p := by rw [h1]; simp
      rw [g1, g2]
    have g1 : (is ++ [listEnd])[a.length + 1]? = some k := by rw [hl]; simp
    have g2 : (is ++ [listEnd])[a'.length + 1]? = some pool[p].next := by rw [h1]; simp
    rw [hlen, g2] at g1
    simpa using g1
  unfold previousEntry
  rw [findIdx?_unique hget (by simp [h2, hk]) ?_]
  · rfl
  · intro j e he hP
    simp only [Bool.and_eq_true, beq_iff_eq] at hP
    have hj := hu j e he hP.1
    obtain ⟨a2, b2, h3, _⟩ := hc.next hj he
    rw [hP.2] at h3
    exact succ_unique hend h3 hl

/-- Without a predecessor, `previousEntry` returns the end. -/
theorem previousEntry_none {pool : List Entry} {k : Nat}
    (h : ∀ (i : Nat) e, pool[i]? = some e → e.inUse = true → e.next ≠ k) : previousEntry pool k = listEnd := by
  unfold previousEntry
  rw [findIdx?_none]
  · rfl
  · intro j e he
    cases hb : e.inUse with
    | false => simp
    | true => simpa using h j e he hb

theorem getElem?_set_some {l : List Entry} {k i : Nat} {v e : Entry} (h : (l.set k v)[i]? = some e) :
    (i = k ∧ e = v) ∨ (i ≠ k ∧ l[i]? = some e) := by
  by_cases hk : k = i
  · subst hk
    have := lt_of_get h
    rw [List.length_set] at this
    rw [List.getElem?_set_self this] at h
    exact .inl ⟨rfl, by simpa using h.symm⟩
  · rw [List.getElem?_set_ne hk] at h
    exact .inr ⟨fun hx => hk hx.symm, h⟩

/-- Insertion at an unused entry. -/
theorem insert_unused {s : State} {is as} (hi : Inv s is as) {k : Nat} (hk : newEntryIndex s.pool = k)
    (hlt : k < s.pool.length) (hnot : k ∉ is) (lr ptr : Nat) {size : Nat} (hsize : size < 2 ^ 31) :
    ∃ s', insert s lr ptr size = some s' ∧ s'.pool.length = s.pool.length ∧ s'.inUseCount = s.inUseCount ∧
      s'.maxInUse = s.maxInUse ∧ Inv s' (k :: is) (⟨lr, ptr, size⟩ :: as) := by
  have hsm := hi.small
  obtain ⟨v, hv⟩ : ∃ v : Entry, v = ⟨lr, ptr, size % 2 ^ 31, true, s.head⟩ := ⟨_, rfl⟩
  have hprev : previousEntry (s.pool.set k v) k = listEnd := by
    apply previousEntry_none
    intro i e he hb
    have key : ∀ x : Nat, x ∈ is ++ [listEnd] → x ≠ k := by
      intro x hx hxk
      subst hxk
      simp only [List.mem_append, List.mem_singleton] at hx
      rcases hx with hx | hx
      · exact hnot hx
      · omega
    rcases getElem?_set_some he with ⟨_, rfl⟩ | ⟨hne, he⟩
    · apply key
      rw [hv]
      simp only
      rw [hi.chain.head]
      cases is <;> simp
    · have := hi.used i e he hb
      obtain ⟨a, b, h1, _⟩ := hi.chain.next this he
      apply key
      rw [h1]; simp
  refine ⟨{ s with pool := s.pool.set k v, head := k }, ?_, by simp, rfl, rfl, ?_⟩
  · unfold insert
    simp only [hk]
    rw [if_neg (by omega), if_pos hlt, ← hv, hprev]
    simp
  · refine ⟨by simp; exact hsm, ⟨rfl, v, List.getElem?_set_self hlt, by rw [hv], ?_, ?_⟩, ?_, ?_⟩
    · rw [hv]; simp only [Entry.alloc]; rw [Nat.mod_eq_of_lt hsize]
    · rw [hv]; exact hi.chain.set hnot
    · exact List.nodup_cons.mpr ⟨hnot, hi.nodup⟩
    · intro i e he hb
      rcases getElem?_set_some he with ⟨rfl, _⟩ | ⟨_, he⟩
      · simp
      · simp [hi.used i e he hb]

/-- Insertion over the oldest entry. -/
theorem insert_evict {s : State} {pre : List Nat} {k : Nat} {as a} (hi : Inv s (pre ++ [k]) (as ++ [a]))
    (hk : newEntryIndex s.pool = k) (lr ptr : Nat) {size : Nat} (hsize : size < 2 ^ 31) :
    ∃ s', insert s lr ptr size = some s' ∧ s'.pool.length = s.pool.length ∧ s'.inUseCount = s.inUseCount ∧
      s'.maxInUse = s.maxInUse ∧ Inv s' (k :: pre) (⟨lr, ptr, size⟩ :: as) := by
  have hsm := hi.small
  have hlt : k < s.pool.length := hi.chain.lt k (by simp)
  obtain ⟨v, hv⟩ : ∃ v : Entry, v = ⟨lr, ptr, size % 2 ^ 31, true, s.head⟩ := ⟨_, rfl⟩
  have hva : v.alloc = ⟨lr, ptr, size⟩ := by
    rw [hv]; simp only [Entry.alloc]; rw [Nat.mod_eq_of_lt hsize]
  have hlen : as.length = pre.length := by
    have := hi.chain.length; simp at this; exact this.symm
  have hpren : pre.Nodup := (List.nodup_append.mp hi.nodup).1
  have hkp : k ∉ pre := fun hx => (List.nodup_append.mp hi.nodup).2.2 k hx k (by simp) rfl
  have hgk : (s.pool.set k v)[k]? = some v := List.getElem?_set_self hlt
  unfold insert
  simp only [hk]
  rw [if_neg (by omega), if_pos hlt, ← hv]
  rcases List.eq_nil_or_concat pre with rfl | ⟨pre0, p, rfl⟩
  · -- the only entry of the pool
    have has : as = [] := List.length_eq_zero_iff.mp (by simpa using hlen)
    subst has
    have hh : s.head = k := by have := hi.chain.head; simpa using this
    have hprev : previousEntry (s.pool.set k v) k = k := by
      unfold previousEntry
      rw [findIdx?_unique hgk (by rw [hv]; simp [hh])]
      · rfl
      · intro j e he hb
        rcases getElem?_set_some he with ⟨rfl, _⟩ | ⟨_, he⟩
        · rfl
        · simp only [Bool.and_eq_true] at hb
          have := hi.used j e he hb.1
          simpa using this
    rw [hprev, if_pos (show k ≠ listEnd by omega)]
    refine ⟨{ s with pool := (s.pool.set k v).set k { v with next := listEnd }, head := k }, ?_, by simp, rfl, rfl, ?_⟩
    · simp only [setNext, hgk, Option.map_some]
    · refine ⟨by simp; exact hsm, ⟨rfl, { v with next := listEnd }, ?_, by rw [hv], hva, rfl⟩, by simp, ?_⟩
      · rw [List.getElem?_set_self (by simpa using hlt)]
      · intro i e he hb
        rcases getElem?_set_some he with ⟨rfl, _⟩ | ⟨h1, he⟩
        · simp
        · rcases getElem?_set_some he with ⟨rfl, _⟩ | ⟨_, he⟩
          · simp
          · have := hi.used i e he hb
            simpa using this
  · rw [List.concat_eq_append] at *
    have hpk : p ≠ k := fun hx => hkp (by simp [hx])
    have hp0 : p ∉ pre0 := fun hx => (List.nodup_append.mp hpren).2.2 p hx p (by simp) rfl
    obtain ⟨e, as1, as2, g1, g2, g3, g4, g5⟩ := Chain.split (pool := s.pool) (h := s.head) (as := as ++ [a]) (pre := pre0) (i := p) (post := [k])
        (by simpa using hi.chain)
    have has2 : as2.length = 1 := by have := g5.length; simp at this; exact this.symm
    obtain ⟨a2, rfl⟩ := List.length_eq_one_iff.mp has2
    have hsplit : as = as1 ++ [e.alloc] ∧ a = a2 := by
      have : as ++ [a] = (as1 ++ [e.alloc]) ++ [a2] := by rw [g3]; simp
      have h2 := List.append_inj' this (by simp)
      exact ⟨h2.1, by simpa using h2.2⟩
    obtain ⟨has, rfl⟩ := hsplit
    have hgp : (s.pool.set k v)[p]? = some e := by rw [List.getElem?_set_ne (fun hx => hpk hx.symm)]; exact g1
    have hend := nodup_end hi.small hi.chain hi.nodup
    have hhead : s.head ≠ k := by
      have h1 := hi.chain.head
      intro hx
      rw [hx] at h1
      apply hkp
      cases pre0 with
      | nil => simp at h1; simp [h1]
      | cons x pre0 => simp at h1; simp [h1]
    have hprev : previousEntry (s.pool.set k v) k = p := by
      have hek : e.next = k := by have := g5.head; simpa using this
      unfold previousEntry
      rw [findIdx?_unique hgp (by simp [g2, hek])]
      · rfl
      · intro j e' he hb
        simp only [Bool.and_eq_true, beq_iff_eq] at hb
        rcases getElem?_set_some he with ⟨rfl, hx⟩ | ⟨hne, he⟩
        · rw [hx, hv] at hb
          exact absurd hb.2 hhead
        · have hm := hi.used j e' he hb.1
          obtain ⟨a', b', h1, _⟩ := hi.chain.next hm he
          rw [hb.2] at h1
          exact succ_unique hend (k := k) (a' := pre0) (b' := [listEnd]) h1 (by simp)
    rw [hprev, if_pos (show p ≠ listEnd from by have := lt_of_get g1; omega)]
    refine ⟨{ s with pool := (s.pool.set k v).set p { e with next := listEnd }, head := k }, ?_, by simp, rfl, rfl, ?_⟩
    · simp only [setNext, hgp, Option.map_some]
    · refine ⟨by simp; exact hsm, ⟨rfl, v, ?_, by rw [hv], hva, ?_⟩, List.nodup_cons.mpr ⟨hkp, hpren⟩, ?_⟩
      · rw [List.getElem?_set_ne hpk]; exact hgk
      · have hvn : v.next = s.head := by rw [hv]
        simp only [hvn, has]
        have hch : Chain s.pool s.head (pre0 ++ p :: [k]) (as1 ++ e.alloc :: [a]) := by
          have := hi.chain; rw [has] at this; simpa using this
        -- first drop `k`, then the write to `k` does not matter
        have h1 := Chain.relink (q := listEnd) (post' := []) (as2' := []) g1 rfl hch hp0 g4
        have h2 := h1.set (k := k) (v := v) (by simpa using hkp)
        rw [List.set_comm _ _ hpk] at h2
        exact h2
      · intro i e' he hb
        rcases getElem?_set_some he with ⟨rfl, _⟩ | ⟨h1, he⟩
        · simp
        · rcases getElem?_set_some he with ⟨rfl, _⟩ | ⟨h2, he⟩
          · simp
          · have := hi.used i e' he hb
            rcases List.mem_append.mp this with h | h
            · exact List.mem_cons_of_mem _ h
            · exact absurd (List.mem_singleton.mp h) h2

/-- Removal of a tracked entry. -/
theorem remove_eq {s : State} {pre post : List Nat} {i : Nat} {as1 as2 : List Alloc} {e : Entry}
    (hi : Inv s (pre ++ i :: post) (as1 ++ e.alloc :: as2)) (hlen : as1.length = pre.length)
    (he : s.pool[i]? = some e) :
    ∃ s', remove s i e = some s' ∧ s'.pool.length = s.pool.length ∧ s'.inUseCount = s.inUseCount ∧
      s'.maxInUse = s.maxInUse ∧ Inv s' (pre ++ post) (as1 ++ as2) := by
  have hsm := hi.small
  have hlt := lt_of_get he
  obtain ⟨v, hv⟩ : ∃ v : Entry, v = { e with inUse := false } := ⟨_, rfl⟩
  obtain ⟨w, hw⟩ : ∃ w : Entry, w = { v with next := listEnd } := ⟨_, rfl⟩
  have hnd := hi.nodup
  have hipre : i ∉ pre := fun hx => (List.nodup_append.mp hnd).2.2 i hx i (by simp) rfl
  have hipost : i ∉ post := (List.nodup_cons.mp (List.nodup_append.mp hnd).2.1).1
  have hnd' : (pre ++ post).Nodup := by
    rw [List.nodup_append] at hnd ⊢
    exact ⟨hnd.1, (List.nodup_cons.mp hnd.2.1).2, fun a ha b hb => hnd.2.2 a ha b (by simp [hb])⟩
  have hend := nodup_end hi.small hi.chain hi.nodup
  have hgi : (s.pool.set i v)[i]? = some v := List.getElem?_set_self hlt
  have hmem : ∀ j, j ∈ pre ++ i :: post → j ≠ i → j ∈ pre ++ post := by
    intro j hj hne
    simp only [List.mem_append, List.mem_cons] at hj ⊢
    rcases hj with h | h | h
    · exact .inl h
    · exact absurd h hne
    · exact .inr h
  have hpost : Chain s.pool e.next post as2 := by
    obtain ⟨e', b1, b2, g1, g2, g3, g4, g5⟩ := hi.chain.split
    rw [he] at g1; cases g1
    have h2 := List.append_inj g3 (by omega)
    simp only [List.cons.injEq, true_and] at h2
    rw [h2.2]; exact g5
  unfold remove
  simp only
  rw [← hv]
  rcases List.eq_nil_or_concat pre with rfl | ⟨pre0, p, rfl⟩
  · have has : as1 = [] := List.length_eq_zero_iff.mp (by simpa using hlen)
    subst has
    have hh : s.head = i := by have := hi.chain.head; simpa using this
    have hprev : previousEntry (s.pool.set i v) i = listEnd := by
      apply previousEntry_none
      intro j e' he' hb hx
      rcases getElem?_set_some he' with ⟨_, rfl⟩ | ⟨hne, he'⟩
      · rw [hv] at hb; cases hb
      · have hm := hi.used j e' he' hb
        obtain ⟨a, b, h1, _⟩ := hi.chain.next hm he'
        rw [hx] at h1
        have : a.length + 1 = 0 := by
          apply (List.getElem?_inj (l := ([] ++ i :: post) ++ [listEnd]) (by rw [h1]; simp) hend).mp
          have g1 : (([] ++ i :: post) ++ [listEnd])[a.length + 1]? = some i := by rw [h1]; simp
          rw [g1]; simp
        omega
    rw [hprev, if_pos hh]
    refine ⟨{ s with pool := (s.pool.set i v).set i w, head := e.next }, ?_, by simp, rfl, rfl, ?_⟩
    · simp [setNext, hgi, hw]
    · refine ⟨by simp; exact hsm, (hpost.set hipost).set hipost, by simpa using hnd', ?_⟩
      intro j e' he' hb
      rcases getElem?_set_some he' with ⟨_, rfl⟩ | ⟨hne, he'⟩
      · rw [hw, hv] at hb; cases hb
      · rcases getElem?_set_some he' with ⟨_, rfl⟩ | ⟨hne, he'⟩
        · rw [hv] at hb; cases hb
        · exact hmem j (hi.used j e' he' hb) hne
  · rw [List.concat_eq_append] at *
    have hpi : p ≠ i := fun hx => hipre (by simp [hx])
    have hp0 : p ∉ pre0 := fun hx =>
      (List.nodup_append.mp (List.nodup_append.mp hnd).1).2.2 p hx p (by simp) rfl
    have hppost : p ∉ post := fun hx => (List.nodup_append.mp hnd').2.2 p (by simp) p hx rfl
    obtain ⟨ep, b1, b2, g1, g2, g3, g4, g5⟩ := Chain.split (pool := s.pool) (h := s.head)
      (as := as1 ++ e.alloc :: as2) (pre := pre0) (i := p) (post := i :: post) (by simpa using hi.chain)
    have hb2 : b2.length = post.length + 1 := by have := g5.length; simp at this; exact this.symm
    have hsplit : as1 = b1 ++ [ep.alloc] ∧ b2 = e.alloc :: as2 := by
      have h2 := List.append_inj (s₁ := as1) (s₂ := b1 ++ [ep.alloc]) (t₁ := e.alloc :: as2) (t₂ := b2)
        (by rw [g3]; simp) (by simp at hlen ⊢; omega)
      exact ⟨h2.1, h2.2.symm⟩
    obtain ⟨has, hb2'⟩ := hsplit
    have hgp : (s.pool.set i v)[p]? = some ep := by rw [List.getElem?_set_ne (fun hx => hpi hx.symm)]; exact g1
    have hhead : s.head ≠ i := by
      have h1 := hi.chain.head
      intro hx
      rw [hx] at h1
      apply hipre
      cases pre0 with
      | nil => simp at h1; simp [h1]
      | cons x pre0 => simp at h1; simp [h1]
    have hprev : previousEntry (s.pool.set i v) i = p := by
      have hek : ep.next = i := by have := g5.head; simpa using this
      unfold previousEntry
      rw [findIdx?_unique hgp (by simp [g2, hek])]
      · rfl
      · intro j e' he' hb
        simp only [Bool.and_eq_true, beq_iff_eq] at hb
        rcases getElem?_set_some he' with ⟨_, hx⟩ | ⟨hne, he'⟩
        · rw [hx, hv] at hb; cases hb.1
        · have hm := hi.used j e' he' hb.1
          obtain ⟨a', b', h1, _⟩ := hi.chain.next hm he'
          rw [hb.2] at h1
          exact succ_unique hend (k := i) (a' := pre0) (b' := post ++ [listEnd]) h1 (by simp)
    obtain ⟨u, hu⟩ : ∃ u : Entry, u = { ep with next := e.next } := ⟨_, rfl⟩
    have hgi2 : ((s.pool.set i v).set p u)[i]? = some v := by
      rw [List.getElem?_set_ne hpi]; exact hgi
    rw [hprev, if_neg hhead, if_pos (show p ≠ listEnd from by have := lt_of_get g1; omega)]
    refine ⟨{ s with pool := ((s.pool.set i v).set p u).set i w }, ?_, by simp, rfl, rfl, ?_⟩
    · have h1 : setNext (s.pool.set i v) p e.next = some ((s.pool.set i v).set p u) := by
        simp [setNext, hgp, hu]
      rw [h1]
      simp only [Option.bind_some]
      have h2 : setNext ((s.pool.set i v).set p u) i listEnd = some (((s.pool.set i v).set p u).set i w) := by
        unfold setNext
        rw [hgi2, hw]
        simp
      rw [h2]; rfl
    · refine ⟨by simp; exact hsm, ?_, by simpa using hnd', ?_⟩
      · have hch : Chain s.pool s.head (pre0 ++ p :: i :: post) (b1 ++ ep.alloc :: e.alloc :: as2) := by
          have := hi.chain; rw [has] at this; simpa using this
        have h1 := Chain.relink (q := e.next) (post' := post) (as2' := as2) g1 (hpost.set hppost) hch hp0 g4
        rw [← hu] at h1
        have hni : i ∉ pre0 ++ p :: post := by
          simp only [List.mem_append, List.mem_cons, not_or] at hipre ⊢
          exact ⟨hipre.1, fun hx => hpi hx.symm, hipost⟩
        have h2 := (h1.set (k := i) (v := v) hni)
        rw [List.set_comm _ _ hpi] at h2
        have h3 := h2.set (k := i) (v := w) hni
        simpa [has] using h3
      · intro j e' he' hb
        rcases getElem?_set_some he' with ⟨_, rfl⟩ | ⟨hne, he'⟩
        · rw [hw, hv] at hb; cases hb
        · rcases getElem?_set_some he' with ⟨rfl, _⟩ | ⟨h2, he'⟩
          · simp
          · rcases getElem?_set_some he' with ⟨_, rfl⟩ | ⟨h3, he'⟩
            · rw [hv] at hb; cases hb
            · exact hmem j (hi.used j e' he' hb) hne

theorem length_le_of_lt {is : List Nat} {n : Nat} (hn : is.Nodup) (h : ∀ i ∈ is, i < n) : is.length ≤ n := by
  have : is ⊆ List.range n := fun i hi => List.mem_range.mpr (h i hi)
  simpa using (hn.subperm this).length_le

theorem le_length_of_mem {is : List Nat} {n : Nat} (h : ∀ i, i < n → i ∈ is) : n ≤ is.length := by
  have : List.range n ⊆ is := fun i hi => h i (List.mem_range.mp hi)
  simpa using ((List.nodup_range).subperm this).length_le

/-- Insertion keeps the newest `n` allocations. -/
theorem insert_eq {s : State} {is as} (hi : Inv s is as) (hpos : 0 < s.pool.length) (lr ptr : Nat) {size : Nat}
    (hsize : size < 2 ^ 31) :
    ∃ s' is', insert s lr ptr size = some s' ∧ s'.pool.length = s.pool.length ∧ s'.inUseCount = s.inUseCount ∧
      s'.maxInUse = s.maxInUse ∧ Inv s' is' ((⟨lr, ptr, size⟩ :: as).take s.pool.length) := by
  have hun : ∀ k, newEntryIndex s.pool = k → ∀ (hlt : k < s.pool.length), s.pool[k].inUse = false →
      ∃ s' is', insert s lr ptr size = some s' ∧ s'.pool.length = s.pool.length ∧ s'.inUseCount = s.inUseCount ∧
      s'.maxInUse = s.maxInUse ∧ Inv s' is' ((⟨lr, ptr, size⟩ :: as).take s.pool.length) := by
    intro k hk hlt hb
    have hnot : k ∉ is := by
      intro hx
      obtain ⟨a, b, _, h1⟩ := hi.chain.next hx (List.getElem?_eq_getElem hlt)
      rw [hb] at h1; cases h1
    obtain ⟨s', h1, h2, h3, h4, h5⟩ := insert_unused hi hk hlt hnot lr ptr hsize
    refine ⟨s', k :: is, h1, h2, h3, h4, ?_⟩
    have hle : (k :: is).length ≤ s.pool.length := by
      refine length_le_of_lt h5.nodup ?_
      intro i hm
      have := h5.chain.lt i hm
      omega
    have hl := hi.chain.length
    rw [List.length_cons] at hle
    rw [List.take_of_length_le (by rw [List.length_cons]; omega)]
    exact h5
  cases h1 : s.pool.findIdx? fun e => !e.inUse && e.size == 0 with
  | some k =>
    obtain ⟨hlt, hb, _⟩ := List.findIdx?_eq_some_iff_getElem.mp h1
    refine hun k (by simp [newEntryIndex, h1]) hlt ?_
    simp only [Bool.and_eq_true, Bool.not_eq_true'] at hb
    exact hb.1
  | none =>
    cases h2 : s.pool.findIdx? fun e => !e.inUse with
    | some k =>
      obtain ⟨hlt, hb, _⟩ := List.findIdx?_eq_some_iff_getElem.mp h2
      exact hun k (by simp [newEntryIndex, h1, h2]) hlt (by simpa using hb)
    | none =>
      have hall : ∀ i, i < s.pool.length → i ∈ is := by
        intro i hlt
        rw [List.findIdx?_eq_none_iff] at h2
        have := h2 s.pool[i] (List.getElem_mem hlt)
        exact hi.used i _ (List.getElem?_eq_getElem hlt) (by simpa using this)
      have hge := le_length_of_mem hall
      have hle := length_le_of_lt hi.nodup (fun i hm => hi.chain.lt i hm)
      have hl := hi.chain.length
      rcases List.eq_nil_or_concat is with rfl | ⟨pre, k, rfl⟩
      · rw [List.length_nil] at hge; omega
      rcases List.eq_nil_or_concat as with rfl | ⟨as0, a, rfl⟩
      · simp at hl
      rw [List.concat_eq_append] at *
      rw [List.concat_eq_append] at *
      have hk : newEntryIndex s.pool = k := by
        simp only [newEntryIndex, h1, h2]
        exact previousEntry_pre hi.small hi.chain hi.nodup hi.used (a := pre) (b := []) (by simp)
      obtain ⟨s', e1, e2, e3, e4, e5⟩ := insert_evict hi hk lr ptr hsize
      refine ⟨s', k :: pre, e1, e2, e3, e4, ?_⟩
      have : ((⟨lr, ptr, size⟩ : Alloc) :: (as0 ++ [a])).take s.pool.length = ⟨lr, ptr, size⟩ :: as0 := by
        simp at hl hle hge
        rw [← List.cons_append, List.take_append_of_le_length (by simp; omega), List.take_of_length_le (by simp; omega)]
      rw [this]
      exact e5

end Mflt.HeapStats
