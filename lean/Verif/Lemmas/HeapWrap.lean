import Verif.Spec.HeapWrap
import Verif.Props.HeapStats

/-! # Lemmas: the heap statistics behind the ports -/

namespace Mflt.HeapWrap

open Spec.HeapStats (Alloc)
open HeapStats (Inv Entry insert_eq remove_eq)

/-! ## The list, also with repeated addresses -/

def Listed (n : Nat) (s : HeapStats.State) (as : List Alloc) : Prop := s.pool.length = n ∧ ∃ is, Inv s is as

theorem Listed.congr {n : Nat} {s s' : HeapStats.State} {as} (h : Listed n s as) (h1 : s'.pool = s.pool)
    (h2 : s'.head = s.head) : Listed n s' as := by
  obtain ⟨a, is, b⟩ := h
  exact ⟨by rw [h1]; exact a, is, b.congr h1 h2⟩

theorem increment_listed {n : Nat} {s : HeapStats.State} {as} (h : Listed n s as) :
    Listed n (HeapStats.increment s) as := h.congr (by cases s; rfl) (by cases s; rfl)

theorem decrement_listed {n : Nat} {s : HeapStats.State} {as} (h : Listed n s as) :
    Listed n (HeapStats.decrement s) as := h.congr (by cases s; rfl) (by cases s; rfl)

theorem increment_count (s : HeapStats.State) :
    (HeapStats.increment s).inUseCount = (s.inUseCount + 1) % 2 ^ 32 := by simp only [HeapStats.increment]

theorem decrement_count (s : HeapStats.State) :
    (HeapStats.decrement s).inUseCount = (s.inUseCount + 2 ^ 32 - 1) % 2 ^ 32 := by simp only [HeapStats.decrement]

attribute [local irreducible] HeapStats.increment HeapStats.decrement

theorem statsMalloc_listed {n : Nat} (hn : 0 < n) (auto : Bool) {s : HeapStats.State} {as} (h : Listed n s as)
    {a : Alloc} (hsize : a.size < 2 ^ 31) :
    ∃ s', statsMalloc auto s a = some s' ∧ Listed n s' (if a.ptr = 0 then as else (a :: as).take n) ∧
      s'.inUseCount = if a.ptr ≠ 0 ∧ auto then (s.inUseCount + 1) % 2 ^ 32 else s.inUseCount := by
  unfold statsMalloc
  by_cases hp : a.ptr = 0
  · simp only [hp, ne_eq, not_true_eq_false, if_false, if_true, false_and]
    exact ⟨s, rfl, h, rfl⟩
  · simp only [hp, ne_eq, not_false_eq_true, if_true, if_false, true_and]
    have h' : Listed n (if auto then HeapStats.increment s else s) as := by
      cases auto
      · exact h
      · exact increment_listed h
    have hc : (if auto then HeapStats.increment s else s).inUseCount =
        if auto then (s.inUseCount + 1) % 2 ^ 32 else s.inUseCount := by
      cases auto
      · rfl
      · exact increment_count s
    rw [← hc]
    obtain ⟨a1, is, a2⟩ := h'
    obtain ⟨s', is', e1, e2, e3, -, e5⟩ := insert_eq a2 (by omega) a.lr a.ptr hsize
    rw [a1] at e5
    exact ⟨s', e1, ⟨by rw [e2, a1], is', e5⟩, e3⟩

/-- One of the entries with address `p` is gone, if there is one. -/
def Gone (p : Nat) (as as' : List Alloc) : Prop :=
  (as' = as ∧ (p ≠ 0 → ∀ a ∈ as, a.ptr ≠ p)) ∨
  ∃ as1 a as2, as = as1 ++ a :: as2 ∧ a.ptr = p ∧ as' = as1 ++ as2 ∧ p ≠ 0

theorem unmark_listed {n : Nat} {d : HeapStats.State} {as} (h : Listed n d as) {p : Nat} (hp : p ≠ 0) :
    ∃ s' as', (match d.pool.findIdx? fun e => e.ptr == p && e.inUse with
      | some i => d.pool[i]?.bind fun e => HeapStats.remove d i e
      | none => some d) = some s' ∧ Listed n s' as' ∧ Gone p as as' ∧ s'.inUseCount = d.inUseCount := by
  obtain ⟨a1, is, hi⟩ := h
  cases hf : d.pool.findIdx? fun e => e.ptr == p && e.inUse with
  | none =>
    refine ⟨d, as, rfl, ⟨a1, is, hi⟩, .inl ⟨rfl, fun _ a ha hx => ?_⟩, rfl⟩
    obtain ⟨i, hti⟩ : ∃ i, as[i]? = some a := List.mem_iff_getElem?.mp ha
    have hlen := hi.chain.length
    have hil : i < is.length := by have := HeapStats.lt_of_get hti; omega
    have hcx := hi.chain
    have hsplit : is = is.take i ++ is[i] :: is.drop (i + 1) := by simp
    rw [hsplit] at hcx
    obtain ⟨e, b1, b2, g1, g2, g3, g4, g5⟩ := hcx.split
    have hb : b1.length = i := by rw [g4, List.length_take]; omega
    have hea : e.alloc = a := by
      rw [g3, ← hb] at hti
      simpa using hti
    rw [List.findIdx?_eq_none_iff] at hf
    have := hf e (List.mem_of_getElem? g1)
    rw [g2, Bool.and_true] at this
    rw [← hea] at hx
    simp [show e.ptr = p from hx] at this
  | some i =>
    obtain ⟨hlt, hb, _⟩ := List.findIdx?_eq_some_iff_getElem.mp hf
    have hg := List.getElem?_eq_getElem hlt
    obtain ⟨e, he⟩ : ∃ e, e = d.pool[i] := ⟨_, rfl⟩
    rw [← he] at hg hb
    simp only [Bool.and_eq_true, beq_iff_eq] at hb
    have hm := hi.used i e hg hb.2
    obtain ⟨pre, post, hpp⟩ := List.append_of_mem hm
    have hcx := hi.chain
    rw [hpp] at hcx
    obtain ⟨e', as1, as2, g1, g2, g3, g4, g5⟩ := hcx.split
    rw [hg] at g1
    cases g1
    have hi2 := hi
    rw [hpp, g3] at hi2
    obtain ⟨s', e1, e2, e3, e4, e5⟩ := remove_eq hi2 g4 hg
    refine ⟨s', as1 ++ as2, ?_, ⟨by rw [e2, a1], pre ++ post, e5⟩, .inr ⟨as1, e.alloc, as2, g3, hb.1, rfl, hp⟩, e3⟩
    simp only [hg, Option.bind_some, e1]

theorem statsFree_listed {n : Nat} (auto : Bool) {s : HeapStats.State} {as} (h : Listed n s as) (p : Nat) :
    ∃ s' as', statsFree auto s p = some s' ∧ Listed n s' as' ∧ Gone p as as' ∧
      s'.inUseCount = if p ≠ 0 ∧ auto then (s.inUseCount + 2 ^ 32 - 1) % 2 ^ 32 else s.inUseCount := by
  by_cases hp : p = 0
  · refine ⟨s, as, ?_, h, .inl ⟨rfl, fun h => absurd hp h⟩, ?_⟩
    · unfold statsFree; rw [if_neg (by simp only [hp, ne_eq, not_true_eq_false, not_false_eq_true])]
    · rw [if_neg (fun hx => hx.1 hp)]
  · unfold statsFree
    rw [if_pos hp]
    cases auto with
    | false =>
      obtain ⟨s', as', e1, e2, e3, e4⟩ := unmark_listed h hp
      exact ⟨s', as', e1, e2, e3, by rw [e4, if_neg (fun hx => by cases hx.2)]⟩
    | true =>
      obtain ⟨s', as', e1, e2, e3, e4⟩ := unmark_listed (decrement_listed h) hp
      refine ⟨s', as', e1, e2, e3, ?_⟩
      rw [e4, if_pos ⟨hp, rfl⟩]
      exact decrement_count s

theorem reset_listed {n : Nat} (h : n < 65535) : Listed n (HeapStats.reset n) [] := by
  obtain ⟨a, -, -, -, -, is, b⟩ := Props.heapReset_rel h
  exact ⟨a, is, b⟩

/-! ## The lock -/

def Job.snapshot : Job → Option HeapStats.State
  | .counting _ s => some s
  | .recording _ s => some s
  | .unrecording _ s => some s
  | .uncounting s => some s
  | _ => none

def Job.alloc : Job → Option Alloc
  | .taken a => some a
  | .counting a _ => some a
  | .allocated a => some a
  | .recording a _ => some a
  | _ => none

theorem get_set {α : Type} {l : List α} {t i : Nat} {j j' : α} (h : (l.set t j')[i]? = some j) :
    (i = t ∧ j = j') ∨ (i ≠ t ∧ l[i]? = some j) := by
  rw [List.getElem?_set] at h
  split at h
  · rename_i hti
    split at h
    · simp only [Option.some.injEq] at h
      exact .inl ⟨hti.symm, h.symm⟩
    · cases h
  · rename_i hti
    exact .inr ⟨fun hx => hti hx.symm, h⟩

structure Excl (w : World) : Prop where
  held : ∀ (i : Nat) (j : Job) s, w.tasks[i]? = some j → j.snapshot = some s → w.locked = true ∧ s = w.stats
  one : ∀ (i i' : Nat) (j j' : Job), w.tasks[i]? = some j → w.tasks[i']? = some j' → j.snapshot.isSome → j'.snapshot.isSome → i = i'
  holder : w.locked = true → ∃ (i : Nat) (j : Job), w.tasks[i]? = some j ∧ j.snapshot.isSome

theorem Excl.keep {w w' : World} (h : Excl w) {t : Nat} {j j' : Job} (hl : w'.locked = w.locked)
    (hs : w'.stats = w.stats) (ht : w'.tasks = w.tasks.set t j') (hj : w.tasks[t]? = some j)
    (h1 : j.snapshot = none) (h2 : j'.snapshot = none) : Excl w' := by
  refine ⟨?_, ?_, ?_⟩
  · intro i k s hk hsn
    rw [ht] at hk
    rcases get_set hk with ⟨rfl, rfl⟩ | ⟨-, hk⟩
    · rw [h2] at hsn; cases hsn
    · rw [hl, hs]; exact h.held i k s hk hsn
  · intro i i' k k' hk hk' hsn hsn'
    rw [ht] at hk hk'
    rcases get_set hk with ⟨rfl, rfl⟩ | ⟨-, hk⟩
    · rw [h2] at hsn; cases hsn
    · rcases get_set hk' with ⟨rfl, rfl⟩ | ⟨-, hk'⟩
      · rw [h2] at hsn'; cases hsn'
      · exact h.one i i' k k' hk hk' hsn hsn'
  · intro hlk
    rw [hl] at hlk
    obtain ⟨i, k, hk, hsn⟩ := h.holder hlk
    refine ⟨i, k, ?_, hsn⟩
    rw [ht, List.getElem?_set_ne]
    · exact hk
    · rintro rfl
      rw [hj] at hk
      cases hk
      rw [h1] at hsn; cases hsn

theorem Excl.free {w : World} (h : Excl w) (hl : w.locked = false) {i : Nat} {j : Job} (hj : w.tasks[i]? = some j) :
    j.snapshot = none := by
  cases hs : j.snapshot with
  | none => rfl
  | some s => have := (h.held i j s hj hs).1; rw [hl] at this; cases this

theorem Excl.acquire {w w' : World} (h : Excl w) {t : Nat} {j' : Job} (hf : w.locked = false)
    (hl : w'.locked = true) (hs : w'.stats = w.stats) (ht : w'.tasks = w.tasks.set t j')
    (hlt : t < w.tasks.length) (h2 : j'.snapshot = some w.stats) : Excl w' := by
  refine ⟨?_, ?_, ?_⟩
  · intro i k s hk hsn
    rw [ht] at hk
    rcases get_set hk with ⟨rfl, rfl⟩ | ⟨-, hk⟩
    · rw [h2] at hsn; cases hsn; exact ⟨hl, hs.symm⟩
    · rw [h.free hf hk] at hsn; cases hsn
  · intro i i' k k' hk hk' hsn hsn'
    rw [ht] at hk hk'
    rcases get_set hk with ⟨rfl, rfl⟩ | ⟨-, hk⟩
    · rcases get_set hk' with ⟨rfl, rfl⟩ | ⟨-, hk'⟩
      · rfl
      · rw [h.free hf hk'] at hsn'; cases hsn'
    · rw [h.free hf hk] at hsn; cases hsn
  · intro _
    exact ⟨t, j', by rw [ht, List.getElem?_set_self hlt], by rw [h2]; rfl⟩

theorem Excl.release {w w' : World} (h : Excl w) {t : Nat} {j j' : Job} (hl : w'.locked = false)
    (ht : w'.tasks = w.tasks.set t j') (hj : w.tasks[t]? = some j) (h1 : j.snapshot.isSome)
    (h2 : j'.snapshot = none) : Excl w' := by
  have hno : ∀ (i : Nat) (k : Job), w'.tasks[i]? = some k → k.snapshot = none := by
    intro i k hk
    rw [ht] at hk
    rcases get_set hk with ⟨rfl, rfl⟩ | ⟨hne, hk⟩
    · exact h2
    · cases hsn : k.snapshot with
      | none => rfl
      | some s => exact absurd (h.one i t k j hk hj (by rw [hsn]; rfl) h1) hne
  refine ⟨?_, ?_, ?_⟩
  · intro i k s hk hsn; rw [hno i k hk] at hsn; cases hsn
  · intro i i' k k' hk _ hsn; rw [hno i k hk] at hsn; cases hsn
  · intro hx; rw [hl] at hx; cases hx

/-! ## Safety -/

structure Safe (port : Port) (n : Nat) (w : World) : Prop where
  excl : Excl w
  listed : ∃ as, Listed n w.stats as
  sizes : ∀ (i : Nat) (j : Job) a, w.tasks[i]? = some j → j.alloc = some a → a.size < 2 ^ 31
  freertos : port = .freertos → w.locked = false ∧ ∀ (i : Nat) (j : Job), w.tasks[i]? = some j → j = .idle

theorem sizes_set {w : World} {t : Nat} {j' : Job}
    (h : ∀ (i : Nat) (j : Job) a, w.tasks[i]? = some j → j.alloc = some a → a.size < 2 ^ 31)
    (h2 : ∀ a, j'.alloc = some a → a.size < 2 ^ 31) :
    ∀ (i : Nat) (j : Job) a, (w.tasks.set t j')[i]? = some j → j.alloc = some a → a.size < 2 ^ 31 := by
  intro i j a hk ha
  rcases get_set hk with ⟨rfl, rfl⟩ | ⟨-, hk⟩
  · exact h2 a ha
  · exact h i j a hk ha

theorem advance_safe {port : Port} {n : Nat} (hn : 0 < n) {w : World} (h : Safe port n w) {t : Nat} {j : Job}
    (hj : w.tasks[t]? = some j) : ∃ w', advance port w t j = some w' ∧ Safe port n w' := by
  have hlt : t < w.tasks.length := HeapStats.lt_of_get hj
  have hjs := h.sizes t j
  by_cases hfr : port = .freertos
  · have := (h.freertos hfr).2 t j hj
    subst this
    exact ⟨w, rfl, h⟩
  have nofr : ∀ {P : Prop}, port = .freertos → P := fun hx => absurd hx hfr
  obtain ⟨as, hl⟩ := h.listed
  cases j with
  | idle => exact ⟨w, rfl, h⟩
  | taken a =>
    simp only [advance]
    cases hk : w.locked with
    | true =>
      exact ⟨_, if_pos rfl, h.excl.keep rfl rfl rfl hj rfl rfl, h.listed,
        sizes_set h.sizes (fun a' ha => hjs a' hj ha), nofr⟩
    | false =>
      exact ⟨_, if_neg (by decide), h.excl.acquire hk rfl rfl rfl hlt rfl, h.listed,
        sizes_set h.sizes (fun a' ha => hjs a' hj ha), nofr⟩
  | counting a s =>
    obtain ⟨-, rfl⟩ := h.excl.held t _ s hj rfl
    exact ⟨_, rfl, h.excl.release rfl rfl hj rfl rfl, ⟨as, increment_listed hl⟩,
      sizes_set h.sizes (fun a' ha => hjs a' hj ha), nofr⟩
  | allocated a =>
    simp only [advance]
    cases hk : w.locked with
    | true =>
      refine ⟨_, if_pos rfl, ?_⟩
      split
      · exact h
      · exact ⟨h.excl.keep rfl rfl rfl hj rfl rfl, h.listed, sizes_set h.sizes (fun a' ha => by cases ha), nofr⟩
    | false =>
      exact ⟨_, if_neg (by decide), h.excl.acquire hk rfl rfl rfl hlt rfl, h.listed,
        sizes_set h.sizes (fun a' ha => hjs a' hj ha), nofr⟩
  | recording a s =>
    obtain ⟨-, rfl⟩ := h.excl.held t _ s hj rfl
    obtain ⟨s', a1, a2, -⟩ := statsMalloc_listed hn (automatic port) hl (hjs a hj rfl)
    exact ⟨setJob { w with stats := s', locked := false } t .idle, by simp only [advance, a1, Option.map_some], h.excl.release rfl rfl hj rfl rfl, ⟨_, a2⟩,
      sizes_set h.sizes (fun a' ha => by cases ha), nofr⟩
  | freeing p =>
    simp only [advance]
    cases hk : w.locked with
    | true =>
      refine ⟨_, if_pos rfl, ?_⟩
      split
      · exact h
      · exact ⟨h.excl.keep rfl rfl rfl hj rfl rfl, h.listed, sizes_set h.sizes (fun a' ha => by cases ha), nofr⟩
    | false =>
      exact ⟨_, if_neg (by decide), h.excl.acquire hk rfl rfl rfl hlt rfl, h.listed,
        sizes_set h.sizes (fun a' ha => by cases ha), nofr⟩
  | unrecording p s =>
    obtain ⟨-, rfl⟩ := h.excl.held t _ s hj rfl
    obtain ⟨s', as', a1, a2, -⟩ := statsFree_listed (automatic port) hl p
    exact ⟨setJob { w with stats := s', locked := false } t (.unrecorded p), by simp only [advance, a1, Option.map_some], h.excl.release rfl rfl hj rfl rfl, ⟨_, a2⟩,
      sizes_set h.sizes (fun a' ha => by cases ha), nofr⟩
  | unrecorded p =>
    refine ⟨_, rfl, h.excl.keep rfl rfl rfl hj rfl (by split <;> rfl), h.listed,
      sizes_set h.sizes (fun a' ha => ?_), nofr⟩
    split at ha <;> cases ha
  | released =>
    simp only [advance]
    cases hk : w.locked with
    | true =>
      exact ⟨_, if_pos rfl, h.excl.keep rfl rfl rfl hj rfl rfl, h.listed,
        sizes_set h.sizes (fun a' ha => by cases ha), nofr⟩
    | false =>
      exact ⟨_, if_neg (by decide), h.excl.acquire hk rfl rfl rfl hlt rfl, h.listed,
        sizes_set h.sizes (fun a' ha => by cases ha), nofr⟩
  | uncounting s =>
    obtain ⟨-, rfl⟩ := h.excl.held t _ s hj rfl
    exact ⟨_, rfl, h.excl.release rfl rfl hj rfl rfl, ⟨as, decrement_listed hl⟩,
      sizes_set h.sizes (fun a' ha => by cases ha), nofr⟩

theorem Excl.other {w w' : World} (h : Excl w) (h1 : w'.tasks = w.tasks) (h2 : w'.locked = w.locked)
    (h3 : w'.stats = w.stats) : Excl w' :=
  ⟨by rw [h1, h2, h3]; exact h.held, by rw [h1]; exact h.one, by rw [h1, h2]; exact h.holder⟩

theorem canReturn_size {w : World} {ptr size : Nat} (h : canReturn w ptr size = true) : size < 2 ^ 31 := by
  simp only [canReturn, Bool.and_eq_true, decide_eq_true_eq] at h
  exact h.1.2

theorem step_safe {port : Port} {n : Nat} (hn : 0 < n) {w : World} (h : Safe port n w) (op : Op) :
    ∃ w', step port w op = some w' ∧ Safe port n w' := by
  obtain ⟨as, hl⟩ := h.listed
  have hsame : ∀ {live : List Alloc}, Safe port n { w with live := live } := fun {live} =>
    ⟨h.excl.other rfl rfl rfl, h.listed, h.sizes, h.freertos⟩
  cases op with
  | malloc t lr ptr size =>
    simp only [step]
    split
    · rename_i hc
      obtain ⟨hj, hc⟩ := hc
      have hsz := canReturn_size hc
      cases port with
      | freertos =>
        obtain ⟨hlk, hid⟩ := h.freertos rfl
        obtain ⟨s', a1, a2, -⟩ := statsMalloc_listed hn true hl (a := ⟨lr, ptr, size⟩) hsz
        have hno : ∀ (i : Nat) (j : Job), w.tasks[i]? = some j → j.snapshot = none := fun i j hx => h.excl.free hlk hx
        refine ⟨{ w with live := add w.live ⟨lr, ptr, size⟩, stats := s' }, by simp only [a1, Option.map_some], ⟨?_, ?_, ?_⟩, ⟨_, a2⟩, h.sizes, fun _ => ⟨hlk, hid⟩⟩
        · intro i k s hk hsn; rw [hno i k hk] at hsn; cases hsn
        · intro i i' k k' hk _ hsn; rw [hno i k hk] at hsn; cases hsn
        · intro hx; have hx' : w.locked = true := hx; rw [hlk] at hx'; cases hx'
      | zephyr =>
        exact ⟨_, rfl, h.excl.keep rfl rfl rfl hj rfl rfl, h.listed,
          sizes_set h.sizes (fun a ha => by cases ha; exact hsz), fun hx => by cases hx⟩
      | espIdf =>
        refine ⟨_, rfl, h.excl.keep rfl rfl rfl hj rfl (by split <;> rfl), h.listed,
          sizes_set h.sizes (fun a ha => ?_), fun hx => by cases hx⟩
        split at ha <;> cases ha <;> exact hsz
    · exact ⟨w, rfl, h⟩
  | free t ptr =>
    simp only [step]
    split
    · rename_i hc
      obtain ⟨hj, hc⟩ := hc
      cases port with
      | freertos =>
        obtain ⟨hlk, hid⟩ := h.freertos rfl
        obtain ⟨s', as', a1, a2, -⟩ := statsFree_listed true hl ptr
        have hno : ∀ (i : Nat) (j : Job), w.tasks[i]? = some j → j.snapshot = none := fun i j hx => h.excl.free hlk hx
        refine ⟨{ w with live := drop w.live ptr, stats := s' }, by simp only [a1, Option.map_some], ⟨?_, ?_, ?_⟩, ⟨_, a2⟩, h.sizes, fun _ => ⟨hlk, hid⟩⟩
        · intro i k s hk hsn; rw [hno i k hk] at hsn; cases hsn
        · intro i i' k k' hk _ hsn; rw [hno i k hk] at hsn; cases hsn
        · intro hx; have hx' : w.locked = true := hx; rw [hlk] at hx'; cases hx'
      | zephyr =>
        exact ⟨_, rfl, h.excl.keep rfl rfl rfl hj rfl rfl, h.listed,
          sizes_set h.sizes (fun a ha => by cases ha), fun hx => by cases hx⟩
      | espIdf =>
        exact ⟨_, rfl, h.excl.keep rfl rfl rfl hj rfl rfl, h.listed,
          sizes_set h.sizes (fun a ha => by cases ha), fun hx => by cases hx⟩
    · exact ⟨w, rfl, h⟩
  | step t =>
    simp only [step]
    cases hj : w.tasks[t]? with
    | none => exact ⟨w, rfl, h⟩
    | some j => exact advance_safe hn h hj
  | isrMalloc lr ptr size =>
    refine ⟨_, rfl, ?_⟩
    split
    · exact hsame
    · exact h
  | isrFree ptr =>
    refine ⟨_, rfl, ?_⟩
    split
    · exact hsame
    · exact h
  | realloc ptr ptr' size =>
    refine ⟨_, rfl, ?_⟩
    split
    · exact hsame
    · exact h

theorem start_safe (port : Port) (tasks : Nat) {n : Nat} (h : n < 65535) : Safe port n (start tasks n) := by
  have hid : ∀ (i : Nat) (j : Job), (start tasks n).tasks[i]? = some j → j = .idle := by
    intro i j hj
    have := List.mem_of_getElem? hj
    simp only [start, List.mem_replicate] at this
    exact this.2
  refine ⟨⟨?_, ?_, ?_⟩, ⟨[], reset_listed h⟩, ?_, fun _ => ⟨rfl, hid⟩⟩
  · intro i j s hj hs; rw [hid i j hj] at hs; cases hs
  · intro i i' j j' hj _ hs; rw [hid i j hj] at hs; cases hs
  · intro hx; cases hx
  · intro i j a hj hs; rw [hid i j hj] at hs; cases hs

theorem run_safe {port : Port} {n : Nat} (hn : 0 < n) : ∀ (ops : List Op) {w : World}, Safe port n w →
    ∃ w', run port w ops = some w' ∧ Safe port n w' := by
  intro ops
  induction ops with
  | nil => intro w h; exact ⟨w, rfl, h⟩
  | cons op ops ih =>
    intro w h
    obtain ⟨w1, a1, a2⟩ := step_safe hn h op
    obtain ⟨w2, b1, b2⟩ := ih a2
    exact ⟨w2, by simp only [run, a1, Option.bind_some, b1], b2⟩

end Mflt.HeapWrap
