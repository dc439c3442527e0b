import Verif.Lemmas.HeapStats

/-! # C33: heap statistics -/

namespace Mflt.Props

open HeapStats
open Spec.HeapStats (Alloc Op)

/-- The reports on the model. -/
def heapStep (n : Nat) (s : HeapStats.State) : Op → Option HeapStats.State
  | .malloc lr ptr size => malloc s lr ptr size
  | .free ptr => HeapStats.free s ptr
  | .reset => some (reset n)

def heapRun (n : Nat) (s : HeapStats.State) : List Op → Option HeapStats.State
  | [] => some s
  | op :: ops => (heapStep n s op).bind fun s => heapRun n s ops

/-- What a reader of the memory finds by following the links from `i`; `none` if it meets an entry
that is not in use or out of bounds, or does not reach the end within `fuel` entries. -/
def followLinks (pool : List Entry) : (fuel i : Nat) → Option (List Alloc)
  | 0, i => if i = 65535 then some [] else none
  | fuel + 1, i =>
    if i = 65535 then some []
    else pool[i]?.bind fun e =>
      if e.inUse then (followLinks pool fuel e.next).map fun as => ⟨e.lr, e.ptr, e.size⟩ :: as else none

theorem followLinks_chain {pool : List Entry} (hs : pool.length < listEnd) : ∀ {is h as fuel},
    Chain pool h is as → is.length ≤ fuel → followLinks pool fuel h = some as := by
  intro is
  induction is with
  | nil =>
    intro h as fuel hc _
    cases as with
    | cons => exact hc.elim
    | nil => cases fuel <;> (simp only [Chain, listEnd] at hc; simp [followLinks, hc])
  | cons i is ih =>
    intro h as fuel hc hf
    cases as with
    | nil => exact hc.elim
    | cons a as =>
      have hlt := hc.lt i (by simp)
      obtain ⟨rfl, e, he, hu, ha, hc⟩ := hc
      cases fuel with
      | zero => simp at hf
      | succ fuel =>
        have := ih hc (by simpa using hf)
        simp only [listEnd] at hs
        simp only [followLinks, show h ≠ 65535 by omega, if_false, he, Option.bind_some, hu, if_true, this,
          Option.map_some, Option.some.injEq, List.cons.injEq, and_true]
        exact ha

/-- How the model and the specification correspond. -/
def HeapRel (n : Nat) (s : HeapStats.State) (sp : Spec.HeapStats.State) : Prop :=
  s.pool.length = n ∧ s.inUseCount = sp.inUse ∧ s.maxInUse = sp.maxInUse ∧ sp.inUse < 2 ^ 32 ∧
    (sp.tracked.map Alloc.ptr).Nodup ∧ ∃ is, Inv s is sp.tracked

theorem heapReset_rel {n : Nat} (h : n < 65535) : HeapRel n (reset n) Spec.HeapStats.init := by
  refine ⟨by simp [reset], rfl, rfl, by simp [Spec.HeapStats.init], by simp [Spec.HeapStats.init], [], ?_⟩
  refine ⟨by simp [reset, listEnd, h], rfl, by simp, ?_⟩
  intro i e he hb
  have := List.mem_of_getElem? he
  simp only [reset, List.mem_replicate] at this
  rw [this.2] at hb; cases hb

theorem _root_.Mflt.HeapStats.Inv.congr {s s' : HeapStats.State} {is as} (h : Inv s is as) (h1 : s'.pool = s.pool)
    (h2 : s'.head = s.head) : Inv s' is as :=
  ⟨by rw [h1]; exact h.small, by rw [h1, h2]; exact h.chain, h.nodup, by rw [h1]; exact h.used⟩

theorem heapStep_rel {n : Nat} (hn : 0 < n) (hn' : n < 65535) {s : HeapStats.State} {sp sp' : Spec.HeapStats.State}
    (hr : HeapRel n s sp) {op : Op} (hs : Spec.HeapStats.step n sp op = some sp') :
    ∃ s', heapStep n s op = some s' ∧ HeapRel n s' sp' := by
  obtain ⟨r1, r2, r3, r4, r5, is, hi⟩ := hr
  cases op with
  | reset =>
    simp only [Spec.HeapStats.step, Option.some.injEq] at hs
    subst hs
    exact ⟨_, rfl, heapReset_rel hn'⟩
  | malloc lr ptr size =>
    simp only [Spec.HeapStats.step] at hs
    by_cases hp : ptr = 0
    · rw [if_pos hp] at hs
      simp only [Option.some.injEq] at hs
      subst hs
      exact ⟨s, by simp [heapStep, malloc, hp], r1, r2, r3, r4, r5, is, hi⟩
    · rw [if_neg hp] at hs
      split at hs
      · cases hs
      · rename_i hc
        simp only [Option.some.injEq] at hs
        subst hs
        have hc1 : ∀ a ∈ sp.tracked, a.ptr ≠ ptr := fun a ha hx => hc (.inl ⟨a, ha, hx⟩)
        have hc2 : sp.inUse + 1 ≠ 4294967296 := fun hx => hc (.inr (.inl hx))
        have hc3 : size < 2 ^ 31 := Nat.lt_of_not_le fun hx => hc (.inr (.inr hx))
        obtain ⟨s', is', e1, e2, e3, e4, e5⟩ := insert_eq (s := increment s) (hi.congr rfl rfl)
          (by simp only [increment]; omega) lr ptr hc3
        refine ⟨s', by simp [heapStep, malloc, hp, e1], ?_, ?_, ?_, ?_, ?_, is', ?_⟩
        · rw [e2]; exact r1
        · rw [e3]; simp only [increment, r2]; rw [Nat.mod_eq_of_lt (by omega)]
        · rw [e4]; simp only [increment, r2, r3]
          rw [Nat.mod_eq_of_lt (by omega)]
          split <;> simp only [Nat.max_def] <;> split <;> omega
        · simp only; omega
        · simp only
          rw [List.map_take, List.map_cons]
          refine List.Nodup.sublist (List.take_sublist _ _) (List.nodup_cons.mpr ⟨?_, r5⟩)
          intro hm
          obtain ⟨a, ha, hx⟩ := List.mem_map.mp hm
          exact hc1 a ha hx
        · rw [← r1]; exact e5
  | free ptr =>
    simp only [Spec.HeapStats.step] at hs
    by_cases hp : ptr = 0
    · rw [if_pos hp] at hs
      simp only [Option.some.injEq] at hs
      subst hs
      exact ⟨s, by simp [heapStep, HeapStats.free, hp], r1, r2, r3, r4, r5, is, hi⟩
    · rw [if_neg hp] at hs
      split at hs
      · cases hs
      · rename_i h0
        simp only [Option.some.injEq] at hs
        subst hs
        obtain ⟨d, hd⟩ : ∃ d, d = decrement s := ⟨_, rfl⟩
        have hd1 : d.pool = s.pool := by rw [hd]; unfold decrement; rfl
        have hd2 : d.head = s.head := by rw [hd]; unfold decrement; rfl
        have hd3 : d.maxInUse = s.maxInUse := by rw [hd]; unfold decrement; rfl
        have hcnt : d.inUseCount = sp.inUse - 1 := by
          rw [hd]; simp only [decrement, r2]; omega
        have hi' : Inv d is sp.tracked := hi.congr hd1 hd2
        have hsub : (sp.tracked.filter fun a => a.ptr ≠ ptr).map Alloc.ptr |>.Nodup :=
          List.Nodup.sublist (List.filter_sublist.map _) r5
        cases hf : d.pool.findIdx? fun e => e.ptr == ptr && e.inUse with
        | none =>
          refine ⟨d, by simp [heapStep, HeapStats.free, hp, ← hd, hf], by rw [hd1]; exact r1, hcnt, by rw [hd3]; exact r3, by simp only; omega, hsub, is, ?_⟩
          have : sp.tracked.filter (fun a => a.ptr ≠ ptr) = sp.tracked := by
            rw [List.filter_eq_self]
            intro a ha
            obtain ⟨as1, as2, hsp⟩ := List.append_of_mem ha
            obtain ⟨i, hti⟩ : ∃ i, sp.tracked[i]? = some a := List.mem_iff_getElem?.mp ha
            have hlen := hi'.chain.length
            have hil : i < is.length := by have := lt_of_get hti; omega
            have hc := hi'.chain
            have hsplit : is = is.take i ++ is[i] :: is.drop (i + 1) := by simp
            rw [hsplit] at hc
            obtain ⟨e, b1, b2, g1, g2, g3, g4, g5⟩ := hc.split
            have hb : b1.length = i := by rw [g4, List.length_take]; omega
            have hea : e.alloc = a := by
              rw [g3, ← hb] at hti
              simpa using hti
            rw [List.findIdx?_eq_none_iff] at hf
            have := hf e (List.mem_of_getElem? g1)
            rw [g2, Bool.and_true] at this
            rw [← hea]
            exact decide_eq_true (by simpa [Entry.alloc] using this)
          simp only
          rw [this]
          exact hi'
        | some i =>
          obtain ⟨hlt, hb, _⟩ := List.findIdx?_eq_some_iff_getElem.mp hf
          have hg := List.getElem?_eq_getElem hlt
          obtain ⟨e, he⟩ : ∃ e, e = d.pool[i] := ⟨_, rfl⟩
          rw [← he] at hg hb
          simp only [Bool.and_eq_true, beq_iff_eq] at hb
          have hm := hi'.used i e hg hb.2
          obtain ⟨pre, post, hpp⟩ := List.append_of_mem hm
          have hc := hi'.chain
          rw [hpp] at hc
          obtain ⟨e', as1, as2, g1, g2, g3, g4, g5⟩ := hc.split
          rw [hg] at g1
          cases g1
          have hi2 := hi'
          rw [hpp, g3] at hi2
          obtain ⟨s', e1, e2, e3, e4, e5⟩ := remove_eq hi2 g4 hg
          refine ⟨s', ?_, ?_, ?_, ?_, by simp only; omega, hsub, pre ++ post, ?_⟩
          · simp only [heapStep, HeapStats.free]
            rw [if_pos hp, ← hd]
            simp only [hf, hg, Option.bind_some, e1]
          · rw [e2, hd1]; exact r1
          · rw [e3]; exact hcnt
          · rw [e4, hd3]; exact r3
          · have : sp.tracked.filter (fun a => a.ptr ≠ ptr) = as1 ++ as2 := by
              rw [g3] at r5 ⊢
              rw [List.map_append, List.map_cons, List.nodup_append, List.nodup_cons] at r5
              have hpe : e.alloc.ptr = ptr := hb.1
              rw [List.filter_append, List.filter_cons, if_neg (by simp [hpe])]
              congr 1
              · rw [List.filter_eq_self]
                intro a ha
                have := r5.2.2 a.ptr (List.mem_map_of_mem ha) e.alloc.ptr (by simp)
                simpa [hpe] using this
              · rw [List.filter_eq_self]
                intro a ha
                have h1 := r5.2.1.1
                simp only [ne_eq, decide_not, Bool.not_eq_true', decide_eq_false_iff_not]
                intro hx
                exact h1 (List.mem_map.mpr ⟨a, ha, by rw [hx, hpe]⟩)
            simp only
            rw [this]
            exact e5

theorem heapRun_rel {n : Nat} (hn : 0 < n) (hn' : n < 65535) : ∀ (ops : List Op) {s : HeapStats.State}
    {sp sp' : Spec.HeapStats.State}, HeapRel n s sp → Spec.HeapStats.run n sp ops = some sp' →
    ∃ s', heapRun n s ops = some s' ∧ HeapRel n s' sp' := by
  intro ops
  induction ops with
  | nil =>
    intro s sp sp' hr hs
    simp only [Spec.HeapStats.run, Option.some.injEq] at hs
    subst hs
    exact ⟨s, rfl, hr⟩
  | cons op ops ih =>
    intro s sp sp' hr hs
    simp only [Spec.HeapStats.run] at hs
    cases h1 : Spec.HeapStats.step n sp op with
    | none => rw [h1] at hs; simp at hs
    | some sp1 =>
      rw [h1] at hs
      obtain ⟨s1, e1, hr1⟩ := heapStep_rel hn hn' hr h1
      obtain ⟨s2, e2, hr2⟩ := ih hr1 hs
      exact ⟨s2, by simp [heapRun, e1, e2], hr2⟩

theorem inUse_length {s : HeapStats.State} {is : List Nat} {as : List Alloc} (hi : Inv s is as) :
    (s.pool.filter Entry.inUse).length = as.length := by
  rw [← hi.chain.length]
  -- the in-use indices are a permutation of `is`
  have hperm : ((List.range s.pool.length).filter fun i => (s.pool[i]?.map Entry.inUse).getD false).Perm is := by
    rw [List.perm_ext_iff_of_nodup (List.nodup_range.filter _) hi.nodup]
    intro i
    simp only [List.mem_filter, List.mem_range]
    constructor
    · rintro ⟨hlt, hb⟩
      rw [List.getElem?_eq_getElem hlt] at hb
      exact hi.used i _ (List.getElem?_eq_getElem hlt) (by simpa using hb)
    · intro hm
      have hlt := hi.chain.lt i hm
      obtain ⟨_, _, _, hb⟩ := hi.chain.next hm (List.getElem?_eq_getElem hlt)
      exact ⟨hlt, by rw [List.getElem?_eq_getElem hlt]; simpa using hb⟩
  rw [← hperm.length_eq]
  have hmap : (List.range s.pool.length).map (fun i => s.pool[i]?.getD ⟨0, 0, 0, false, 0⟩) = s.pool := by
    apply List.ext_getElem
    · simp
    · intro i h1 h2
      simp at h1
      simp [h1]
  rw [← List.countP_eq_length_filter, ← List.countP_eq_length_filter]
  conv => lhs; rw [← hmap]
  rw [List.countP_map]
  apply List.countP_congr
  intro i hm
  have hlt := List.mem_range.mp hm
  simp [List.getElem?_eq_getElem hlt]

/-- C33. After any history of reports an allocator can make, on a pool of any size, no access was out of
bounds and no assertion failed; the links lead from the head through exactly the newest live
allocations, most recent first, and end; no other entry is in use; and the counts are right. -/
theorem C33_list_is_newest_live {n : Nat} (hn : 0 < n) (hn' : n < 65535) {ops : List Op}
    {sp : Spec.HeapStats.State} (hs : Spec.HeapStats.run n Spec.HeapStats.init ops = some sp) :
    ∃ s, heapRun n (reset n) ops = some s ∧
      followLinks s.pool n s.head = some sp.tracked ∧
      (s.pool.filter Entry.inUse).length = sp.tracked.length ∧
      s.inUseCount = sp.inUse ∧ s.maxInUse = sp.maxInUse := by
  obtain ⟨s, e1, r1, r2, r3, r4, r5, is, hi⟩ := heapRun_rel hn hn' ops (heapReset_rel hn') hs
  have hle := length_le_of_lt hi.nodup (fun i hm => hi.chain.lt i hm)
  refine ⟨s, e1, followLinks_chain hi.small hi.chain (by omega), inUse_length hi, r2, r3⟩

/-- A history with eviction of the oldest, a free in the middle, one of an evicted and one of an
unknown block. -/
example :
    let ops : List Op := [.malloc 1 100 8, .malloc 2 200 16, .malloc 3 300 0, .malloc 4 400 32, .free 100,
      .free 300, .malloc 5 0 8, .malloc 6 100 9, .malloc 7 700 2, .free 0]
    Spec.HeapStats.run 3 Spec.HeapStats.init ops =
      some ⟨[⟨7, 700, 2⟩, ⟨6, 100, 9⟩, ⟨4, 400, 32⟩], 4, 4⟩ ∧
    ((heapRun 3 (reset 3) ops).map fun s => (s.head, followLinks s.pool 3 s.head)) =
      some (1, some [⟨7, 700, 2⟩, ⟨6, 100, 9⟩, ⟨4, 400, 32⟩]) := by
  decide +kernel

/-- The size of the first entry tells whether there was an allocation. -/
private def FirstTells (n : Nat) (s : HeapStats.State) (b : Bool) : Prop :=
  (b = false → s.pool = List.replicate n ⟨0, 0, 0, false, 0⟩) ∧
  (b = true → ∃ e, s.pool[0]? = some e ∧ e.size ≠ 0)

private theorem setNext_first {pool pool' : List Entry} {i next : Nat} (h : setNext pool i next = some pool')
    (hf : ∃ e, pool[0]? = some e ∧ e.size ≠ 0) : ∃ e, pool'[0]? = some e ∧ e.size ≠ 0 := by
  obtain ⟨e, he, hs⟩ := hf
  unfold setNext at h
  obtain ⟨x, hx, rfl⟩ := Option.map_eq_some_iff.1 h
  have hl := lt_of_get he
  by_cases hi : i = 0
  · subst hi
    rw [he] at hx; cases hx
    exact ⟨_, List.getElem?_set_self hl, hs⟩
  · exact ⟨e, by rw [List.getElem?_set_ne hi]; exact he, hs⟩

private theorem insert_first {s s' : HeapStats.State} {lr ptr size : Nat} (h : HeapStats.insert s lr ptr size = some s')
    (hz : size % 2147483648 ≠ 0)
    (hf : newEntryIndex s.pool = 0 ∨ ∃ e, s.pool[0]? = some e ∧ e.size ≠ 0) :
    ∃ e, s'.pool[0]? = some e ∧ e.size ≠ 0 := by
  unfold HeapStats.insert at h
  simp only at h
  split at h
  · simp at h
  · split at h
    · rename_i hlt
      have hset : ∃ e, (s.pool.set (newEntryIndex s.pool) ⟨lr, ptr, size % 2 ^ 31, true, s.head⟩)[0]? = some e ∧ e.size ≠ 0 := by
        by_cases hi : newEntryIndex s.pool = 0
        · rw [hi] at hlt ⊢
          exact ⟨_, List.getElem?_set_self hlt, hz⟩
        · obtain ⟨e, he, hs⟩ := hf.resolve_left hi
          exact ⟨e, by rw [List.getElem?_set_ne hi]; exact he, hs⟩
      split at h
      · obtain ⟨pool, hp, rfl⟩ := Option.map_eq_some_iff.1 h
        exact setNext_first hp hset
      · cases h; exact hset
    · simp at h

private theorem remove_first {s s' : HeapStats.State} {i : Nat} {e : Entry} (hi : s.pool[i]? = some e)
    (h : HeapStats.remove s i e = some s') (hf : ∃ e, s.pool[0]? = some e ∧ e.size ≠ 0) :
    ∃ e, s'.pool[0]? = some e ∧ e.size ≠ 0 := by
  unfold HeapStats.remove at h
  simp only at h
  have h0 : ∃ x, (s.pool.set i { e with inUse := false })[0]? = some x ∧ x.size ≠ 0 := by
    obtain ⟨x, hx, hs⟩ := hf
    have hl := lt_of_get hx
    by_cases h0 : i = 0
    · subst h0
      rw [hx] at hi; cases hi
      exact ⟨_, List.getElem?_set_self hl, hs⟩
    · exact ⟨x, by rw [List.getElem?_set_ne h0]; exact hx, hs⟩
  obtain ⟨pool, hp, h⟩ := Option.bind_eq_some_iff.1 h
  obtain ⟨pool', hp', rfl⟩ := Option.map_eq_some_iff.1 h
  refine setNext_first hp' ?_
  split at hp
  · exact setNext_first hp h0
  · cases hp; exact h0

private theorem decrement_pool (s : HeapStats.State) : (HeapStats.decrement s).pool = s.pool := by
  unfold HeapStats.decrement; rfl

private theorem first_step {n : Nat} (hn : 0 < n) {s s' : HeapStats.State} {b : Bool} {op : Op}
    (hp : FirstTells n s b) (hz : ∀ lr ptr size, op = .malloc lr ptr size → ptr ≠ 0 → size % 2147483648 ≠ 0)
    (h : heapStep n s op = some s') : FirstTells n s' (Spec.HeapStats.reported b [op]) := by
  cases op with
  | malloc lr ptr size =>
    simp only [heapStep, HeapStats.malloc] at h
    simp only [Spec.HeapStats.reported]
    by_cases h0 : ptr = 0
    · rw [if_neg (by simp [h0])] at h; cases h
      rw [if_pos h0]; exact hp
    · rw [if_pos h0] at h
      rw [if_neg h0]
      refine ⟨by simp, fun _ => insert_first h (hz lr ptr size rfl h0) ?_⟩
      cases b with
      | false =>
        left
        have hp' := hp.1 rfl
        obtain ⟨k, rfl⟩ : ∃ k, n = k + 1 := ⟨n - 1, by omega⟩
        show newEntryIndex s.pool = 0
        rw [hp', List.replicate_succ]
        simp [newEntryIndex, List.findIdx?_cons]
      | true => exact Or.inr (hp.2 rfl)
  | free ptr =>
    simp only [heapStep, HeapStats.free] at h
    simp only [Spec.HeapStats.reported]
    split at h
    · split at h
      · rename_i i hi
        obtain ⟨e, he, h⟩ := Option.bind_eq_some_iff.1 h
        cases b with
        | false =>
          exfalso
          rw [decrement_pool, hp.1 rfl] at hi
          have := List.findIdx?_eq_some_iff_getElem.1 hi
          obtain ⟨hl, hx, _⟩ := this
          simp at hx
        | true => exact ⟨by simp, fun _ => remove_first he h (by rw [decrement_pool]; exact hp.2 rfl)⟩
      · injection h with h
        unfold FirstTells
        rw [← h, decrement_pool]; exact hp
    · cases h; exact hp
  | reset =>
    simp only [heapStep] at h
    cases h
    exact ⟨fun _ => rfl, by simp [Spec.HeapStats.reported]⟩

/-- C33. If no allocation of a multiple of 2^31 bytes is reported, `memfault_heap_stats_empty` is true exactly if no
allocation was reported since the last reset, whatever is reported, so coredumps have the statistics if there are any.
Missing: allocations of 0 bytes (`C33_empty_with_zero_size`). -/
theorem C33_empty_nonzero {n : Nat} (hn : 0 < n) {ops : List Op} {s : HeapStats.State}
    (hz : ∀ lr ptr size, Op.malloc lr ptr size ∈ ops → ptr ≠ 0 → size % 2147483648 ≠ 0)
    (h : heapRun n (reset n) ops = some s) :
    HeapStats.empty s = some (!Spec.HeapStats.reported false ops) := by
  have key : ∀ (ops : List Op) (s0 : HeapStats.State) (b : Bool), FirstTells n s0 b →
      (∀ lr ptr size, Op.malloc lr ptr size ∈ ops → ptr ≠ 0 → size % 2147483648 ≠ 0) →
      heapRun n s0 ops = some s → FirstTells n s (Spec.HeapStats.reported b ops) := by
    intro ops
    induction ops with
    | nil => intro s0 b hp _ h; cases h; exact hp
    | cons op ops ih =>
      intro s0 b hp hz h
      simp only [heapRun] at h
      obtain ⟨s1, h1, h2⟩ := Option.bind_eq_some_iff.1 h
      have := ih s1 _ (first_step hn hp (fun lr ptr size e => hz lr ptr size (by simp [e])) h1)
        (fun lr ptr size hm => hz lr ptr size (List.mem_cons_of_mem _ hm)) h2
      cases op <;> exact this
  have hk := key ops (reset n) false ⟨fun _ => rfl, by simp⟩ hz h
  unfold HeapStats.empty
  cases hb : Spec.HeapStats.reported false ops with
  | false =>
    rw [hk.1 hb]
    obtain ⟨k, rfl⟩ : ∃ k, n = k + 1 := ⟨n - 1, by omega⟩
    simp [List.replicate_succ]
  | true =>
    obtain ⟨e, he, hs⟩ := hk.2 hb
    rw [he]; simpa using hs

/-- Something was allocated and freed: not empty; after a reset: empty. -/
example :
    ((heapRun 3 (reset 3) [.malloc 1 100 8, .free 100]).bind HeapStats.empty) = some false ∧
    ((heapRun 3 (reset 3) [.malloc 1 100 8, .reset, .free 7]).bind HeapStats.empty) = some true := by
  decide +kernel

/-- `memfault_heap_stats_empty` is true although an allocation is tracked, if that is of 0 bytes. -/
theorem C33_empty_with_zero_size :
    ((heapRun 4 (reset 4) [.malloc 1 100 0]).bind fun s =>
      (HeapStats.empty s).map fun b => (b, followLinks s.pool 4 s.head)) = some (true, some [⟨1, 100, 0⟩]) := by
  decide +kernel

end Mflt.Props
