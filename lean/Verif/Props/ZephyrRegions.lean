import Verif.Spec.ZephyrRegions
import Verif.Props.FreertosRegions

/-! # C91: the regions of a Zephyr coredump -/

namespace Mflt.Props

open ZephyrRegions
open FreertosRegions (Region)
open Spec.ZephyrRegions (inRam part Within Sane stackOf tcbs stacks bookkeeping everything Readable unused bytesFrom)

/-! ## RAM -/

private theorem part_eq (c : Config) (r : Region) :
    part c r = if sanitize c r.start r.size = 0 then none else some ⟨r.start, sanitize c r.start r.size⟩ := by
  unfold part sanitize inRam
  by_cases h1 : c.ramStart ≤ r.start ∧ r.start < c.ramEnd
  · rw [if_pos h1]
    by_cases h2 : 0 < r.size
    · have h3 : ¬ min r.size (c.ramEnd - r.start) = 0 := by rw [Nat.min_def]; split <;> omega
      rw [if_pos (by simp [h1.1, h1.2, h2]), if_neg h3]
      congr 2
      rw [Nat.min_def]
      split <;> split <;> omega
    · rw [if_neg (fun h => h2 h.2), if_pos (by rw [Nat.min_def]; split <;> omega)]
  · rw [if_neg h1, if_pos rfl, if_neg]
    intro h
    simp only [Bool.and_eq_true, decide_eq_true_eq] at h
    exact h1 h.1

private theorem part_within {c : Config} {r r' : Region} (h : part c r = some r') :
    Within c r' ∧ r'.start = r.start ∧ r'.size ≤ r.size := by
  unfold part inRam at h
  split at h
  · rename_i hc
    simp only [Bool.and_eq_true, decide_eq_true_eq] at hc
    cases h
    unfold Within
    dsimp only
    split <;> omega
  · cases h

private theorem sanitize_within {c : Config} {a n : Nat} (h : sanitize c a n = n) (i : Nat) (hi : i < n) :
    inRam c (a + i) = true := by
  unfold sanitize at h
  unfold inRam
  split at h
  · simp only [Bool.and_eq_true, decide_eq_true_eq]; omega
  · omega

/-! ## Unused stack -/

private theorem count_eq (m : Memory) : ∀ (k a : Nat), (∀ i, i < k → (m.byte (a + i)).isSome = true) →
    countPaint m k a = some (unused m a k) := by
  intro k
  induction k with
  | zero => intro a _; rfl
  | succ k ih =>
    intro a h
    rw [countPaint]
    have hb := h 0 (by omega)
    rw [Nat.add_zero] at hb
    obtain ⟨b, hb⟩ := Option.isSome_iff_exists.1 hb
    have hcons : bytesFrom m a (k + 1) = m.byte a :: bytesFrom m (a + 1) k := by
      unfold bytesFrom
      rw [List.range_succ_eq_map, List.map_cons, List.map_map]
      simp only [Nat.add_zero, List.cons.injEq, true_and]
      apply List.map_congr_left
      intro i _
      simp only [Function.comp_apply]
      congr 1
      omega
    have ih' := ih (a + 1) (fun i hi => by
      have := h (i + 1) (by omega)
      rwa [show a + (i + 1) = a + 1 + i by omega] at this)
    unfold unused at ih' ⊢
    rw [hb, Option.bind_some, hcons, hb, List.takeWhile_cons]
    by_cases hx : b = 0xAA
    · subst hx
      rw [if_pos rfl, ih']
      simp
    · rw [if_neg hx]
      simp [hx]

private theorem unused_some {c : Config} {m : Memory} (hR : Readable c m) (start size : Nat) :
    ∃ u, stackUnused c m start size = some u := by
  unfold stackUnused
  split
  · exact ⟨_, rfl⟩
  · rename_i h
    simp only [ne_eq, Decidable.not_not] at h
    dsimp only
    generalize (if c.sentinel = true then 4 else 0) = skip
    refine ⟨if skip + unused m (start + skip) (size - skip) = 0 then 0xffffffff
      else skip + unused m (start + skip) (size - skip), ?_⟩
    rw [count_eq m (size - skip) (start + skip) (fun i hi => hR.bytes _ (by
      have := sanitize_within h (skip + i) (by omega)
      rwa [← Nat.add_assoc] at this))]
    rfl

/-- **C91 (stack usage)**: for a stack in RAM, whatever is in it, the number that is recorded is that of the
bytes at its low end that are still painted, and 0xffffffff for none; a stack that is not all in RAM is not
read, and gets 0. -/
theorem C91_unused (c : Config) (m : Memory) (hR : Readable c m) (hs : c.sentinel = false) (start size : Nat) :
    (0 < size → c.ramStart ≤ start → start + size ≤ c.ramEnd →
      stackUnused c m start size = some (if unused m start size = 0 then 0xffffffff else unused m start size)) ∧
      (0 < size → (start < c.ramStart ∨ c.ramEnd < start + size) → stackUnused c m start size = some 0) := by
  refine ⟨?_, ?_⟩
  · intro h0 h1 h2
    have hsan : sanitize c start size = size := by
      unfold sanitize
      rw [if_pos (by omega)]
      omega
    unfold stackUnused
    rw [if_neg (by simp [hsan])]
    simp only [hs, Bool.false_eq_true, if_false, Nat.sub_zero, Nat.add_zero, Nat.zero_add]
    rw [count_eq m size start (fun i hi => hR.bytes _ (sanitize_within hsan i hi))]
    rfl
  · intro h0 h
    unfold stackUnused sanitize
    rw [if_pos]
    split <;> omega

/-- **C91 (stack usage, false)**: with a stack sentinel a stack of which every byte was used is reported to have
4 unused bytes: the value for an exhausted stack is never reported. -/
theorem C91_false_sentinel (c : Config) (m : Memory) (hR : Readable c m) (hs : c.sentinel = true) (start size : Nat)
    (h0 : 4 ≤ size) (h1 : c.ramStart ≤ start) (h2 : start + size ≤ c.ramEnd)
    (hb : size = 4 ∨ m.byte (start + 4) ≠ some 0xAA) : stackUnused c m start size = some 4 := by
  have hsan : sanitize c start size = size := by
    unfold sanitize
    rw [if_pos (by omega)]
    omega
  unfold stackUnused
  rw [if_neg (by simp [hsan])]
  simp only [hs, if_true]
  rw [count_eq m (size - 4) (start + 4) (fun i hi => hR.bytes _ (by
    have := sanitize_within hsan (4 + i) (by omega)
    rwa [← Nat.add_assoc] at this))]
  have : unused m (start + 4) (size - 4) = 0 := by
    rcases hb with rfl | hb
    · rfl
    · cases hk : size - 4 with
      | zero => rfl
      | succ k =>
        unfold unused bytesFrom
        rw [List.range_succ_eq_map, List.map_cons, List.takeWhile_cons]
        simp [hb]
  rw [this]
  rfl

/-! ## The slots -/

/-- The configuration of the FreeRTOS model that has the same slots. -/
private def fc (c : Config) : FreertosRegions.Config := ⟨c.maxTasks, c.tcbSize, c.stackSize, c.usage, c.tcbsAddr, c.marksAddr⟩
private def fp (c : Config) : FreertosRegions.Platform := ⟨sanitize c, fun _ => none⟩
private def fz : FreertosRegions.Platform := ⟨fun _ _ => 0, fun _ => none⟩

private theorem find_eq (slots : List Nat) (x : Nat) : findSlot slots x = FreertosRegions.findSlot slots x := by
  induction slots with
  | nil => rfl
  | cons t ts ih => simp only [findSlot, FreertosRegions.findSlot, ih]

private theorem new_eq (slots : List Nat) (t : Nat) : newThread slots t = FreertosRegions.create slots t := by
  unfold newThread FreertosRegions.create
  rw [find_eq]
  rfl

private theorem abort_eq (slots : List Nat) (t : Nat) : abort slots t = FreertosRegions.delete slots t := by
  unfold abort FreertosRegions.delete
  rw [find_eq]
  rfl

private theorem tcb_eq (c : Config) (n : Nat) (slots : List Nat) : ∀ out,
    tcbLoop c n slots out = FreertosRegions.tcbLoop (fc c) (fp c) n slots out := by
  induction slots with
  | nil => intro out; rfl
  | cons t ts ih =>
    intro out
    simp only [tcbLoop, FreertosRegions.tcbLoop, ih]
    rfl

private theorem valid_eq (c : Config) (hz : 0 < c.tcbSize) (t : Nat) :
    Spec.FreertosRegions.valid (fc c) (fp c) t = inRam c t := by
  unfold Spec.FreertosRegions.valid fc fp sanitize inRam
  dsimp only
  split
  · rename_i h
    rw [decide_eq_true h.1, decide_eq_true h.2]
    simp only [bne_iff_ne, ne_eq, Bool.and_self]
    rw [Nat.min_def]
    split <;> omega
  · rename_i h
    have h2 : ¬ (decide (c.ramStart ≤ t) && decide (t < c.ramEnd)) = true := by
      simp only [Bool.and_eq_true, decide_eq_true_eq]
      exact h
    simp only [Bool.not_eq_true] at h2
    rw [h2]
    rfl

private theorem tcbs_eq (c : Config) (l : List Nat) :
    (l.filter (Spec.FreertosRegions.valid (fc c) (fp c))).map (Spec.FreertosRegions.tcbRegion (fc c) (fp c)) = tcbs c l := by
  unfold tcbs
  induction l with
  | nil => rfl
  | cons t ts ih =>
    rw [List.filter_cons, List.filterMap_cons, part_eq]
    unfold Spec.FreertosRegions.valid Spec.FreertosRegions.tcbRegion at *
    by_cases h : sanitize c t c.tcbSize = 0
    · rw [if_neg (by simpa [fc, fp] using h), if_pos h]
      exact ih
    · rw [if_pos (by simpa [fc, fp] using h), if_neg h]
      simp only [List.map_cons, ih]
      rfl

/-! ## The stacks -/

private def want (c : Config) (m : Memory) (current t : Nat) : Option Region :=
  if c.full = false ∧ current = t then none else (m.thread t).bind fun th => part c (stackToCollect c th)

private theorem stackLoop_spec {c : Config} {m : Memory} (hR : Readable c m) (current n : Nat) (slots : List Nat) :
    ∀ (i : Nat) (marks : List Nat) (out : List Region), out.length ≤ n →
      (∀ t ∈ tasks slots, inRam c t = true) →
      ∃ marks', stackLoop c m current n slots i marks out =
          some (marks', (out ++ (tasks slots).filterMap (want c m current)).take n) ∧
        marks'.length = marks.length ∧ (∀ j, j < i → marks'[j]? = marks[j]?) ∧
        ((out ++ (tasks slots).filterMap (want c m current)).length < n → c.usage = true → ∀ j t th,
          slots[j]? = some t → t ≠ 0 → m.thread t = some th →
          ((c.full = false ∧ current = t) ∨ (want c m current t).isSome = true) → i + j < marks.length →
          ∃ u, stackUnused c m th.start th.size = some u ∧ marks'[i + j]? = some u) := by
  induction slots with
  | nil =>
    intro i marks out ho _
    refine ⟨marks, ?_, rfl, fun _ _ => rfl, by simp⟩
    rw [stackLoop]
    simp [tasks, List.take_of_length_le ho]
  | cons t ts ih =>
    intro i marks out ho hram
    rw [stackLoop]
    by_cases hlt : out.length < n
    · rw [if_pos hlt]
      by_cases h0 : t = 0
      · subst h0
        rw [if_pos rfl]
        obtain ⟨k, h1, h2, h3, h4⟩ := ih (i + 1) marks out ho hram
        refine ⟨k, h1, h2, fun j hj => h3 j (by omega), ?_⟩
        intro hl hu j t th hj ht0 hth hw hlen
        cases j with
        | zero => simp at hj; exact absurd hj.symm ht0
        | succ j =>
          obtain ⟨u, hu1, hu2⟩ := h4 hl hu j t th (by simpa using hj) ht0 hth hw (by omega)
          exact ⟨u, hu1, by rwa [show i + (j + 1) = i + 1 + j by omega]⟩
      · rw [if_neg h0]
        have ht : tasks (t :: ts) = t :: tasks ts := by simp [tasks, h0]
        rw [ht] at hram ⊢
        have hram' : ∀ x ∈ tasks ts, inRam c x = true := fun x hx => hram x (List.mem_cons_of_mem _ hx)
        obtain ⟨th, hth⟩ := Option.isSome_iff_exists.1 (hR.threads t h0 (hram t List.mem_cons_self))
        obtain ⟨u, hu⟩ := unused_some hR th.start th.size
        -- what is left after slot `i` got the mark of its thread, or kept its own
        have fin : ∀ (marks1 : List Nat) (out1 : List Region), marks1.length = marks.length →
            (∀ j, j < i → marks1[j]? = marks[j]?) → out1.length ≤ n →
            out1 ++ (tasks ts).filterMap (want c m current) = out ++ (t :: tasks ts).filterMap (want c m current) →
            (c.usage = true → ((c.full = false ∧ current = t) ∨ (want c m current t).isSome = true) →
              i < marks.length → marks1[i]? = some u) →
            ∃ marks', stackLoop c m current n ts (i + 1) marks1 out1 =
                some (marks', (out ++ (t :: tasks ts).filterMap (want c m current)).take n) ∧
              marks'.length = marks.length ∧ (∀ j, j < i → marks'[j]? = marks[j]?) ∧
              ((out ++ (t :: tasks ts).filterMap (want c m current)).length < n → c.usage = true → ∀ j x thx,
                (t :: ts)[j]? = some x → x ≠ 0 → m.thread x = some thx →
                ((c.full = false ∧ current = x) ∨ (want c m current x).isSome = true) → i + j < marks.length →
                ∃ u, stackUnused c m thx.start thx.size = some u ∧ marks'[i + j]? = some u) := by
          intro marks1 out1 hm1 hm2 ho1 hout hmark
          obtain ⟨k, h1, h2, h3, h4⟩ := ih (i + 1) marks1 out1 ho1 hram'
          rw [hout] at h1 h4
          refine ⟨k, h1, h2.trans hm1, fun j hj => (h3 j (by omega)).trans (hm2 j hj), ?_⟩
          intro hl hus j x thx hj hx0 hthx hw hlen
          cases j with
          | zero =>
            simp only [List.getElem?_cons_zero, Option.some.injEq] at hj
            subst hj
            rw [hth] at hthx
            cases hthx
            exact ⟨u, hu, by rw [Nat.add_zero, h3 i (by omega)]; exact hmark hus hw (by omega)⟩
          | succ j =>
            obtain ⟨v, hv1, hv2⟩ := h4 hl hus j x thx (by simpa using hj) hx0 hthx hw (by omega)
            exact ⟨v, hv1, by rwa [show i + (j + 1) = i + 1 + j by omega]⟩
        have hset : ∀ v, (marks.set i v).length = marks.length ∧ (∀ j, j < i → (marks.set i v)[j]? = marks[j]?) ∧
            (i < marks.length → (marks.set i v)[i]? = some v) := by
          intro v
          refine ⟨by simp, ?_, ?_⟩
          · intro j hj
            rw [List.getElem?_set_ne (by omega)]
          · intro hi
            rw [List.getElem?_set_self hi]
        by_cases hcur : c.full = false ∧ current = t
        · have hwn : want c m current t = none := by unfold want; rw [if_pos hcur]
          have hout : out ++ (tasks ts).filterMap (want c m current) =
              out ++ (t :: tasks ts).filterMap (want c m current) := by rw [List.filterMap_cons_none hwn]
          rw [if_pos (by simp [hcur])]
          by_cases hus : c.usage = true
          · rw [if_pos hus, hth, Option.bind_some, hu, Option.bind_some]
            obtain ⟨s1, s2, s3⟩ := hset u
            exact fin _ _ s1 s2 ho hout (fun _ _ => s3)
          · rw [if_neg hus]
            exact fin _ _ rfl (fun _ _ => rfl) ho hout (fun h => absurd h hus)
        · rw [if_neg (by
            intro h
            simp only [Bool.and_eq_true, Bool.not_eq_eq_eq_not, Bool.not_true, beq_iff_eq] at h
            exact hcur h)]
          have hw : want c m current t = part c (stackToCollect c th) := by
            unfold want; rw [if_neg hcur, hth]; rfl
          rw [hth, Option.bind_some]
          dsimp only
          rw [part_eq] at hw
          by_cases hz : sanitize c (stackToCollect c th).start (stackToCollect c th).size = 0
          · rw [if_pos hz] at hw ⊢
            refine fin _ _ rfl (fun _ _ => rfl) ho (by rw [List.filterMap_cons_none hw]) ?_
            intro _ h
            rcases h with h | h
            · exact absurd h hcur
            · rw [hw] at h; simp at h
          · rw [if_neg hz] at hw ⊢
            have hout : ∀ out1, out1 = out ++ [⟨(stackToCollect c th).start,
                sanitize c (stackToCollect c th).start (stackToCollect c th).size⟩] →
                out1 ++ (tasks ts).filterMap (want c m current) =
                  out ++ (t :: tasks ts).filterMap (want c m current) := by
              rintro _ rfl
              rw [List.filterMap_cons_some hw, List.append_assoc]
              rfl
            unfold put
            by_cases hus : c.usage = true
            · rw [if_pos hus, hu, Option.map_some, Option.bind_some, if_pos hlt, Option.bind_some]
              obtain ⟨s1, s2, s3⟩ := hset u
              exact fin _ _ s1 s2 (by simp; omega) (hout _ rfl) (fun _ _ => s3)
            · rw [if_neg hus, Option.bind_some, if_pos hlt, Option.bind_some]
              exact fin _ _ rfl (fun _ _ => rfl) (by simp; omega) (hout _ rfl) (fun h => absurd h hus)
    · rw [if_neg hlt]
      refine ⟨marks, ?_, rfl, fun _ _ => rfl, ?_⟩
      · rw [List.take_append_of_le_length (by omega), List.take_of_length_le (by omega)]
      · intro h6
        rw [List.length_append] at h6
        omega

private theorem book_len (c : Config) : (bookkeeping c).length = (if c.usage = true then 1 else 0) + 1 := by
  unfold bookkeeping; split <;> rfl

/-- What the function does, for any slots: it is right exactly if there is room for everything. -/
private theorem getTask_spec {c : Config} {m : Memory} (hR : Readable c m) (hz : 0 < c.tcbSize) (current : Nat)
    (slots marks : List Nat) (n : Nat) (hn : n ≠ 0) :
    ∃ slots' marks', slots'.length = slots.length ∧ (tasks slots').Sublist (tasks slots) ∧
      (tasks slots').filter (inRam c) = (tasks slots).filter (inRam c) ∧ marks'.length = marks.length ∧
      getTaskRegions c m current slots marks n =
        (if (tcbs c (tasks slots) ++ ((tasks slots).filter (inRam c)).filterMap (want c m current) ++
              bookkeeping c).length ≤ n then
          some (tcbs c (tasks slots) ++ ((tasks slots).filter (inRam c)).filterMap (want c m current) ++
            bookkeeping c, slots', marks')
        else none) ∧
      ((tcbs c (tasks slots) ++ ((tasks slots).filter (inRam c)).filterMap (want c m current) ++
          bookkeeping c).length ≤ n → c.usage = true → ∀ (j t : Nat) th, slots'[j]? = some t → t ≠ 0 →
          m.thread t = some th → ((c.full = false ∧ current = t) ∨ (want c m current t).isSome = true) →
          j < marks.length → ∃ u, stackUnused c m th.start th.size = some u ∧ marks'[j]? = some u) := by
  unfold getTaskRegions
  rw [if_neg hn]
  obtain ⟨s', h1, h2, h3, h4, h5⟩ := tcbLoop_eq (fc c) (fp c) n slots [] (by simp)
  rw [← tcb_eq] at h1
  rw [tcbs_eq, List.nil_append] at h1 h5
  have hv : Spec.FreertosRegions.valid (fc c) (fp c) = inRam c := funext (valid_eq c hz)
  rw [hv] at h4 h5
  rw [h1, Option.bind_some]
  dsimp only
  have hB := book_len c
  generalize hT : tcbs c (tasks slots) = T at *
  by_cases hfull : T.length < n
  · have h6 := h5 hfull
    obtain ⟨k, g1, g2, _, g4⟩ := stackLoop_spec hR current n s' 0 marks T (by omega) (by
      rw [h6]
      intro t ht
      exact (List.mem_filter.mp ht).2)
    refine ⟨s', k, h2, h3, h4, g2, ?_, ?_⟩
    · rw [List.take_of_length_le (by omega), g1, Option.bind_some]
      dsimp only
      rw [h6]
      generalize T ++ ((tasks slots).filter (inRam c)).filterMap (want c m current) = W
      rw [List.length_append, hB]
      by_cases hw : n ≤ W.length
      · have hl : (W.take n).length = n := by rw [List.length_take]; omega
        rw [if_neg (show ¬ W.length + ((if c.usage = true then 1 else 0) + 1) ≤ n by omega)]
        unfold put
        split
        · rw [if_neg (by omega)]; rfl
        · rw [Option.bind_some, if_neg (by omega)]; rfl
      · rw [List.take_of_length_le (by omega)]
        unfold put bookkeeping
        cases hu : c.usage with
        | true =>
          simp only [if_true]
          rw [if_pos (by omega), Option.bind_some]
          by_cases hr : W.length + (1 + 1) ≤ n
          · rw [if_pos (by simp; omega), if_pos hr]
            simp
          · rw [if_neg (by simp; omega), if_neg hr]
            rfl
        | false =>
          simp only [Bool.false_eq_true, if_false]
          rw [Option.bind_some, if_pos (by omega), if_pos (by omega)]
          simp
    · intro hl hu j t th hj ht hth hw hlen
      rw [List.length_append, hB] at hl
      obtain ⟨u, u1, u2⟩ := g4 (by rw [h6]; split at hl <;> omega) hu j t th hj ht hth hw (by omega)
      exact ⟨u, u1, by rwa [Nat.zero_add] at u2⟩
  · have hW : stackLoop c m current n s' 0 marks (T.take n) = some (marks, T.take n) := by
      cases s' with
      | nil => rfl
      | cons t ts => rw [stackLoop, if_neg (by rw [List.length_take]; omega)]
    refine ⟨s', marks, h2, h3, h4, rfl, ?_, ?_⟩
    · rw [hW, Option.bind_some]
      dsimp only
      have hl : (T.take n).length = n := by rw [List.length_take]; omega
      rw [if_neg (show ¬ (T ++ ((tasks slots).filter (inRam c)).filterMap (want c m current) ++
          bookkeeping c).length ≤ n by simp only [List.length_append]; omega)]
      unfold put
      split
      · rw [if_neg (by omega)]; rfl
      · rw [Option.bind_some, if_neg (by omega)]; rfl
    · intro hl
      simp only [List.length_append] at hl
      omega

private theorem stack_sane {c : Config} {th : Thread} (h : Sane th) : stackToCollect c th = stackOf c th := by
  obtain ⟨h1, h2, h3⟩ := h
  unfold stackToCollect stackOf
  cases hi : c.info with
  | false => simp
  | true =>
    cases hf : c.full with
    | true =>
      simp only [if_true, and_self]
      congr 1
      omega
    | false =>
      simp only [if_true, Bool.false_eq_true, if_false, and_false, true_and]
      have e : (2 ^ 32 + (th.start + th.size + 2 ^ 32 - th.delta) % 2 ^ 32 - th.sp) % 2 ^ 32 =
          th.start + th.size - th.delta - th.sp := by
        rw [show th.start + th.size + 2 ^ 32 - th.delta = (th.start + th.size - th.delta) + 2 ^ 32 by omega,
          Nat.add_mod_right, Nat.mod_eq_of_lt (show th.start + th.size - th.delta < 2 ^ 32 by omega),
          show 2 ^ 32 + (th.start + th.size - th.delta) - th.sp = (th.start + th.size - th.delta - th.sp) + 2 ^ 32 by omega,
          Nat.add_mod_right, Nat.mod_eq_of_lt (by omega)]
      rw [e]
      split
      · rw [Nat.min_eq_left (by assumption)]
      · rw [Nat.min_eq_right (by omega)]

private theorem want_sane {c : Config} {m : Memory} (current : Nat) {l : List Nat}
    (h : ∀ t ∈ l, ∀ th, m.thread t = some th → Sane th) : l.filterMap (want c m current) = stacks c m current l := by
  unfold stacks
  induction l with
  | nil => rfl
  | cons t ts ih =>
    have e : want c m current t = if c.full = false ∧ current = t then none
        else (m.thread t).bind fun th => part c (stackOf c th) := by
      unfold want
      split
      · rfl
      · cases hth : m.thread t with
        | none => rfl
        | some th => simp only [Option.bind_some, stack_sane (h t List.mem_cons_self th hth)]
    simp only [List.filterMap_cons, e, ih (fun x hx => h x (List.mem_cons_of_mem _ hx))]

private theorem tcbs_filter (c : Config) (l : List Nat) : tcbs c (l.filter (inRam c)) = tcbs c l := by
  unfold tcbs
  induction l with
  | nil => rfl
  | cons t ts ih =>
    rw [List.filter_cons]
    cases h : inRam c t with
    | true => simp only [if_true, List.filterMap_cons, ih]
    | false =>
      have : part c ⟨t, c.tcbSize⟩ = none := by unfold part; simp [h]
      simp only [Bool.false_eq_true, if_false, List.filterMap_cons, this, ih]

/-- **C91 (the caller's array)**: for whatever is in the slots, `memfault_zephyr_get_task_regions` stays within the
caller's array exactly if that has room for the control blocks and stacks that are in RAM and for the
bookkeeping, and then those are what it gives. -/
theorem C91_task_regions (c : Config) (m : Memory) (hR : Readable c m) (hz : 0 < c.tcbSize) (current n : Nat)
    (slots marks : List Nat) (hn : 0 < n)
    (hs : ∀ t ∈ slots, ∀ th, m.thread t = some th → Sane th) :
    let ts := slots.filter fun t => t != 0 && inRam c t
    let rs := tcbs c ts ++ stacks c m current ts ++ bookkeeping c
    (rs.length ≤ n → ∃ slots' marks', getTaskRegions c m current slots marks n = some (rs, slots', marks')) ∧
      (n < rs.length → getTaskRegions c m current slots marks n = none) := by
  obtain ⟨s', k', h1, h2, h3, h4, h5, h6⟩ := getTask_spec hR hz current slots marks n (by omega)
  have e : slots.filter (fun t => t != 0 && inRam c t) = (tasks slots).filter (inRam c) := by
    unfold tasks
    rw [List.filter_filter]
    apply List.filter_congr
    intro t _
    exact Bool.and_comm _ _
  rw [← tcbs_filter, want_sane current (fun t ht => hs t (by
    have := (List.mem_filter.1 ht).1
    exact (List.mem_filter.1 this).1))] at h5
  dsimp only
  rw [e]
  refine ⟨fun h => ⟨s', k', by rw [h5, if_pos h]⟩, fun h => by rw [h5, if_neg (by omega)]⟩

/-- **C91 (the caller's array, false)**: the header says that never more than `num_regions` entries are populated.
With as many control blocks in RAM as the array has entries, the function writes behind it. -/
theorem C91_false_bounds (c : Config) (m : Memory) (hR : Readable c m) (hz : 0 < c.tcbSize) (current n : Nat)
    (slots marks : List Nat) (hn : 0 < n) (h : n ≤ (slots.filter fun t => t != 0 && inRam c t).length) :
    getTaskRegions c m current slots marks n = none := by
  obtain ⟨s', k', h1, h2, h3, h4, h5, h6⟩ := getTask_spec hR hz current slots marks n (by omega)
  have e : slots.filter (fun t => t != 0 && inRam c t) = (tasks slots).filter (inRam c) := by
    unfold tasks
    rw [List.filter_filter]
    apply List.filter_congr
    intro t _
    exact Bool.and_comm _ _
  rw [e] at h
  have hl : ((tasks slots).filter (inRam c)).length = (tcbs c (tasks slots)).length := by
    rw [← tcbs_eq, List.length_map, show Spec.FreertosRegions.valid (fc c) (fp c) = inRam c from
      funext (valid_eq c hz)]
  rw [h5, if_neg]
  have := book_len c
  simp only [List.length_append]
  omega

/-- **C91 (only RAM)**: whatever the threads look like, corrupted or not, every region that is collected for them
lies in RAM. -/
theorem C91_in_ram (c : Config) (m : Memory) (hR : Readable c m) (hz : 0 < c.tcbSize) (current n : Nat)
    (slots marks : List Nat) (rs : List Region) (s' : List Nat × List Nat)
    (h : getTaskRegions c m current slots marks n = some (rs, s')) (r : Region) (hr : r ∈ rs) :
    Within c r ∨ r ∈ bookkeeping c := by
  by_cases hn : n = 0
  · subst hn
    simp only [getTaskRegions, if_true, Option.some.injEq, Prod.mk.injEq] at h
    rw [← h.1] at hr
    simp at hr
  obtain ⟨s', k', h1, h2, h3, h4, h5, h6⟩ := getTask_spec hR hz current slots marks n hn
  rw [h5] at h
  split at h
  · simp only [Option.some.injEq, Prod.mk.injEq] at h
    rw [← h.1] at hr
    simp only [List.mem_append] at hr
    rcases hr with (hr | hr) | hr
    · unfold tcbs at hr
      obtain ⟨t, _, ht⟩ := List.mem_filterMap.1 hr
      exact .inl (part_within ht).1
    · obtain ⟨t, _, ht⟩ := List.mem_filterMap.1 hr
      unfold want at ht
      split at ht
      · cases ht
      · obtain ⟨th, _, hp⟩ := Option.bind_eq_some_iff.1 ht
        exact .inl (part_within hp).1
    · exact .inr hr
  · cases h

/-- **C91 (stack usage of every thread)**: with room for everything, the watermark next to each thread of the
slots that runs or whose stack is collected is that of its stack. -/
theorem C91_marks (c : Config) (m : Memory) (hR : Readable c m) (hz : 0 < c.tcbSize) (hu : c.usage = true)
    (current n : Nat) (slots marks rs slots' marks') (hn : 0 < n)
    (h : getTaskRegions c m current slots marks n = some (rs, slots', marks'))
    (j t : Nat) (th : Thread) (hj : slots'[j]? = some t) (ht : t ≠ 0) (hth : m.thread t = some th) (hs : Sane th)
    (hm : j < marks.length)
    (hw : (c.full = false ∧ current = t) ∨ part c (stackOf c th) ≠ none) :
    ∃ u, stackUnused c m th.start th.size = some u ∧ marks'[j]? = some u := by
  obtain ⟨s', k', h1, h2, h3, h4, h5, h6⟩ := getTask_spec hR hz current slots marks n (by omega)
  rw [h5] at h
  split at h
  · rename_i hl
    simp only [Option.some.injEq, Prod.mk.injEq] at h
    obtain ⟨_, rfl, rfl⟩ := h
    refine h6 hl hu j t th hj ht hth ?_ hm
    by_cases hc : c.full = false ∧ current = t
    · exact .inl hc
    · refine .inr ?_
      rcases hw with hw | hw
      · exact absurd hw hc
      · unfold want
        rw [if_neg hc, hth, Option.bind_some, stack_sane hs]
        exact Option.isSome_iff_ne_none.2 hw
  · cases h

/-! ## The whole coredump -/

private theorem put_room {n : Nat} {out : List Region} (r : Region) (h : out.length < n) :
    put n out r = some (out ++ [r]) := if_pos h

private theorem clipped_eq (c : Config) (a k : Nat) :
    Spec.ZephyrRegions.clipped c ⟨a, k⟩ = ⟨a, sanitize c a k⟩ := by
  unfold Spec.ZephyrRegions.clipped
  rw [part_eq]
  dsimp only
  split
  · rename_i h; rw [h]; rfl
  · rfl

private theorem getRegions_spec {c : Config} {m : Memory} (hR : Readable c m) (hz : 0 < c.tcbSize) (current : Nat)
    (crash : Crash) (hg : Spec.ZephyrRegions.Registers c crash) (slots marks : List Nat) (hlen : slots.length = c.maxTasks) (n : Nat)
    (hn : total c ≤ n) :
    ∃ slots' marks', slots'.length = slots.length ∧ (tasks slots').Sublist (tasks slots) ∧
      (tasks slots').filter (inRam c) = (tasks slots).filter (inRam c) ∧ marks'.length = marks.length ∧
      ∃ rs, getRegions c m current crash slots marks n = some (rs, slots', marks') ∧ rs.length ≤ total c ∧
        ((∀ t ∈ (tasks slots).filter (inRam c), ∀ th, m.thread t = some th → Sane th) →
          rs = everything c m current crash ((tasks slots).filter (inRam c))) := by
  have hA : (Spec.ZephyrRegions.active c crash).length ≤ (if c.collectStacks = true then 2 else 0) := by
    unfold Spec.ZephyrRegions.active
    split
    · split <;> simp
    · simp
  have s1 : (if c.collectStacks then
      (put n [] ⟨crash.stack, sanitize c crash.stack c.stackSize⟩).bind fun out =>
        if c.arm then
          crash.mspActive.bind fun active =>
            if active then put n out ⟨crash.psp, sanitize c crash.psp (c.stackSize + 128)⟩ else some out
        else some out
      else some []) = some (Spec.ZephyrRegions.active c crash) := by
    unfold Spec.ZephyrRegions.active
    cases hc : c.collectStacks with
    | false => rfl
    | true =>
      unfold total at hn
      rw [hc] at hn
      simp only [if_true] at hn ⊢
      rw [put_room _ (by simp; omega), Option.bind_some, clipped_eq, clipped_eq]
      cases ha : c.arm with
      | false => simp
      | true =>
        cases hm : crash.mspActive with
        | none => exact absurd hm (hg hc ha)
        | some b =>
          cases b
          · simp
          · simp only [if_true, Option.bind_some, and_self]
            rw [put_room _ (by simp; omega)]
            rfl
  obtain ⟨s', k', h1, h2, h3, h4, h5, _⟩ := getTask_spec hR hz current slots marks
    (n - (Spec.ZephyrRegions.active c crash ++ (if c.collectKernel = true then [c.kernel] else [])).length + 1) (by omega)
  clear h5
  have hK : (if c.collectKernel = true then [c.kernel] else ([] : List Region)).length =
      (if c.collectKernel = true then 1 else 0) := by split <;> rfl
  have s2 : (if c.collectKernel then put n (Spec.ZephyrRegions.active c crash) c.kernel
      else some (Spec.ZephyrRegions.active c crash)) =
      some (Spec.ZephyrRegions.active c crash ++ (if c.collectKernel = true then [c.kernel] else [])) := by
    unfold total at hn
    cases hc : c.collectKernel with
    | false => simp
    | true =>
      rw [hc] at hn
      simp only [if_true] at hn ⊢
      exact put_room _ (by omega)
  generalize hO : Spec.ZephyrRegions.active c crash ++ (if c.collectKernel = true then [c.kernel] else []) = O at *
  have hOl : O.length ≤ (if c.collectStacks = true then 2 else 0) + (if c.collectKernel = true then 1 else 0) := by
    rw [← hO, List.length_append, hK]; omega
  -- the regions of the threads
  have s3 : ∃ slots' marks' T, slots'.length = slots.length ∧ (tasks slots').Sublist (tasks slots) ∧
      (tasks slots').filter (inRam c) = (tasks slots).filter (inRam c) ∧ marks'.length = marks.length ∧
      (if c.collectTasks then (getTaskRegions c m current slots marks (n - O.length)).map fun r => (O ++ r.1, r.2)
        else some (O, slots, marks)) = some (O ++ T, slots', marks') ∧
      T.length ≤ (if c.collectTasks = true then 2 else 0) + c.maxTasks * 2 ∧
      ((∀ t ∈ (tasks slots).filter (inRam c), ∀ th, m.thread t = some th → Sane th) →
        T = if c.collectTasks = true then tcbs c ((tasks slots).filter (inRam c)) ++
          stacks c m current ((tasks slots).filter (inRam c)) ++ bookkeeping c else []) := by
    cases hc : c.collectTasks with
    | false => exact ⟨slots, marks, [], rfl, List.Sublist.refl _, rfl, rfl, by simp, by simp, fun _ => rfl⟩
    | true =>
      unfold total at hn
      rw [hc] at hn
      simp only [if_true] at hn ⊢
      obtain ⟨s', k', h1, h2, h3, h4, h5, _⟩ := getTask_spec hR hz current slots marks (n - O.length) (by omega)
      have hlT : (tcbs c (tasks slots) ++ ((tasks slots).filter (inRam c)).filterMap (want c m current) ++
          bookkeeping c).length ≤ 2 + c.maxTasks * 2 := by
        have l1 : (tcbs c (tasks slots)).length ≤ (tasks slots).length := List.length_filterMap_le _ _
        have l2 := List.length_filterMap_le (want c m current) ((tasks slots).filter (inRam c))
        have l3 : ((tasks slots).filter (inRam c)).length ≤ (tasks slots).length := List.length_filter_le _ _
        have l4 : (tasks slots).length ≤ slots.length := List.length_filter_le _ _
        have l5 : (bookkeeping c).length ≤ 2 := by rw [book_len]; split <;> omega
        simp only [List.length_append]
        omega
      rw [if_pos (by omega)] at h5
      refine ⟨s', k', _, h1, h2, h3, h4, ?_, hlT, ?_⟩
      · rw [h5]; rfl
      · intro hs
        rw [want_sane current hs, tcbs_filter]
  obtain ⟨s3', k3, T, g1, g2, g3, g4, g5, g6, g7⟩ := s3
  refine ⟨s3', k3, g1, g2, g3, g4, O ++ T ++ (if c.collectData = true then [c.data] else []) ++
    (if c.collectBss = true then [c.bss] else []), ?_, ?_, ?_⟩
  · unfold getRegions
    rw [if_neg (by omega), s1, Option.bind_some, s2, Option.bind_some, g5, Option.map_some]
    dsimp only
    have q1 : (if c.collectData = true then O ++ T ++ getOne c.data (n - (O ++ T).length) else O ++ T) =
        O ++ T ++ (if c.collectData = true then [c.data] else []) := by
      split
      · rename_i hd
        unfold total at hn
        rw [hd] at hn
        simp only [if_true] at hn
        unfold getOne
        rw [if_neg (by rw [List.length_append]; omega)]
      · simp
    rw [q1]
    have q2 : ∀ X : List Region, X.length ≤ (O ++ T).length + (if c.collectData = true then 1 else 0) →
        (if c.collectBss = true then X ++ getOne c.bss (n - X.length) else X) =
        X ++ (if c.collectBss = true then [c.bss] else []) := by
      intro X hX
      rw [List.length_append] at hX
      split
      · rename_i hd
        unfold total at hn
        rw [hd] at hn
        simp only [if_true] at hn
        unfold getOne
        rw [if_neg (by omega)]
      · simp
    rw [q2 _ (by rw [List.length_append (as := O ++ T)]; split <;> simp)]
  · unfold total
    have l1 : (if c.collectData = true then [c.data] else ([] : List Region)).length =
      (if c.collectData = true then 1 else 0) := by split <;> rfl
    have l2 : (if c.collectBss = true then [c.bss] else ([] : List Region)).length =
      (if c.collectBss = true then 1 else 0) := by split <;> rfl
    simp only [List.length_append, l1, l2]
    omega
  · intro hs
    rw [g7 hs, ← hO]
    rfl

/-- **C91 (array of a coredump)**: `memfault_zephyr_coredump_get_regions` never writes behind the array: for whatever
is in the slots and however corrupted the threads are, with at least `MEMFAULT_ZEPHYR_COREDUMP_REGIONS` entries
it gives at most that many, and with less it gives none and changes nothing.

Missing: computing only the size of a coredump on Arm, see `C91_false_size`. -/
theorem C91_bounds_partial (c : Config) (m : Memory) (hR : Readable c m) (hz : 0 < c.tcbSize) (current : Nat)
    (crash : Crash) (hg : Spec.ZephyrRegions.Registers c crash) (slots marks : List Nat) (hlen : slots.length = c.maxTasks) (n : Nat) :
    (n < total c → getRegions c m current crash slots marks n = some ([], slots, marks)) ∧
      (total c ≤ n → ∃ rs s', getRegions c m current crash slots marks n = some (rs, s') ∧ rs.length ≤ total c ∧
        s'.1.length = c.maxTasks) := by
  refine ⟨fun h => if_pos h, fun h => ?_⟩
  obtain ⟨s', k', h1, _, _, _, rs, h2, h3, _⟩ := getRegions_spec hR hz current crash hg slots marks hlen n h
  exact ⟨rs, (s', k'), h2, h3, by rw [← hlen]; exact h1⟩

private theorem fslots_new {c : Config} {slots live : List Nat} (h : Slots (fc c) fz slots live) {t : Nat} (h0 : t ≠ 0)
    (hn : t ∉ live) : Slots (fc c) fz (newThread slots t) (live ++ [t]) := by
  have hl : (live ++ [t]).Nodup := by
    rw [List.nodup_append]
    refine ⟨h.lnodup, by simp, ?_⟩
    intro a ha b hb hab
    simp only [List.mem_singleton] at hb
    rw [hab, hb] at ha
    exact hn ha
  have hp : ∀ x ∈ live ++ [t], x ≠ 0 := by
    intro x hx
    rcases List.mem_append.mp hx with hx | hx
    · exact h.pos x hx
    · rw [List.mem_singleton] at hx; rw [hx]; exact h0
  have hall : ∀ (l : List Nat), ∀ x ∈ live ++ [t], Spec.FreertosRegions.valid (fc c) fz x = true → x ∈ l := by
    intro l x _ hv
    simp [Spec.FreertosRegions.valid, fz] at hv
  rw [new_eq]
  cases hf : FreertosRegions.findSlot slots 0 with
  | none =>
    have : FreertosRegions.create slots t = slots := by unfold FreertosRegions.create; rw [hf]
    rw [this]
    exact ⟨h.len, h.nodup, fun x hx => List.mem_append_left _ (h.sub x hx), hall _, hl, hp⟩
  | some i =>
    obtain ⟨A, B, hAB, _⟩ := findSlot_some hf
    have h1 : Slots (fc c) fz slots (tasks slots) :=
      ⟨h.len, h.nodup, fun x hx => hx, fun x hx _ => hx, h.nodup, fun x hx => by
        have := (List.mem_filter.1 hx).2
        simpa using this⟩
    have hlt : (tasks slots).length < (fc c).maxTasks := by
      rw [← h.len, hAB]
      unfold tasks
      rw [List.filter_append, List.filter_cons]
      have l1 := List.length_filter_le (· != 0) A
      have l2 := List.length_filter_le (· != 0) B
      simp only [bne_self_eq_false, Bool.false_eq_true, if_false, List.length_append, List.length_cons]
      omega
    have h2 := create_slots h1 h0 (fun hx => hn (h.sub t hx)) hlt
    refine ⟨h2.len, h2.nodup, fun x hx => ?_, hall _, hl, hp⟩
    rcases List.mem_append.1 (h2.sub x hx) with hx | hx
    · exact List.mem_append_left _ (h.sub x hx)
    · exact List.mem_append_right _ hx

/-- The memory at every earlier collection can be read, and the registers are given. -/
def ZephyrReadable (c : Config) (ops : List Op) : Prop :=
  ∀ m current crash n, Op.regions m current crash n ∈ ops → Readable c m ∧ Spec.ZephyrRegions.Registers c crash

private theorem keep_slots {c : Config} {p : FreertosRegions.Platform} {slots slots' live : List Nat}
    (h : Slots (fc c) p slots live) (h1 : slots'.length = slots.length) (h2 : (tasks slots').Sublist (tasks slots))
    (h3 : ∀ t ∈ tasks slots, Spec.FreertosRegions.valid (fc c) p t = true → t ∈ tasks slots') :
    Slots (fc c) p slots' live :=
  ⟨h1.trans h.len, h.nodup.sublist h2, fun t ht => h.sub t (h2.mem ht),
    fun t ht hv => h3 t (h.all t ht hv) hv, h.lnodup, h.pos⟩

private theorem run_slots {c : Config} (hz : 0 < c.tcbSize) (ops : List Op) : ∀ (s : List Nat × List Nat) (live : List Nat),
    Slots (fc c) fz s.1 live → Spec.ZephyrRegions.Kernel live ops → ZephyrReadable c ops →
    ∃ s', opRun c s ops = some s' ∧ Slots (fc c) fz s'.1 (Spec.ZephyrRegions.alive live ops) ∧
      (Slots (fc c) (fp c) s.1 live → Spec.ZephyrRegions.AtMost c.maxTasks live ops →
        Slots (fc c) (fp c) s'.1 (Spec.ZephyrRegions.alive live ops)) := by
  induction ops with
  | nil => intro s live h _ _; exact ⟨s, rfl, h, fun h _ => h⟩
  | cons op ops ih =>
    intro s live h hk hr
    have hr' : ZephyrReadable c ops := fun m cu cr n hm => hr m cu cr n (List.mem_cons_of_mem _ hm)
    cases op with
    | create t =>
      obtain ⟨k1, k2, k3⟩ := hk
      obtain ⟨s', h1, h2, h3⟩ := ih (newThread s.1 t, s.2) (live ++ [t]) (fslots_new h k1 k2) k3 hr'
      exact ⟨s', h1, h2, fun hf ha => h3 (by rw [new_eq]; exact create_slots hf k1 k2 ha.1) ha.2⟩
    | abort t =>
      obtain ⟨s', h1, h2, h3⟩ := ih (abort s.1 t, s.2) (live.erase t) (by rw [abort_eq]; exact delete_slots h t) hk hr'
      exact ⟨s', h1, h2, fun hf ha => h3 (by rw [abort_eq]; exact delete_slots hf t) ha⟩
    | regions m current crash n =>
      have hlen : s.1.length = c.maxTasks := h.len
      obtain ⟨hRm, hgm⟩ := hr m current crash n List.mem_cons_self
      have key : ∃ s1, opStep c s (.regions m current crash n) = some s1 ∧ s1.1.length = s.1.length ∧
          (tasks s1.1).Sublist (tasks s.1) ∧ (tasks s1.1).filter (inRam c) = (tasks s.1).filter (inRam c) := by
        unfold opStep
        by_cases hn : total c ≤ n
        · obtain ⟨s', k', h1, h2, h3, _, rs, h4, _, _⟩ := getRegions_spec hRm hz current crash hgm s.1 s.2 hlen n hn
          exact ⟨(s', k'), by dsimp only; rw [h4]; rfl, h1, h2, h3⟩
        · refine ⟨s, ?_, rfl, List.Sublist.refl _, rfl⟩
          dsimp only
          unfold getRegions
          rw [if_pos (by omega)]
          rfl
      obtain ⟨s1, e1, e2, e3, e4⟩ := key
      obtain ⟨s', h1, h2, h3⟩ := ih s1 live (keep_slots h e2 e3 (by
        intro t _ hv; simp [Spec.FreertosRegions.valid, fz] at hv)) hk hr'
      refine ⟨s', by rw [opRun, e1]; exact h1, h2, fun hf ha => h3 (keep_slots hf e2 e3 ?_) ha⟩
      intro t ht hv
      rw [valid_eq c hz] at hv
      have : t ∈ (tasks s.1).filter (inRam c) := List.mem_filter.2 ⟨ht, hv⟩
      rw [← e4] at this
      exact (List.mem_filter.1 this).1

private theorem init_slots (c : Config) (p : FreertosRegions.Platform) : Slots (fc c) p (List.replicate c.maxTasks 0) [] := by
  have ht : tasks (List.replicate c.maxTasks 0) = [] := by
    unfold tasks
    rw [List.filter_eq_nil_iff]
    intro a ha
    rw [List.mem_replicate] at ha
    simp [ha.2]
  exact ⟨by simp [fc], by rw [ht]; exact List.nodup_nil, by rw [ht]; simp, by simp, List.nodup_nil, by simp⟩

/-- **C91 (a coredump)**: whatever threads were created and ended before, and whenever regions were collected
before, a coredump gets, each once: the active stacks as far as they are in RAM, the kernel, the control blocks
of threads that exist now and are in RAM, then their stacks, the bookkeeping, data and bss. Threads that have
ended are never looked at. If there were never more threads than slots, all threads are there.

Missing: histories in which the size of a coredump is computed on Arm, see `C91_false_size`. -/
theorem C91_coredump_partial (c : Config) (hz : 0 < c.tcbSize) (ops : List Op) (hk : Spec.ZephyrRegions.Kernel [] ops)
    (hr : ZephyrReadable c ops) (m : Memory) (hR : Readable c m)
    (hs : ∀ t ∈ Spec.ZephyrRegions.alive [] ops, ∀ th, m.thread t = some th → Sane th)
    (current : Nat) (crash : Crash) (hg : Spec.ZephyrRegions.Registers c crash) (n : Nat) (hn : total c ≤ n) :
    ∃ s s' ts, opRun c (List.replicate c.maxTasks 0, List.replicate c.maxTasks 0) ops = some s ∧
      getRegions c m current crash s.1 s.2 n = some (everything c m current crash ts, s') ∧
      ts.Nodup ∧ (∀ t ∈ ts, t ∈ Spec.ZephyrRegions.alive [] ops ∧ inRam c t = true) ∧
      (Spec.ZephyrRegions.AtMost c.maxTasks [] ops →
        ts.Perm ((Spec.ZephyrRegions.alive [] ops).filter (inRam c))) := by
  obtain ⟨s, h1, h2, h3⟩ := run_slots hz ops (List.replicate c.maxTasks 0, List.replicate c.maxTasks 0) []
    (init_slots c fz) hk hr
  obtain ⟨s', k', _, _, _, _, rs, g1, _, g2⟩ := getRegions_spec hR hz current crash hg s.1 s.2 h2.len n hn
  have hmem : ∀ t ∈ (tasks s.1).filter (inRam c), t ∈ Spec.ZephyrRegions.alive [] ops ∧ inRam c t = true := by
    intro t ht
    have := List.mem_filter.1 ht
    exact ⟨h2.sub t this.1, this.2⟩
  have hnd : ((tasks s.1).filter (inRam c)).Nodup := h2.nodup.sublist List.filter_sublist
  refine ⟨s, (s', k'), (tasks s.1).filter (inRam c), h1, ?_, hnd, hmem, ?_⟩
  · rw [g1, g2 (fun t ht th hth => hs t (hmem t ht).1 th hth)]
  · intro ha
    have hf := h3 (init_slots c (fp c)) ha
    rw [List.perm_ext_iff_of_nodup hnd (hf.lnodup.sublist List.filter_sublist)]
    intro a
    refine ⟨fun h => List.mem_filter.2 (hmem a h), fun h => ?_⟩
    have := List.mem_filter.1 h
    exact List.mem_filter.2 ⟨hf.all a this.1 (by rw [valid_eq c hz]; exact this.2), this.2⟩

/-- **C91 is false when only the size of a coredump is computed** (`memfault_coredump_storage_compute_size_required`,
as the self test does): on Arm the registers are then a null pointer, which is read through, whatever the memory
and the threads. -/
theorem C91_false_size (c : Config) (m : Memory) (current stack psp : Nat) (slots marks : List Nat) (n : Nat)
    (ha : c.arm = true) (hs : c.collectStacks = true) (hn : total c ≤ n) :
    getRegions c m current ⟨stack, none, psp⟩ slots marks n = none := by
  unfold getRegions
  rw [if_neg (by omega)]
  simp only [hs, ha, if_true, Option.bind_none]
  have : ∀ o : Option (List Region), (o.bind fun _ => (none : Option (List Region))) = none := by
    intro o; cases o <;> rfl
  rw [this]
  rfl

/-! ## Examples -/

/-- RAM from 1000 to 1999, control blocks of 20 bytes, everything on. -/
def zephyrConfig : Config where
  maxTasks := 3
  tcbSize := 20
  stackSize := 64
  ramStart := 1000
  ramEnd := 2000
  usage := true
  full := false
  info := true
  sentinel := false
  arm := true
  collectStacks := true
  collectKernel := true
  collectTasks := true
  collectData := true
  collectBss := false
  tcbsAddr := 1900
  marksAddr := 1920
  kernel := ⟨1940, 40⟩
  data := ⟨1980, 20⟩
  bss := ⟨1000, 100⟩

/-- Every thread has a stack of 80 bytes behind it, of which 30 are in use. -/
def zephyrMemory : Memory where
  thread t := some ⟨t + 70, t + 20, 80, 0⟩
  byte a := some (if a % 100 < 70 then 0xAA else 0)

/-- The hypotheses are met, and three threads were created and one ended. -/
example : Readable zephyrConfig zephyrMemory ∧ (∀ t, t < 2000 → ∀ th, zephyrMemory.thread t = some th → Sane th) ∧
    Spec.ZephyrRegions.Kernel [] [.create 1100, .create 1200, .create 1300, .abort 1200] ∧
    Spec.ZephyrRegions.AtMost 3 [] [.create 1100, .create 1200, .create 1300, .abort 1200] ∧
    Spec.ZephyrRegions.alive [] [.create 1100, .create 1200, .create 1300, .abort 1200] = [1100, 1300] := by
  refine ⟨⟨fun _ _ => rfl, fun _ _ _ => rfl⟩, ?_, by simp [Spec.ZephyrRegions.Kernel], by simp [Spec.ZephyrRegions.AtMost], by
    decide⟩
  intro t ht th h
  simp only [zephyrMemory, Option.some.injEq] at h
  subst h
  exact ⟨by dsimp only; omega, by dsimp only; omega, by dsimp only; omega⟩

example : (getRegions zephyrConfig zephyrMemory 1300 ⟨1350, true, 1990⟩ [1100, 0, 1300] [0, 0, 0] 13).map (·.1) =
    some [⟨1350, 64⟩, ⟨1990, 10⟩, ⟨1940, 40⟩, ⟨1100, 20⟩, ⟨1300, 20⟩, ⟨1170, 30⟩, ⟨1920, 12⟩, ⟨1900, 12⟩, ⟨1980, 20⟩] ∧
    (getRegions zephyrConfig zephyrMemory 1300 ⟨1350, true, 1990⟩ [1100, 0, 1300] [0, 0, 0] 13).map (·.2.2) =
      some [50, 0, 50] := by
  decide +kernel

/-- **C91 (threads, false)**: a thread that is created while all slots are taken is never collected, also after
other threads have ended and although there are then no more threads than slots. -/
theorem C91_false_forgotten :
    let ops : List Op := [.create 1100, .create 1200, .create 1300, .create 1400, .abort 1100, .abort 1200]
    Spec.ZephyrRegions.Kernel [] ops ∧ Spec.ZephyrRegions.alive [] ops = [1300, 1400] ∧
      opRun zephyrConfig ([0, 0, 0], [0, 0, 0]) ops = some ([0, 0, 1300], [0, 0, 0]) := by
  refine ⟨by simp [Spec.ZephyrRegions.Kernel], by decide, by decide⟩

/-- **C91 (control blocks, false)**: a control block of which only the start is in RAM is not scrubbed: fields
behind the end of RAM are read. -/
theorem C91_false_short_tcb (m : Memory) (h : m.thread 1990 = none) :
    getTaskRegions zephyrConfig m 1300 [1990, 0, 0] [0, 0, 0] 10 = none := by
  simp [getTaskRegions, tcbLoop, stackLoop, zephyrConfig, sanitize, put, h]

end Mflt.Props
