import Verif.Model.FreertosRegions
import Verif.Spec.FreertosRegions

/-! # Property C62: FreeRTOS task regions -/

namespace Mflt.Props

open FreertosRegions
open Spec.FreertosRegions (alive Kernel valid tcbRegion stackRegion allRegions)

theorem findSlot_some {slots : List Nat} {x i : Nat} (h : findSlot slots x = some i) :
    ∃ A B, slots = A ++ x :: B ∧ i = A.length := by
  induction slots generalizing i with
  | nil => cases h
  | cons t ts ih =>
    rw [findSlot] at h
    by_cases hx : t = x
    · rw [if_pos hx] at h
      cases h
      exact ⟨[], ts, by rw [hx]; rfl, rfl⟩
    · rw [if_neg hx, Option.map_eq_some_iff] at h
      obtain ⟨j, h1, h2⟩ := h
      obtain ⟨A, B, h3, h4⟩ := ih h1
      exact ⟨t :: A, B, by rw [h3]; rfl, by rw [List.length_cons]; omega⟩

theorem findSlot_none {slots : List Nat} {x : Nat} (h : findSlot slots x = none) : x ∉ slots := by
  induction slots with
  | nil => simp
  | cons t ts ih =>
    rw [findSlot] at h
    by_cases hx : t = x
    · rw [if_pos hx] at h; cases h
    · rw [if_neg hx, Option.map_eq_none_iff] at h
      rw [List.mem_cons, not_or]
      exact ⟨fun e => hx e.symm, ih h⟩

/-- The tasks in the slots. -/
def tasks (slots : List Nat) : List Nat := slots.filter (· != 0)

theorem tasks_set (A B : List Nat) (x y : Nat) :
    tasks ((A ++ x :: B).set A.length y) = tasks A ++ tasks [y] ++ tasks B := by
  unfold tasks
  rw [List.set_append_right _ _ (by omega), Nat.sub_self, List.set_cons_zero, List.filter_append,
    List.filter_cons]
  by_cases h : (y != 0) = true <;> simp [h]

/-- The slots hold exactly the live tasks, but possibly without some whose address is invalid. -/
structure Slots (c : Config) (p : Platform) (slots live : List Nat) : Prop where
  len : slots.length = c.maxTasks
  nodup : (tasks slots).Nodup
  sub : ∀ t ∈ tasks slots, t ∈ live
  all : ∀ t ∈ live, valid c p t = true → t ∈ tasks slots
  lnodup : live.Nodup
  pos : ∀ t ∈ live, t ≠ 0

theorem create_slots {c : Config} {p : Platform} {slots live : List Nat} (h : Slots c p slots live)
    {t : Nat} (h0 : t ≠ 0) (hn : t ∉ live) (hl : live.length < c.maxTasks) :
    Slots c p (create slots t) (live ++ [t]) := by
  unfold create
  cases hf : findSlot slots 0 with
  | none =>
    exfalso
    have h1 := findSlot_none hf
    have h2 : tasks slots = slots := by
      unfold tasks
      rw [List.filter_eq_self]
      intro a ha
      simp only [bne_iff_ne, ne_eq]
      rintro rfl
      exact h1 ha
    have h3 := List.Nodup.length_le_of_subset h.nodup h.sub
    rw [h2, h.len] at h3
    omega
  | some i =>
    obtain ⟨A, B, rfl, rfl⟩ := findSlot_some hf
    have ht : tasks (A ++ 0 :: B) = tasks A ++ tasks B := by
      unfold tasks; rw [List.filter_append]; rfl
    have ht' : tasks [t] = [t] := by unfold tasks; simp [h0]
    have hp : (tasks A ++ tasks [t] ++ tasks B).Perm (t :: tasks (A ++ 0 :: B)) := by
      rw [ht, ht', List.append_assoc]
      exact List.perm_middle
    refine ⟨by simpa using h.len, ?_, ?_, ?_, ?_, ?_⟩
    · dsimp only
      rw [tasks_set, hp.nodup_iff, List.nodup_cons]
      exact ⟨fun hm => hn (h.sub t hm), h.nodup⟩
    · intro x hx
      dsimp only at hx
      rw [tasks_set, hp.mem_iff, List.mem_cons] at hx
      rcases hx with rfl | hx
      · simp
      · exact List.mem_append_left _ (h.sub x hx)
    · intro x hx hv
      dsimp only
      rw [tasks_set, hp.mem_iff, List.mem_cons]
      rcases List.mem_append.mp hx with hx | hx
      · exact Or.inr (h.all x hx hv)
      · exact Or.inl (by simpa using hx)
    · rw [List.nodup_append]
      refine ⟨h.lnodup, by simp, ?_⟩
      intro a ha b hb
      rw [List.mem_singleton] at hb
      rintro rfl
      exact hn (hb ▸ ha)
    · intro x hx
      rcases List.mem_append.mp hx with hx | hx
      · exact h.pos x hx
      · rw [List.mem_singleton] at hx; rw [hx]; exact h0

theorem delete_slots {c : Config} {p : Platform} {slots live : List Nat} (h : Slots c p slots live)
    (t : Nat) : Slots c p (delete slots t) (live.erase t) := by
  have hlive : (live.erase t).Nodup := h.lnodup.sublist List.erase_sublist
  have hpos : ∀ x ∈ live.erase t, x ≠ 0 := fun x hx => h.pos x (List.erase_sublist.mem hx)
  unfold delete
  cases hf : findSlot slots t with
  | none =>
    have h1 := findSlot_none hf
    refine ⟨h.len, h.nodup, ?_, ?_, hlive, hpos⟩
    · intro x hx
      rw [h.lnodup.mem_erase_iff]
      refine ⟨?_, h.sub x hx⟩
      rintro rfl
      exact h1 (List.filter_sublist.mem hx)
    · intro x hx hv
      exact h.all x (List.erase_sublist.mem hx) hv
  | some i =>
    obtain ⟨A, B, rfl, rfl⟩ := findSlot_some hf
    have h0 : tasks [0] = [] := rfl
    have hm : ∀ x, x ≠ t → (x ∈ tasks A ++ [] ++ tasks B ↔ x ∈ tasks (A ++ t :: B)) := by
      intro x hx
      unfold tasks
      simp [List.mem_append, hx]
    have hsub : (tasks A ++ [] ++ tasks B).Sublist (tasks (A ++ t :: B)) := by
      unfold tasks
      rw [List.append_nil, List.filter_append]
      refine List.Sublist.append_left ?_ _
      exact (List.sublist_cons_self t B).filter _
    have ht : t ∉ tasks A ++ [] ++ tasks B := by
      intro hc
      have h1 : t ≠ 0 := by
        rintro rfl
        unfold tasks at hc
        simp at hc
      have h2 := h.nodup
      unfold tasks at h2 hc
      rw [List.filter_append, List.filter_cons, if_pos (by simp [h1])] at h2
      rw [List.perm_middle.nodup_iff, List.nodup_cons] at h2
      rw [List.append_nil] at hc
      exact h2.1 hc
    refine ⟨by simpa using h.len, ?_, ?_, ?_, hlive, hpos⟩
    · dsimp only
      rw [tasks_set, h0]
      exact h.nodup.sublist hsub
    · intro x hx
      dsimp only at hx
      rw [tasks_set, h0] at hx
      have hxt : x ≠ t := by rintro rfl; exact ht hx
      rw [h.lnodup.mem_erase_iff]
      exact ⟨hxt, h.sub x ((hm x hxt).mp hx)⟩
    · intro x hx hv
      dsimp only
      rw [tasks_set, h0]
      rw [h.lnodup.mem_erase_iff] at hx
      rw [hm x hx.1]
      exact h.all x hx.2 hv

/-- The first loop: the regions of the valid tasks as far as there is room; only invalid ones are
scrubbed, and all if there is room left. -/
theorem tcbLoop_eq (c : Config) (p : Platform) (n : Nat) (slots : List Nat) (out : List Region)
    (ho : out.length ≤ n) :
    ∃ slots', tcbLoop c p n slots out =
        some (slots', (out ++ ((tasks slots).filter (valid c p)).map (tcbRegion c p)).take n) ∧
      slots'.length = slots.length ∧ (tasks slots').Sublist (tasks slots) ∧
      (tasks slots').filter (valid c p) = (tasks slots).filter (valid c p) ∧
      ((out ++ ((tasks slots).filter (valid c p)).map (tcbRegion c p)).length < n →
        tasks slots' = (tasks slots).filter (valid c p)) := by
  induction slots generalizing out with
  | nil =>
    refine ⟨[], ?_, rfl, List.Sublist.refl _, rfl, fun _ => rfl⟩
    rw [tcbLoop]
    simp [tasks, List.take_of_length_le ho]
  | cons t ts ih =>
    rw [tcbLoop]
    by_cases hlt : out.length < n
    · rw [if_pos hlt]
      by_cases h0 : t = 0
      · subst h0
        obtain ⟨s', h1, h2, h3, h4, h5⟩ := ih out ho
        rw [if_pos rfl, h1]
        exact ⟨0 :: s', rfl, by simp [h2], h3, h4, h5⟩
      · rw [if_neg h0]
        have ht : ∀ l, tasks (t :: l) = t :: tasks l := by intro l; simp [tasks, h0]
        by_cases hz : p.sanitize t c.tcbSize = 0
        · have hv : valid c p t = false := by simp [valid, hz]
          obtain ⟨s', h1, h2, h3, h4, h5⟩ := ih out ho
          have hf : (tasks (t :: ts)).filter (valid c p) = (tasks ts).filter (valid c p) := by
            rw [ht, List.filter_cons, hv]; rfl
          rw [if_pos hz, h1, hf]
          refine ⟨0 :: s', rfl, by simp [h2], ?_, h4, h5⟩
          rw [ht]
          exact h3.trans (List.sublist_cons_self _ _)
        · have hv : valid c p t = true := by simp [valid, hz]
          have hf : (tasks (t :: ts)).filter (valid c p) = t :: (tasks ts).filter (valid c p) := by
            rw [ht, List.filter_cons, hv]; rfl
          obtain ⟨s', h1, h2, h3, h4, h5⟩ := ih (out ++ [tcbRegion c p t]) (by simp; omega)
          rw [if_neg hz]
          unfold put
          rw [if_pos hlt, Option.bind_some]
          have h1' : tcbLoop c p n ts (out ++ [⟨t, p.sanitize t c.tcbSize⟩]) = _ := h1
          rw [h1', hf]
          refine ⟨t :: s', ?_, by simp [h2], ?_, ?_, ?_⟩
          · rw [Option.map_some]; simp
          · rw [ht, ht]; exact h3.cons₂ t
          · rw [ht, List.filter_cons, hv, h4]; rfl
          · intro h6
            rw [ht, h5 (by simpa using h6)]
    · rw [if_neg hlt]
      refine ⟨t :: ts, ?_, rfl, List.Sublist.refl _, rfl, ?_⟩
      · rw [List.take_append_of_le_length (by omega), List.take_of_length_le (by omega)]
      · intro h6
        rw [List.length_append] at h6
        omega

/-- The second loop. -/
theorem stackLoop_eq (c : Config) (p : Platform) (n : Nat) (slots : List Nat) (out : List Region)
    (hp : ∀ t ∈ tasks slots, (p.pointer t).isSome = true) (ho : out.length ≤ n) :
    ∃ b, stackLoop c p n slots out =
        some (b, (out ++ (tasks slots).filterMap (stackRegion c p)).take n) ∧
      (b = true → n ≤ (out ++ (tasks slots).filterMap (stackRegion c p)).length) := by
  induction slots generalizing out with
  | nil =>
    refine ⟨false, ?_, by simp⟩
    rw [stackLoop]
    simp [tasks, List.take_of_length_le ho]
  | cons t ts ih =>
    rw [stackLoop]
    by_cases hlt : out.length < n
    · rw [if_pos hlt]
      by_cases h0 : t = 0
      · subst h0
        rw [if_pos rfl]
        exact ih out hp ho
      · rw [if_neg h0]
        have ht : tasks (t :: ts) = t :: tasks ts := by simp [tasks, h0]
        rw [ht] at hp ⊢
        have hp' : ∀ x ∈ tasks ts, (p.pointer x).isSome = true :=
          fun x hx => hp x (List.mem_cons_of_mem _ hx)
        obtain ⟨top, htop⟩ := Option.isSome_iff_exists.mp (hp t (List.mem_cons_self))
        rw [htop, Option.bind_some]
        by_cases hz : p.sanitize top c.stackSize = 0
        · have hs : stackRegion c p t = none := by simp [stackRegion, htop, hz]
          rw [if_pos hz, List.filterMap_cons_none hs]
          exact ih out hp' ho
        · have hs : stackRegion c p t = some ⟨top, p.sanitize top c.stackSize⟩ := by
            simp [stackRegion, htop, hz]
          rw [if_neg hz, List.filterMap_cons_some hs]
          unfold put
          rw [if_pos hlt, Option.bind_some]
          generalize (⟨top, p.sanitize top c.stackSize⟩ : Region) = r
          rw [show out ++ r :: (tasks ts).filterMap (stackRegion c p) =
            (out ++ [r]) ++ (tasks ts).filterMap (stackRegion c p) by simp]
          have hl : (out ++ [r]).length = out.length + 1 := by simp
          generalize out ++ [r] = o at hl ⊢
          by_cases hn : o.length = n
          · rw [if_pos hn]
            refine ⟨true, ?_, fun _ => by rw [List.length_append]; omega⟩
            rw [List.take_append_of_le_length (by omega), List.take_of_length_le (by omega)]
          · rw [if_neg hn]
            exact ih o hp' (by omega)
    · rw [if_neg hlt]
      refine ⟨false, ?_, by simp⟩
      rw [List.take_append_of_le_length (by omega), List.take_of_length_le (by omega)]

/-- The whole function, away from the overflow. -/
theorem getRegions_eq (c : Config) (p : Platform) (n : Nat) (slots : List Nat)
    (hp : ∀ t ∈ tasks slots, valid c p t = true → (p.pointer t).isSome = true)
    (hn : c.stackUsage = true →
      (((tasks slots).filter (valid c p)).map (tcbRegion c p) ++
        ((tasks slots).filter (valid c p)).filterMap (stackRegion c p)).length + 1 ≠ n) :
    ∃ slots', getRegions c p slots n =
        some ((allRegions c p ((tasks slots).filter (valid c p))).take n, slots') ∧
      slots'.length = slots.length ∧ (tasks slots').Sublist (tasks slots) ∧
      (tasks slots').filter (valid c p) = (tasks slots).filter (valid c p) := by
  unfold getRegions
  by_cases h0 : n = 0
  · subst h0
    exact ⟨slots, rfl, rfl, List.Sublist.refl _, rfl⟩
  rw [if_neg h0]
  obtain ⟨s', h1, h2, h3, h4, h5⟩ := tcbLoop_eq c p n slots [] (by simp)
  rw [h1, Option.bind_some]
  refine ⟨s', ?_, h2, h3, h4⟩
  dsimp only
  rw [List.nil_append] at h5 ⊢
  unfold allRegions
  generalize hV : (tasks slots).filter (valid c p) = V at *
  by_cases hfull : (V.map (tcbRegion c p)).length < n
  · have h6 := h5 hfull
    obtain ⟨b, h7, h8⟩ := stackLoop_eq c p n s' (V.map (tcbRegion c p)) (by
      rw [h6]
      intro t ht
      rw [← hV] at ht
      have := List.mem_filter.mp ht
      exact hp t this.1 this.2) (by omega)
    rw [List.take_of_length_le (by omega), h7, Option.bind_some]
    dsimp only
    rw [h6] at h8 ⊢
    generalize hW : V.map (tcbRegion c p) ++ V.filterMap (stackRegion c p) = W at *
    by_cases hw : n ≤ W.length
    · have hl : (W.take n).length = n := by rw [List.length_take]; omega
      rw [List.take_append_of_le_length hw]
      cases b with
      | true => rfl
      | false =>
        rw [if_neg (by simp), if_neg (by omega)]
    · have hb : b = false := by
        cases b with
        | true => exact absurd (h8 rfl) hw
        | false => rfl
      rw [List.take_of_length_le (by omega), hb, if_neg (by simp)]
      by_cases hu : c.stackUsage = true
      · have := hn hu
        rw [if_pos ⟨hu, by omega⟩, hu]
        unfold put
        rw [if_pos (by omega), Option.bind_some, if_pos (by simp; omega), Option.map_some,
          if_pos rfl, List.take_of_length_le (by simp; omega)]
        simp
      · rw [if_neg (fun h => hu h.1), if_neg hu, List.append_nil, List.take_of_length_le (by omega)]
  · have hW : stackLoop c p n s' ((V.map (tcbRegion c p)).take n) =
        some (false, (V.map (tcbRegion c p)).take n) := by
      cases s' with
      | nil => rfl
      | cons t ts => rw [stackLoop, if_neg (by rw [List.length_take]; omega)]
    rw [hW, Option.bind_some, if_neg (by simp), if_neg (by rw [List.length_take]; omega)]
    rw [List.append_assoc, List.take_append_of_le_length (by omega)]

theorem getRegions_slots {c : Config} {p : Platform}
    (hw : ∀ t, valid c p t = true → (p.pointer t).isSome = true) {slots live : List Nat}
    (h : Slots c p slots live) (n : Nat) (hn : c.stackUsage = false ∨ 2 * c.maxTasks + 2 ≤ n) :
    ∃ slots' V, getRegions c p slots n = some ((allRegions c p V).take n, slots') ∧
      V.Perm (live.filter (valid c p)) ∧ Slots c p slots' live := by
  have hlen : ((tasks slots).filter (valid c p)).length ≤ c.maxTasks := by
    rw [← h.len]
    exact Nat.le_trans (List.length_filter_le _ _) (List.length_filter_le _ _)
  obtain ⟨s', h1, h2, h3, h4⟩ := getRegions_eq c p n slots (fun t _ hv => hw t hv) (by
    intro hu
    rcases hn with hn | hn
    · rw [hn] at hu; cases hu
    · have := List.length_filterMap_le (stackRegion c p) ((tasks slots).filter (valid c p))
      rw [List.length_append, List.length_map]
      omega)
  refine ⟨s', _, h1, ?_, ?_⟩
  · rw [List.perm_ext_iff_of_nodup (h.nodup.sublist List.filter_sublist)
      (h.lnodup.sublist List.filter_sublist)]
    intro a
    rw [List.mem_filter, List.mem_filter]
    exact ⟨fun ha => ⟨h.sub a ha.1, ha.2⟩, fun ha => ⟨h.all a ha.1 ha.2, ha.2⟩⟩
  · refine ⟨h2.trans h.len, h.nodup.sublist h3, fun t ht => h.sub t (h3.mem ht), ?_, h.lnodup, h.pos⟩
    intro t ht hv
    have : t ∈ (tasks slots).filter (valid c p) := List.mem_filter.mpr ⟨h.all t ht hv, hv⟩
    rw [← h4] at this
    exact (List.mem_filter.mp this).1

theorem taskRun_slots {c : Config} {p : Platform}
    (hw : ∀ t, valid c p t = true → (p.pointer t).isSome = true) (ops : List Op) :
    ∀ {slots live : List Nat}, Slots c p slots live → Kernel c.maxTasks live ops →
      (c.stackUsage = false ∨ ∀ n, Op.regions n ∈ ops → 2 * c.maxTasks + 2 ≤ n) →
      ∃ slots', taskRun c p slots ops = some slots' ∧ Slots c p slots' (alive live ops) := by
  induction ops with
  | nil => intro slots live h _ _; exact ⟨slots, rfl, h⟩
  | cons op ops ih =>
    intro slots live h hk hn
    have hn' : c.stackUsage = false ∨ ∀ n, Op.regions n ∈ ops → 2 * c.maxTasks + 2 ≤ n :=
      hn.imp id fun h n hm => h n (List.mem_cons_of_mem _ hm)
    cases op with
    | create t =>
      obtain ⟨k1, k2, k3, k4⟩ := hk
      exact ih (create_slots h k1 k2 k3) k4 hn'
    | delete t => exact ih (delete_slots h t) hk hn'
    | regions n =>
      obtain ⟨s', V, h1, -, h2⟩ := getRegions_slots hw h n
        (hn.imp id fun h => h n List.mem_cons_self)
      rw [taskRun, taskStep, h1]
      exact ih h2 hk hn'

/-- **C62, for arrays with room for all regions if stack usage is recorded.** After every history of
tasks created and deleted and of collections, on every platform on which a control block that is
declared to be in memory starts with a readable pointer: the regions are those of exactly the live
tasks whose control block is in memory, each once, control blocks first, cut off where the caller's
array ends. Nothing is written behind the array.

Missing from the full property: arrays in which exactly one entry is left for the bookkeeping, see
`C62_false_overflow`, and control blocks at the end of memory, see `C62_false_short_tcb`. -/
theorem C62_regions_partial (c : Config) (p : Platform)
    (hw : ∀ t, valid c p t = true → (p.pointer t).isSome = true)
    (ops : List Op) (hk : Kernel c.maxTasks [] ops) (n : Nat)
    (hu : c.stackUsage = false ∨
      (2 * c.maxTasks + 2 ≤ n ∧ ∀ m, Op.regions m ∈ ops → 2 * c.maxTasks + 2 ≤ m)) :
    ∃ slots slots' V, taskRun c p (List.replicate c.maxTasks 0) ops = some slots ∧
      getRegions c p slots n = some ((allRegions c p V).take n, slots') ∧
      V.Perm ((alive [] ops).filter (valid c p)) := by
  have h0 : Slots c p (List.replicate c.maxTasks 0) [] := by
    have ht : tasks (List.replicate c.maxTasks 0) = [] := by
      unfold tasks
      rw [List.filter_eq_nil_iff]
      intro a ha
      rw [List.eq_of_mem_replicate ha]
      simp
    refine ⟨by simp, by rw [ht]; simp, by rw [ht]; simp, by simp, by simp, by simp⟩
  obtain ⟨slots, h1, h2⟩ := taskRun_slots hw ops h0 hk (hu.imp id fun h => h.2)
  obtain ⟨slots', V, h3, h4, -⟩ := getRegions_slots hw h2 n (hu.imp id fun h => h.1)
  exact ⟨slots, slots', V, h1, h3, h4⟩

/-- With an array of that size nothing is cut off. -/
theorem C62_all_fit (c : Config) (p : Platform) (V : List Nat) (n : Nat)
    (hV : V.length ≤ c.maxTasks) (hn : 2 * c.maxTasks + 2 ≤ n) :
    (allRegions c p V).take n = allRegions c p V := by
  refine List.take_of_length_le ?_
  have := List.length_filterMap_le (stackRegion c p) V
  unfold allRegions
  rw [List.length_append, List.length_append, List.length_map]
  split <;> simp <;> omega

/-- A platform with 1000 bytes of memory at address 1000. -/
def exPlatform : Platform :=
  { sanitize := fun a n => if 1000 ≤ a ∧ a < 2000 then min n (2000 - a) else 0
    pointer := fun a => if 1000 ≤ a ∧ a + 4 ≤ 2000 then some (a + 500) else none }

/-- Two tasks left of three, one with its stack outside of the memory. -/
example : (taskRun ⟨4, 100, 50, true, 7, 8⟩ exPlatform [0, 0, 0, 0]
      [.create 1000, .create 1100, .create 1600, .delete 1100]).bind
    (fun s => (getRegions ⟨4, 100, 50, true, 7, 8⟩ exPlatform s 10).map (·.1)) =
    some [⟨1000, 100⟩, ⟨1600, 100⟩, ⟨1500, 50⟩, ⟨7, 16⟩, ⟨8, 16⟩] := by decide +kernel

/-- **C62 is false if stack usage is recorded and one entry is left**: the bookkeeping takes two
entries, the second one is written behind the caller's array. -/
theorem C62_false_overflow :
    taskRun ⟨4, 100, 50, true, 7, 8⟩ exPlatform [0, 0, 0, 0] [.create 1000] = some [1000, 0, 0, 0] ∧
    getRegions ⟨4, 100, 50, true, 7, 8⟩ exPlatform [1000, 0, 0, 0] 3 = none ∧
    (getRegions ⟨4, 100, 50, true, 7, 8⟩ exPlatform [1000, 0, 0, 0] 4).isSome = true := by
  decide +kernel

/-- **C62 is false for a control block of which only some bytes are in memory**: it is collected, but
the pointer at its start is read without regard to how many bytes are there. -/
theorem C62_false_short_tcb :
    getRegions ⟨4, 100, 50, false, 7, 8⟩ exPlatform [1998, 0, 0, 0] 8 = none ∧
    exPlatform.sanitize 1998 100 = 2 := by
  decide +kernel

end Mflt.Props
