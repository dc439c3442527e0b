import Verif.Lemmas.HeapWrapExact

/-!
# The heap statistics behind the ports, for every schedule of tasks (C100)
-/

namespace Mflt.Props

open Mflt.HeapWrap (Op Port World Job start run Safe Exact Listed run_safe start_safe run_exact start_exact calls_exact)
open Spec.HeapStats (Alloc)
open Spec.HeapWrap (wrapped Call undisturbed quiet states)

private theorem listed_links {n : Nat} {s : HeapStats.State} {as : List Alloc} (h : Listed n s as) :
    followLinks s.pool n s.head = some as ∧ (s.pool.filter HeapStats.Entry.inUse).length = as.length := by
  obtain ⟨hn, is, hi⟩ := h
  have hle := HeapStats.length_le_of_lt hi.nodup (fun i hm => hi.chain.lt i hm)
  exact ⟨followLinks_chain hi.small hi.chain (by omega), inUse_length hi⟩

/-- Whatever the tasks, the interrupts and the allocator do, on every port, and although ESP-IDF does not wait for its
lock: no access is out of bounds, and the list ends and has exactly the entries in use. -/
theorem C100_safe (port : Port) (tasks : Nat) {n : Nat} (hn : 0 < n) (hn' : n < 65535) (ops : List Op) :
    ∃ w as, run port (start tasks n) ops = some w ∧ followLinks w.stats.pool n w.stats.head = some as ∧
      as.length ≤ n ∧ (w.stats.pool.filter HeapStats.Entry.inUse).length = as.length := by
  obtain ⟨w, a1, a2⟩ := run_safe hn ops (start_safe port tasks hn')
  obtain ⟨as, hl⟩ := a2.listed
  obtain ⟨b1, b2⟩ := listed_links hl
  refine ⟨w, as, a1, b1, ?_, b2⟩
  rw [← b2, ← hl.1]
  exact List.length_filter_le _ _

/-- What the statistics say of the blocks of the allocator. -/
private theorem exact_says {port : Port} {n : Nat} {over : Prop} {w : World} {as : List Alloc}
    (h : Exact port n over w as) :
    followLinks w.stats.pool n w.stats.head = some as ∧ (∀ a ∈ as, a ∈ w.live) ∧ (as.map Alloc.ptr).Nodup ∧
      (quiet w → w.stats.inUseCount = w.live.length ∧ (¬ over → as.Perm w.live)) := by
  refine ⟨(listed_links h.listed).1, fun a ha => (h.sub a ha).1, h.nodupA, fun hq => ?_⟩
  have hid : ∀ (i : Nat) (j : Job), w.tasks[i]? = some j → j = .idle := fun i j hj => hq j (List.mem_of_getElem? hj)
  have hsum : ∀ (f : Job → Nat), f .idle = 0 → (w.tasks.map f).sum = 0 := by
    intro f hf
    have : w.tasks.map f = w.tasks.map fun _ => 0 := List.map_congr_left fun j hj => by rw [hq j hj, hf]
    rw [this]
    simp
  refine ⟨?_, fun ho => ?_⟩
  · have h1 := h.count
    rw [hsum _ rfl, hsum _ rfl] at h1
    have h2 := h.small
    have h3 := h.bound
    omega
  · rw [List.perm_ext_iff_of_nodup (List.Pairwise.of_map _ (fun a b hx hy => hx (by rw [hy])) h.nodupA)
      (List.Pairwise.of_map _ (fun a b hx hy => hx (by rw [hy])) h.nodupL)]
    intro a
    refine ⟨fun ha => (h.sub a ha).1, fun ha => h.full ho a ha (fun i j hj => ?_)⟩
    rw [hid i j hj]
    exact fun hx => h.nz a ha hx.symm

/-- FreeRTOS and Zephyr, any number of tasks in any order, as long as no interrupt uses the heap and no block is moved by
`realloc`: every entry of the list is a block that the allocator has, with its caller and size, and no address is there
twice; when no call is in progress the count is the number of blocks, and if there never were more blocks than the list
has room for, the list has all of them. What is missing: other uses of the heap, see `C100_false_isr` and
`C100_false_realloc`. -/
theorem C100_exact_partial {port : Port} (hp : port ≠ .espIdf) (tasks : Nat) {n : Nat} (hn : 0 < n) (hn' : n < 65535)
    {ops : List Op} (hops : ∀ op ∈ ops, wrapped op = true) :
    ∃ w as, run port (start tasks n) ops = some w ∧
      followLinks w.stats.pool n w.stats.head = some as ∧
      (∀ a ∈ as, a ∈ w.live) ∧ (as.map Alloc.ptr).Nodup ∧
      (quiet w → w.stats.inUseCount = w.live.length ∧
        ((∀ v ∈ states port (start tasks n) ops, v.live.length ≤ n) → as.Perm w.live)) := by
  obtain ⟨w, as, a1, a2⟩ := run_exact hn hp
    (over := ∃ v ∈ states port (start tasks n) ops, n < v.live.length) ops
    ((start_exact port tasks hn').mono False.elim) hops (fun v hv h => ⟨v, hv, h⟩)
  obtain ⟨b1, b2, b3, b4⟩ := exact_says a2
  refine ⟨w, as, a1, b1, b2, b3, fun hq => ⟨(b4 hq).1, fun hv => (b4 hq).2 ?_⟩⟩
  rintro ⟨v, h1, h2⟩
  have := hv v h1
  omega

/-- The same for ESP-IDF, if no call begins before the one before has ended. What is missing: calls at the same time, see
`C100_false_esp_stale`, `C100_false_esp_twice` and `C100_false_esp_count`. -/
theorem C100_esp_partial (tasks : Nat) {n : Nat} (hn : 0 < n) (hn' : n < 65535) (calls : List Call) :
    ∃ w as, run .espIdf (start tasks n) (calls.flatMap undisturbed) = some w ∧ quiet w ∧
      followLinks w.stats.pool n w.stats.head = some as ∧
      (∀ a ∈ as, a ∈ w.live) ∧ (as.map Alloc.ptr).Nodup ∧ w.stats.inUseCount = w.live.length ∧
      ((∀ v ∈ states .espIdf (start tasks n) (calls.flatMap undisturbed), v.live.length ≤ n) → as.Perm w.live) := by
  obtain ⟨w, as, a1, a2, a3⟩ := calls_exact hn
    (over := ∃ v ∈ states .espIdf (start tasks n) (calls.flatMap undisturbed), n < v.live.length) calls
    ((start_exact .espIdf tasks hn').mono False.elim) (fun i j hj => by
      have := List.mem_of_getElem? hj
      simp only [start, List.mem_replicate] at this
      exact this.2) (fun v hv h => ⟨v, hv, h⟩)
  obtain ⟨b1, b2, b3, b4⟩ := exact_says a2
  have hq : quiet w := fun j hj => by
    obtain ⟨i, hi⟩ := List.mem_iff_getElem?.1 hj
    exact a3 i j hi
  refine ⟨w, as, a1, hq, b1, b2, b3, (b4 hq).1, fun hv => (b4 hq).2 ?_⟩
  rintro ⟨v, h1, h2⟩
  have := hv v h1
  omega

/-- Zephyr, two tasks: the second waits for the lock while the first is in the statistics. -/
example :
    let ops : List Op := [.malloc 0 1 100 8, .malloc 1 2 200 16, .step 0, .step 1, .step 0, .step 1, .free 0 100,
      .step 1, .step 0, .step 0, .malloc 1 3 300 4, .step 0, .step 1, .step 1]
    (∀ op ∈ ops, wrapped op = true) ∧
    ((run .zephyr (start 2 4) ops).map fun w => (w.live, w.tasks, w.stats.inUseCount,
      followLinks w.stats.pool 4 w.stats.head)) =
      some ([⟨3, 300, 4⟩, ⟨2, 200, 16⟩], [.idle, .idle], 2, some [⟨3, 300, 4⟩, ⟨2, 200, 16⟩]) := by
  decide +kernel

example :
    ((run .espIdf (start 2 4) (([.malloc 0 1 100 8, .malloc 1 2 200 16, .free 1 100] : List Call).flatMap undisturbed)).map
      fun w => (w.live, w.stats.inUseCount, followLinks w.stats.pool 4 w.stats.head)) =
      some ([⟨2, 200, 16⟩], 1, some [⟨2, 200, 16⟩]) := by
  decide +kernel

/-- ESP-IDF: a task that frees a block while another is in the statistics leaves the freed block in the list. -/
theorem C100_false_esp_stale :
    ((run .espIdf (start 2 4) [.malloc 0 1 100 8, .step 0, .step 0, .step 0, .step 0,
      .malloc 1 2 200 16, .step 1, .step 1, .step 1, .free 0 100, .step 0, .step 1, .step 0, .step 0, .step 0]).map
      fun w => (w.live, w.tasks, w.stats.inUseCount, followLinks w.stats.pool 4 w.stats.head)) =
      some ([⟨2, 200, 16⟩], [.idle, .idle], 1, some [⟨2, 200, 16⟩, ⟨1, 100, 8⟩]) := by
  decide +kernel

/-- And when the allocator returns the address again it is in the list twice. -/
theorem C100_false_esp_twice :
    ((run .espIdf (start 2 4) [.malloc 0 1 100 8, .step 0, .step 0, .step 0, .step 0,
      .malloc 1 2 200 16, .step 1, .step 1, .step 1, .free 0 100, .step 0, .step 1, .step 0, .step 0, .step 0,
      .malloc 0 3 100 32, .step 0, .step 0, .step 0, .step 0]).map
      fun w => (w.live, w.tasks, w.stats.inUseCount, followLinks w.stats.pool 4 w.stats.head)) =
      some ([⟨3, 100, 32⟩, ⟨2, 200, 16⟩], [.idle, .idle], 2, some [⟨3, 100, 32⟩, ⟨2, 200, 16⟩, ⟨1, 100, 8⟩]) := by
  decide +kernel

/-- ESP-IDF: the hook of the allocator does not count a block while another task is in the statistics. -/
theorem C100_false_esp_count :
    ((run .espIdf (start 2 4) [.malloc 0 1 100 8, .malloc 1 2 200 16, .step 0, .step 1, .step 0, .step 0, .step 0,
      .step 1, .step 1]).map
      fun w => (w.live, w.tasks, w.stats.inUseCount, followLinks w.stats.pool 4 w.stats.head)) =
      some ([⟨2, 200, 16⟩, ⟨1, 100, 8⟩], [.idle, .idle], 1, some [⟨2, 200, 16⟩, ⟨1, 100, 8⟩]) := by
  decide +kernel

/-- Zephyr: a block that an interrupt frees stays in the list and in the count, and freeing a block that an interrupt
allocated brings the count below 0. -/
theorem C100_false_isr :
    ((run .zephyr (start 1 4) [.malloc 0 1 100 8, .step 0, .step 0, .isrFree 100]).map
      fun w => (w.live, w.tasks, w.stats.inUseCount, followLinks w.stats.pool 4 w.stats.head)) =
      some ([], [.idle], 1, some [⟨1, 100, 8⟩]) ∧
    ((run .zephyr (start 1 4) [.isrMalloc 1 100 8, .free 0 100, .step 0, .step 0, .step 0]).map
      fun w => (w.live, w.tasks, w.stats.inUseCount, followLinks w.stats.pool 4 w.stats.head)) =
      some ([], [.idle], 4294967295, some []) := by
  constructor <;> decide +kernel

/-- `realloc` is not wrapped: the list keeps the address the block had before. -/
theorem C100_false_realloc :
    ((run .zephyr (start 1 4) [.malloc 0 1 100 8, .step 0, .step 0, .realloc 100 500 64]).map
      fun w => (w.live, w.tasks, w.stats.inUseCount, followLinks w.stats.pool 4 w.stats.head)) =
      some ([⟨0, 500, 64⟩], [.idle], 1, some [⟨1, 100, 8⟩]) := by
  decide +kernel

end Mflt.Props
