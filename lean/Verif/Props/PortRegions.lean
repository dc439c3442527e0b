import Verif.Spec.PortRegions
import Verif.Props.FreertosRegions
import Verif.Lemmas.CortexM

/-! # C98: the regions that the ports put into a coredump -/

namespace Mflt.Props

open Mflt.FreertosRegions (Region Config Platform Op put getRegions taskRun)
open Mflt.Spec.FreertosRegions (alive Kernel valid allRegions tcbRegion stackRegion)
open Mflt.PortRegions
open Mflt.Spec.PortRegions

/-! ## Addresses -/

private theorem clips_bank {s e a n : Nat} (h1 : s ≤ a) (h2 : a < e) (he : e < 2 ^ 32) {ram : List (Nat × Nat)}
    (hm : (s, e) ∈ ram) (hn : ¬ InRam ram e) : Clips ram a n (min n (sub32 e a)) := by
  rw [sub32_eq (by omega) he]
  refine ⟨Nat.min_le_left _ _, fun i hi => ⟨(s, e), hm, by dsimp; omega, by dsimp; omega⟩, fun h => ?_⟩
  have : a + min n (e - a) = e := by omega
  rwa [this]

private theorem clips_out {a n : Nat} {ram : List (Nat × Nat)} (h : ¬ InRam ram a) : Clips ram a n 0 :=
  ⟨Nat.zero_le _, fun i hi => absurd hi (Nat.not_lt_zero _), fun _ => by simpa using h⟩

private theorem inRam_one {s e a : Nat} : InRam [(s, e)] a ↔ s ≤ a ∧ a < e := by
  simp [InRam]

private theorem inRam_two {s e s' e' a : Nat} :
    InRam [(s, e), (s', e')] a ↔ (s ≤ a ∧ a < e) ∨ (s' ≤ a ∧ a < e') := by
  simp [InRam]

/-- **C98 (addresses)**: whatever the address and the size, what is left of a region on the nrf5, da1469x, psoc6, esp8266
and ESP-IDF ports is what is in RAM from its start on: all of its bytes up to the first one that is not in RAM. -/
theorem C98_clips (a n : Nat) :
    (∀ kb, kb ≤ 1024 → Clips [(0x20000000, 0x20000000 + 1024 * kb)] a n (sanitizeNrf5 kb a n)) ∧
    (∀ s e, e < 2 ^ 32 → Clips [(s, e)] a n (sanitizeDa1469x s e a n)) ∧
    (∀ s size, s + size < 2 ^ 32 → Clips [(s, s + size)] a n (sanitizeBanks (psoc6Banks s size) a n)) ∧
    (∀ iram, iram ≤ 0x10000 →
      Clips [(0x3FFE8000, 0x40000000), (0x40100000, 0x40100000 + iram)] a n
        (sanitizeBanks (esp8266Banks iram) a n)) ∧
    (∀ s e, e + n < 2 ^ 32 → Clips [(s, e)] a n (sanitizeEspIdf s e a n)) := by
  refine ⟨fun kb hkb => ?_, fun s e he => ?_, fun s size he => ?_, fun iram hi => ?_, fun s e he => ?_⟩
  · unfold sanitizeNrf5
    rw [Nat.mod_eq_of_lt (show kb * 1024 < 2 ^ 32 by omega), add32_eq (by omega), Nat.mul_comm kb]
    dsimp only
    split
    · next h => exact clips_bank h.1 h.2 (by omega) (List.mem_singleton.2 rfl) (by rw [inRam_one]; omega)
    · next h => exact clips_out (by rw [inRam_one]; exact h)
  · unfold sanitizeDa1469x
    split
    · next h => exact clips_bank h.1 h.2 he (List.mem_singleton.2 rfl) (by rw [inRam_one]; omega)
    · next h => exact clips_out (by rw [inRam_one]; exact h)
  · simp only [psoc6Banks, sanitizeBanks]
    rw [add32_eq he]
    split
    · next h => exact clips_bank h.1 h.2 he (List.mem_singleton.2 rfl) (by rw [inRam_one]; omega)
    · next h => exact clips_out (by rw [inRam_one]; exact h)
  · simp only [esp8266Banks, sanitizeBanks]
    rw [add32_eq (by omega), add32_eq (by omega)]
    split
    · next h => exact clips_bank h.1 h.2 (by omega) (by simp) (by rw [inRam_two]; omega)
    · next h =>
      split
      · next h' => exact clips_bank h'.1 h'.2 (by omega) (by simp) (by rw [inRam_two]; omega)
      · next h' => exact clips_out (by rw [inRam_two]; omega)
  · unfold sanitizeEspIdf
    by_cases h : a < s ∨ e < a
    · rw [if_pos h]
      exact clips_out (by rw [inRam_one]; omega)
    · rw [if_neg h, add32_eq (by omega)]
      split
      · rw [sub32_eq (by omega) (by omega)]
        exact ⟨by omega, fun i hi => inRam_one.2 (by omega), fun _ => by rw [inRam_one]; omega⟩
      · exact ⟨Nat.le_refl _, fun i hi => inRam_one.2 (by omega), fun h => absurd h (Nat.lt_irrefl _)⟩

private theorem ordered_ge : ∀ (bs : List Nat) (b stop : Nat), Ordered (b :: bs) stop → b ≤ stop ∧ stop < 2 ^ 32
  | [], _, _, h => h
  | b' :: bs, b, stop, h => ⟨Nat.le_trans h.1 h.2.1, (ordered_ge bs b' stop h.2.2).2⟩

/-- **C98 (addresses, da145xx)**: whatever the address and the size, with banks one behind the other, what is left
of a region is in RAM, it is empty only if its start is not in RAM, and all of it is there if it lies within
one bank.

Missing: a region that goes on in the next bank is cut, see `C98_false_bank`. -/
theorem C98_banks_partial (bases : List Nat) (stop : Nat) (h : Ordered bases stop) (a n : Nat) :
    let m := sanitizeBanks (da145xxBanks bases stop) a n
    m ≤ n ∧ (∀ i, i < m → InRam (consecutive bases stop) (a + i)) ∧
      (0 < n → InRam (consecutive bases stop) a → 0 < m) ∧
      (∀ b ∈ consecutive bases stop, b.1 ≤ a → a < b.2 → a + n ≤ b.2 → m = n) := by
  induction bases with
  | nil =>
    simp only [da145xxBanks, sanitizeBanks, consecutive]
    refine ⟨Nat.zero_le _, fun i hi => absurd hi (Nat.not_lt_zero _), fun _ h => ?_, fun b hb => by simp at hb⟩
    obtain ⟨b, hb, _⟩ := h
    simp at hb
  | cons b bs ih =>
    cases bs with
    | nil =>
      obtain ⟨h1, h2⟩ := h
      simp only [da145xxBanks, sanitizeBanks, consecutive]
      rw [sub32_eq h1 h2, add32_eq (by omega), show b + (stop - b) = stop by omega]
      split
      · next hc =>
        rw [sub32_eq (by omega) h2]
        refine ⟨by omega, fun i hi => inRam_one.2 (by omega), fun _ _ => by omega, fun x hx hx1 hx2 hx3 => ?_⟩
        rw [List.mem_singleton] at hx
        subst hx
        dsimp only at hx1 hx2 hx3
        omega
      · next hc =>
        refine ⟨Nat.zero_le _, fun i hi => absurd hi (Nat.not_lt_zero _), fun _ hr => absurd (inRam_one.1 hr) hc,
          fun x hx hx1 hx2 hx3 => ?_⟩
        rw [List.mem_singleton] at hx
        subst hx
        exact absurd ⟨hx1, hx2⟩ hc
    | cons b' bs =>
      obtain ⟨h1, h2, h3⟩ := h
      have h4 := (ordered_ge bs b' stop h3).2
      obtain ⟨i1, i2, i3, i4⟩ := ih h3
      simp only [da145xxBanks, sanitizeBanks, consecutive]
      rw [sub32_eq h1 (by omega), add32_eq (by omega), show b + (b' - b) = b' by omega]
      have hlow : ∀ (bs : List Nat) (b' stop : Nat), Ordered (b' :: bs) stop →
          ∀ x ∈ consecutive (b' :: bs) stop, b' ≤ x.1 := by
        intro bs
        induction bs with
        | nil => intro b' stop _ x hx; rw [consecutive, List.mem_singleton] at hx; subst hx; exact Nat.le_refl _
        | cons c cs ihc =>
          intro b' stop ho x hx
          rw [consecutive, List.mem_cons] at hx
          rcases hx with rfl | hx
          · exact Nat.le_refl _
          · exact Nat.le_trans ho.1 (ihc c stop ho.2.2 x hx)
      have hin : ∀ c, InRam (consecutive (b' :: bs) stop) c → InRam ((b, b') :: consecutive (b' :: bs) stop) c :=
        fun c ⟨x, hx, hy⟩ => ⟨x, List.mem_cons_of_mem _ hx, hy⟩
      split
      · next hc =>
        rw [sub32_eq (by omega) (by omega)]
        refine ⟨by omega, fun i hi => ⟨(b, b'), List.mem_cons_self, by dsimp; omega, by dsimp; omega⟩,
          fun _ _ => by omega, fun x hx hx1 hx2 hx3 => ?_⟩
        rcases List.mem_cons.1 hx with rfl | hx
        · dsimp only at hx1 hx2 hx3
          omega
        · have := hlow bs b' stop h3 x hx
          omega
      · next hc =>
        refine ⟨i1, fun i hi => hin _ (i2 i hi), fun h0 hr => i3 h0 ?_, fun x hx hx1 hx2 hx3 => ?_⟩
        · obtain ⟨x, hx, hy⟩ := hr
          rcases List.mem_cons.1 hx with rfl | hx
          · exact absurd hy hc
          · exact ⟨x, hx, hy⟩
        · rcases List.mem_cons.1 hx with rfl | hx
          · exact absurd ⟨hx1, hx2⟩ hc
          · exact i4 x hx hx1 hx2 hx3

/-- Three banks, as on the DA14531. -/
example : Ordered [0x07fc0000, 0x07fc4000, 0x07fc7000] 0x07fcc000 ∧
    sanitizeBanks (da145xxBanks [0x07fc0000, 0x07fc4000, 0x07fc7000] 0x07fcc000) 0x07fc4100 512 = 512 := by
  refine ⟨by simp [Ordered], by decide +kernel⟩

/-- **C98 (addresses, da145xx) is false for regions over two banks**: in front of the end of a bank only its rest is
collected, whatever the size, although the RAM goes on in the next bank. -/
theorem C98_false_bank (b b' stop : Nat) (bs : List Nat) (h : Ordered (b :: b' :: bs) stop) (a n : Nat)
    (h1 : b ≤ a) (h2 : a < b') (h3 : b' < a + n) :
    sanitizeBanks (da145xxBanks (b :: b' :: bs) stop) a n = b' - a ∧ b' - a < n := by
  have h4 := (ordered_ge bs b' stop h.2.2).2
  have h5 := h.2.1
  simp only [da145xxBanks, sanitizeBanks]
  rw [sub32_eq h.1 (by omega), add32_eq (by have := h.1; omega), show b + (b' - b) = b' by omega, if_pos ⟨h1, h2⟩,
    sub32_eq (by omega) (by omega)]
  omega

/-! ## Ports that collect one stack, or all RAM -/

private theorem putAll_eq (n : Nat) : ∀ (rs out : List Region), out.length + rs.length ≤ n →
    putAll n out rs = some (out ++ rs)
  | [], out, _ => by simp [putAll]
  | r :: rs, out, h => by
    rw [List.length_cons] at h
    rw [putAll, put, if_pos (by omega), Option.bind_some, putAll_eq n rs (out ++ [r]) (by simp; omega)]
    simp

private theorem between_eq {ram : List (Nat × Nat)} {s : Symbols} (h : Linked ram s) :
    between s = whole s ∧ Inside ram (whole s) := by
  refine ⟨?_, fun i hi => ?_⟩
  · unfold between whole
    rw [sub32_eq h.ordered h.word]
  · unfold whole at hi ⊢
    dsimp only at hi ⊢
    exact h.inside _ (by omega) (by omega)

/-- **C98 (one stack)**: with a routine that clips addresses to RAM the one region is the active stack, as much of it
as is asked for and in RAM. -/
theorem C98_active_stack (ram : List (Nat × Nat)) (sanitize : Nat → Nat → Nat) (size stack max : Nat)
    (hs : Clips ram stack size (sanitize stack size)) (hm : 0 < max) :
    ∃ r, activeStack max sanitize size stack = some [r] ∧ r.start = stack ∧ Clips ram stack size r.size ∧
      Inside ram r := by
  refine ⟨_, putAll_eq max _ [] (by simp; omega), rfl, hs, hs.inside⟩

/-- **C98 (mynewt)**: the areas of the board, in order, as many as there is room for. -/
theorem C98_mynewt (max : Nat) (areas : List Region) :
    mynewt max areas = some (areas.take max) := by
  unfold mynewt
  rw [putAll_eq max _ [] (by simp; omega)]
  simp [List.take_eq_take_iff]

/-- **C98 (all RAM, nrf5 and da145xx)**: the region is exactly the RAM between the two symbols. -/
theorem C98_all_ram (ram : List (Nat × Nat)) (s : Symbols) (h : Linked ram s) :
    ∃ r, allRam s = some [r] ∧ r.start = s.start ∧ r.start + r.size = s.stop ∧ Inside ram r := by
  obtain ⟨h1, h2⟩ := between_eq h
  refine ⟨whole s, ?_, rfl, ?_, h2⟩
  · rw [← h1]; exact putAll_eq 1 _ [] (by simp)
  · have := h.ordered
    simp only [whole]
    omega

/-- **C98 (stack only, nrf5 and da145xx)**: with the stack pointer in the stack, which is in RAM, the region is the
stack up to its top.

Missing: stack pointers outside of the stack, see `C98_false_stack_only`. -/
theorem C98_stack_only_partial (ram : List (Nat × Nat)) (top stack : Nat) (h : Linked ram ⟨stack, top⟩) :
    ∃ r, stackOnly top stack = some [r] ∧ r.start = stack ∧ r.start + r.size = top ∧ Inside ram r := by
  obtain ⟨r, h1, h2⟩ := C98_all_ram ram _ h
  exact ⟨r, h1, h2⟩

/-- **C98 (stack only) is false for a stack pointer above the stack**, for example of a crash because the stack
pointer was corrupted: the size wraps around, the region goes from the stack pointer to the end of the address
space and on, so it is not in RAM. -/
theorem C98_false_stack_only (top stack : Nat) (h1 : top < stack) (h2 : stack < 2 ^ 32) :
    ∃ r, stackOnly top stack = some [r] ∧ r.start = stack ∧ r.start + r.size = 2 ^ 32 + top ∧
      ∀ ram : List (Nat × Nat), (∀ b ∈ ram, b.2 < 2 ^ 32) → ¬ Inside ram r := by
  have e : sub32 top stack = top + 2 ^ 32 - stack := by
    unfold sub32; exact Nat.mod_eq_of_lt (by omega)
  refine ⟨⟨stack, sub32 top stack⟩, putAll_eq 1 _ [] (by simp), rfl, ?_, ?_⟩
  · rw [e]; simp only; omega
  · intro ram hr hi
    obtain ⟨b, hb, hb1, hb2⟩ := hi (2 ^ 32 - 1 - stack) (by dsimp only; rw [e]; omega)
    have := hr b hb
    dsimp only at hb1 hb2
    omega

/-! ## Ports with FreeRTOS -/

private theorem alive_length (max : Nat) : ∀ (ops : List Op) (l : List Nat), l.length ≤ max → Kernel max l ops →
    (alive l ops).length ≤ max
  | [], _, h, _ => h
  | .create t :: ops, l, h, hk => alive_length max ops (l ++ [t]) (by have := hk.2.2.1; simp; omega) hk.2.2.2
  | .delete t :: ops, l, h, hk =>
    alive_length max ops (l.erase t) (Nat.le_trans List.erase_sublist.length_le h) hk
  | .regions _ :: ops, l, h, hk => alive_length max ops l h hk

/-- What the platform gives the FreeRTOS ports: a routine that clips to RAM, for the sizes that are used; control
blocks that are in RAM start with a readable pointer; the bookkeeping of the port is in RAM. -/
structure Memory (ram : List (Nat × Nat)) (f : Freertos) : Prop where
  tcb : ∀ a, Clips ram a f.cfg.tcbSize (f.plat.sanitize a f.cfg.tcbSize)
  stack : ∀ a, Clips ram a f.cfg.stackSize (f.plat.sanitize a f.cfg.stackSize)
  pointer : ∀ t, valid f.cfg f.plat t = true → (f.plat.pointer t).isSome = true
  book : f.cfg.stackUsage = true →
    Inside ram ⟨f.cfg.tcbsAddr, 4 * f.cfg.maxTasks⟩ ∧ Inside ram ⟨f.cfg.marksAddr, 4 * f.cfg.maxTasks⟩

private theorem inside_tasks {ram : List (Nat × Nat)} {f : Freertos} (h : Memory ram f) (V : List Nat) (r : Region)
    (hr : r ∈ allRegions f.cfg f.plat V) : Inside ram r := by
  unfold allRegions at hr
  rw [List.mem_append, List.mem_append] at hr
  rcases hr with (hr | hr) | hr
  · obtain ⟨t, _, rfl⟩ := List.mem_map.1 hr
    exact (h.tcb t).inside
  · obtain ⟨t, _, ht⟩ := List.mem_filterMap.1 hr
    unfold stackRegion at ht
    cases hp : f.plat.pointer t with
    | none => rw [hp] at ht; cases ht
    | some top =>
      rw [hp] at ht
      dsimp only at ht
      split at ht
      · cases ht
      · cases ht; exact (h.stack top).inside
  · split at hr
    · next hu =>
      simp only [List.mem_cons, List.not_mem_nil, or_false] at hr
      rcases hr with rfl | rfl
      · exact (h.book hu).1
      · exact (h.book hu).2
    · cases hr

/-- The tasks of every history, collected into an array that has room for them. -/
private theorem tasks_fit {ram : List (Nat × Nat)} {f : Freertos} (h : Memory ram f) (ops : List Op)
    (hk : Kernel f.cfg.maxTasks [] ops) (n : Nat) (out : List Region)
    (hn : f.cfg.stackUsage = false ∧ 2 * f.cfg.maxTasks + out.length ≤ n ∨ 2 * f.cfg.maxTasks + 2 + out.length ≤ n)
    (hu : f.cfg.stackUsage = false ∨ ∀ m, Op.regions m ∈ ops → 2 * f.cfg.maxTasks + 2 ≤ m) :
    ∃ slots slots' V, taskRun f.cfg f.plat (List.replicate f.cfg.maxTasks 0) ops = some slots ∧
      V.Perm ((alive [] ops).filter (valid f.cfg f.plat)) ∧ V.length ≤ f.cfg.maxTasks ∧
      tasksInto f slots n out = some (out ++ allRegions f.cfg f.plat V, slots') := by
  obtain ⟨slots, slots', V, h1, h2, h3⟩ := C62_regions_partial f.cfg f.plat h.pointer ops hk (n - out.length)
    (by
      rcases hn with hn | hn
      · exact .inl hn.1
      · rcases hu with hu | hu
        · exact .inl hu
        · exact .inr ⟨by omega, hu⟩)
  have hV : V.length ≤ f.cfg.maxTasks := by
    rw [h3.length_eq]
    exact Nat.le_trans (List.length_filter_le _ _) (alive_length _ ops [] (Nat.zero_le _) hk)
  have hl : (allRegions f.cfg f.plat V).length ≤ n - out.length := by
    have := List.length_filterMap_le (stackRegion f.cfg f.plat) V
    unfold allRegions
    rw [List.length_append, List.length_append, List.length_map]
    rcases hn with hn | hn
    · rw [hn.1]; simp; omega
    · split <;> simp <;> omega
  refine ⟨slots, slots', V, h1, h3, hV, ?_⟩
  unfold tasksInto
  rw [h2, List.take_of_length_le hl]
  rfl

private theorem length_all {f : Freertos} {V : List Nat} (hV : V.length ≤ f.cfg.maxTasks) :
    (allRegions f.cfg f.plat V).length ≤ 2 * f.cfg.maxTasks + 2 := by
  have := List.length_filterMap_le (stackRegion f.cfg f.plat) V
  unfold allRegions
  rw [List.length_append, List.length_append, List.length_map]
  split <;> simp <;> omega

/-- **C98 (ESP-IDF)**: whatever tasks were created and deleted before, and however often the regions were computed
before, the regions fit into the array and are: the active stack; the control blocks and stacks of exactly the
live tasks; the variables of FreeRTOS; bss, data and heap. All of them are in RAM. -/
theorem C98_esp_idf (ram : List (Nat × Nat)) (f : Freertos) (h : Memory ram f) (ops : List Op)
    (hk : Kernel f.cfg.maxTasks [] ops) (hr : ∀ m, Op.regions m ∈ ops → m = 2 * f.cfg.maxTasks + 9)
    (k : EspIdf) (h4 : k.freertos.length = 4) (hl : ∀ s ∈ k.bss :: k.data :: ⟨k.heapStart, k.dramEnd⟩ :: k.freertos, Linked ram s)
    (stack : Nat) (hs : Clips ram stack f.activeSize (f.plat.sanitize stack f.activeSize)) :
    ∃ slots slots' V act rs, taskRun f.cfg f.plat (List.replicate f.cfg.maxTasks 0) ops = some slots ∧
      V.Perm ((alive [] ops).filter (valid f.cfg f.plat)) ∧
      act.start = stack ∧ Clips ram stack f.activeSize act.size ∧
      rs = [act] ++ allRegions f.cfg f.plat V ++ k.freertos.map whole ++
        [whole k.bss, whole k.data, ⟨k.heapStart, k.dramEnd - k.heapStart⟩] ∧
      espIdf true f slots k stack = some (rs, slots') ∧ ∀ r ∈ rs, Inside ram r := by
  obtain ⟨slots, slots', V, h1, h2, h3, h5⟩ := tasks_fit h ops hk
    (1 + 4 + f.cfg.maxTasks * (1 + 1) + 1 + 1 + 1 + 1 + 1) [⟨stack, f.plat.sanitize stack f.activeSize⟩]
    (.inr (by simp; omega)) (.inr fun m hm => by rw [hr m hm]; omega)
  have hall := length_all (f := f) h3
  have e1 : k.freertos.map between = k.freertos.map whole :=
    List.map_congr_left fun s hs => (between_eq (hl s (by simp [hs]))).1
  have e2 := between_eq (hl k.bss (by simp))
  have e3 := between_eq (hl k.data (by simp))
  have e4 := between_eq (hl ⟨k.heapStart, k.dramEnd⟩ (by simp))
  refine ⟨slots, slots', V, ⟨stack, f.plat.sanitize stack f.activeSize⟩, _, h1, h2, rfl, hs, rfl, ?_, ?_⟩
  · unfold espIdf
    simp only [if_true]
    rw [putAll_eq _ _ [] (by simp), Option.bind_some, List.nil_append, h5, Option.bind_some]
    unfold freertosBss
    dsimp only
    rw [if_neg (by simp; omega), putAll_eq _ _ _ (by simp [h4]; omega), Option.map_some, Option.bind_some,
      putAll_eq _ _ _ (by simp [h4]; omega), e1, e2.1, e3.1]
    have : sub32 k.dramEnd k.heapStart = k.dramEnd - k.heapStart := congrArg Region.size e4.1
    rw [this]
    rfl
  · intro r hr
    simp only [List.mem_append, List.mem_cons, List.not_mem_nil, or_false, List.mem_map] at hr
    rcases hr with ((rfl | hr) | ⟨s, hs', rfl⟩) | (rfl | rfl | rfl)
    · exact hs.inside
    · exact inside_tasks h V r hr
    · exact (between_eq (hl s (by simp [hs']))).2
    · exact e2.2
    · exact e3.2
    · exact e4.2

/-- **C98 (ESP-IDF before 4.4.3)**: the active stack, bss, data and heap. -/
theorem C98_esp_idf_old (ram : List (Nat × Nat)) (f : Freertos) (slots : List Nat)
    (k : EspIdf) (hl : ∀ s ∈ [k.bss, k.data, ⟨k.heapStart, k.dramEnd⟩], Linked ram s)
    (stack : Nat) (hs : Clips ram stack f.activeSize (f.plat.sanitize stack f.activeSize)) :
    ∃ act rs, act.start = stack ∧ Clips ram stack f.activeSize act.size ∧
      rs = [act, whole k.bss, whole k.data, ⟨k.heapStart, k.dramEnd - k.heapStart⟩] ∧
      espIdf false f slots k stack = some (rs, slots) ∧ ∀ r ∈ rs, Inside ram r := by
  have e2 := between_eq (hl k.bss (by simp))
  have e3 := between_eq (hl k.data (by simp))
  have e4 := between_eq (hl ⟨k.heapStart, k.dramEnd⟩ (by simp))
  refine ⟨⟨stack, f.plat.sanitize stack f.activeSize⟩, _, rfl, hs, rfl, ?_, ?_⟩
  · unfold espIdf
    simp only [Bool.false_eq_true, if_false]
    rw [putAll_eq _ _ [] (by simp), Option.bind_some, Option.bind_some, List.nil_append,
      putAll_eq _ _ _ (by simp), e2.1, e3.1]
    have : sub32 k.dramEnd k.heapStart = k.dramEnd - k.heapStart := congrArg Region.size e4.1
    rw [this]
    rfl
  · intro r hr
    simp only [List.mem_cons, List.not_mem_nil, or_false] at hr
    rcases hr with rfl | rfl | rfl | rfl
    · exact hs.inside
    · exact e2.2
    · exact e3.2
    · exact e4.2

/-- **C98 (esp8266, threads)**: whatever tasks were created and deleted before, the regions fit into the array and
are the active stack, the variables in IRAM and the control blocks and stacks of exactly the live tasks. All of
them are in RAM. -/
theorem C98_esp8266_threads (ram : List (Nat × Nat)) (f : Freertos) (h : Memory ram f) (ops : List Op)
    (hk : Kernel f.cfg.maxTasks [] ops) (hr : ∀ m, Op.regions m ∈ ops → m = 2 * f.cfg.maxTasks + 3)
    (k : Esp8266) (ht : k.threadsOnly = true) (hl : Linked ram k.iramBss)
    (stack : Nat) (hs : Clips ram stack 512 (f.plat.sanitize stack 512)) :
    ∃ slots slots' V act rs, taskRun f.cfg f.plat (List.replicate f.cfg.maxTasks 0) ops = some slots ∧
      V.Perm ((alive [] ops).filter (valid f.cfg f.plat)) ∧
      act.start = stack ∧ Clips ram stack 512 act.size ∧
      rs = [act, whole k.iramBss] ++ allRegions f.cfg f.plat V ∧
      esp8266 f slots k stack = some (rs, slots') ∧ ∀ r ∈ rs, Inside ram r := by
  have e := between_eq hl
  obtain ⟨slots, slots', V, h1, h2, h3, h5⟩ := tasks_fit h ops hk
    (f.cfg.maxTasks * (1 + 1) + 5) [⟨stack, f.plat.sanitize stack 512⟩, whole k.iramBss]
    (.inr (by simp; omega)) (.inr fun m hm => by rw [hr m hm]; omega)
  refine ⟨slots, slots', V, ⟨stack, f.plat.sanitize stack 512⟩, _, h1, h2, rfl, hs, rfl, ?_, ?_⟩
  · unfold esp8266
    dsimp only
    rw [putAll_eq _ _ [] (by simp), Option.bind_some, List.nil_append, ht, if_pos rfl, e.1, h5]
  · intro r hr
    simp only [List.mem_append, List.mem_cons, List.not_mem_nil, or_false] at hr
    rcases hr with (rfl | rfl) | hr
    · exact hs.inside
    · exact e.2
    · exact inside_tasks h V r hr

/-- **C98 (esp8266, all RAM)**: the regions fit into the array if there can be a task at all, and are the active
stack, the variables, and everything behind them up to the ends of DRAM and IRAM. -/
theorem C98_esp8266_ram (ram : List (Nat × Nat)) (f : Freertos) (slots : List Nat) (k : Esp8266)
    (ht : k.threadsOnly = false) (hm : 0 < f.cfg.maxTasks)
    (hl : ∀ s ∈ [k.iramBss, k.bss, k.data, ⟨k.bss.stop, 0x40000000⟩, ⟨k.iramEnd, 0x40100000 + k.iramSize⟩], Linked ram s)
    (stack : Nat) (hs : Clips ram stack 512 (f.plat.sanitize stack 512)) :
    ∃ act rs, act.start = stack ∧ Clips ram stack 512 act.size ∧
      rs = [act, whole k.iramBss, whole k.bss, whole k.data, ⟨k.bss.stop, 0x40000000 - k.bss.stop⟩] ++
        (if k.iramHeap then [⟨k.iramEnd, 0x40100000 + k.iramSize - k.iramEnd⟩] else []) ∧
      esp8266 f slots k stack = some (rs, slots) ∧ ∀ r ∈ rs, Inside ram r := by
  have e1 := between_eq (hl k.iramBss (by simp))
  have e2 := between_eq (hl k.bss (by simp))
  have e3 := between_eq (hl k.data (by simp))
  have l4 := hl ⟨k.bss.stop, 0x40000000⟩ (by simp)
  have l5 := hl ⟨k.iramEnd, 0x40100000 + k.iramSize⟩ (by simp)
  have e4 := between_eq l4
  have e5 := between_eq l5
  refine ⟨⟨stack, f.plat.sanitize stack 512⟩, _, rfl, hs, rfl, ?_, ?_⟩
  · unfold esp8266
    dsimp only
    rw [putAll_eq _ _ [] (by simp), Option.bind_some, List.nil_append, ht, if_neg (by simp), e1.1, e2.1, e3.1,
      putAll_eq _ _ _ (by split <;> simp <;> omega), sub32_eq l4.ordered l4.word,
      add32_eq l5.word, sub32_eq l5.ordered l5.word]
    simp
  · intro r hr
    rw [List.mem_append] at hr
    rcases hr with hr | hr
    · simp only [List.mem_cons, List.not_mem_nil, or_false] at hr
      rcases hr with rfl | rfl | rfl | rfl | rfl
      · exact hs.inside
      · exact e1.2
      · exact e2.2
      · exact e3.2
      · exact e4.2
    · split at hr
      · rw [List.mem_singleton] at hr
        subst hr
        exact e5.2
      · cases hr

/-- **C98 (psoc6)**: whatever tasks were created and deleted before, without recording of stack usage or in a crash
of a task, the regions fit into the array and are the active stack; in an interrupt also the stack of the task;
the variables of FreeRTOS; the control blocks and stacks of exactly the live tasks. All of them are in RAM.

Missing: crashes in interrupts with recording of stack usage, see `C98_false_psoc6`; computing only the size, see
`C98_false_psoc6_size`. -/
theorem C98_psoc6_partial (ram : List (Nat × Nat)) (f : Freertos) (h : Memory ram f) (ops : List Op)
    (hk : Kernel f.cfg.maxTasks [] ops)
    (capture : Symbols) (hl : Linked ram capture) (stack psp excReturn : Nat)
    (hu : f.cfg.stackUsage = false ∨
      (excReturn.testBit 2 = true ∧ ∀ m, Op.regions m ∈ ops → m = 2 * f.cfg.maxTasks + 2))
    (hs : Clips ram stack f.activeSize (f.plat.sanitize stack f.activeSize))
    (hp : Clips ram psp 640 (f.plat.sanitize psp 640)) :
    ∃ slots slots' V act task rs, taskRun f.cfg f.plat (List.replicate f.cfg.maxTasks 0) ops = some slots ∧
      V.Perm ((alive [] ops).filter (valid f.cfg f.plat)) ∧
      act.start = stack ∧ Clips ram stack f.activeSize act.size ∧ task.start = psp ∧ Clips ram psp 640 task.size ∧
      rs = [act] ++ (if excReturn.testBit 2 then [] else [task]) ++ [whole capture] ++ allRegions f.cfg f.plat V ∧
      psoc6 f slots capture stack psp (some excReturn) = some (rs, slots') ∧ ∀ r ∈ rs, Inside ram r := by
  have e := between_eq hl
  have hbit : decide (excReturn &&& (1 <<< 2) = 0) = !excReturn.testBit 2 := by
    cases hb : excReturn.testBit 2
    · exact decide_eq_true ((CortexM.and_testBit _ 2).2 hb)
    · exact decide_eq_false fun e => by rw [(CortexM.and_testBit _ 2).1 e] at hb; cases hb
  obtain ⟨slots, slots', V, h1, h2, h3, h5⟩ := tasks_fit h ops hk
    (f.cfg.maxTasks * 2 + 2 + 1 + 1)
    ([⟨stack, f.plat.sanitize stack f.activeSize⟩] ++
      (if excReturn.testBit 2 then [] else [⟨psp, f.plat.sanitize psp 640⟩]) ++ [whole capture])
    (by
      rcases hu with hu | ⟨hb, _⟩
      · left; refine ⟨hu, ?_⟩; split <;> simp <;> omega
      · right; rw [hb]; simp; omega)
    (hu.imp id fun hu m hm => by rw [hu.2 m hm]; omega)
  refine ⟨slots, slots', V, ⟨stack, f.plat.sanitize stack f.activeSize⟩, ⟨psp, f.plat.sanitize psp 640⟩, _, h1, h2,
    rfl, hs, rfl, hp, rfl, ?_, ?_⟩
  · unfold psoc6
    dsimp only
    rw [Option.bind_some, hbit, putAll_eq _ _ [] (by split <;> simp <;> omega), Option.bind_some, List.nil_append, e.1]
    cases hb : excReturn.testBit 2
    · rw [hb] at h5
      simpa using h5
    · rw [hb] at h5
      simpa using h5
  · intro r hr
    rw [List.mem_append, List.mem_append, List.mem_append] at hr
    rcases hr with ((hr | hr) | hr) | hr
    · rw [List.mem_singleton] at hr; subst hr; exact hs.inside
    · split at hr
      · cases hr
      · rw [List.mem_singleton] at hr; subst hr; exact hp.inside
    · rw [List.mem_singleton] at hr; subst hr; exact e.2
    · exact inside_tasks h V r hr

/-- A configuration with 1000 bytes of memory at address 1000, in which every control block starts with a pointer to
a stack behind it. -/
def regionsFreertos (usage : Bool) : Freertos where
  cfg := ⟨2, 100, 50, usage, 1900, 1910⟩
  plat := ⟨fun a n => sanitizeDa1469x 1000 2000 a n, fun a => if 1000 ≤ a ∧ a + 4 ≤ 2000 then some (a + 100) else none⟩
  activeSize := 64

/-- Two tasks at 1200 and 1400, a third one has ended. -/
def regionsOps : List Op := [.create 1200, .create 1300, .delete 1300, .create 1400]

/-- The hypotheses are met but for control blocks at the very end of RAM, and what is collected by the ports. -/
example : Kernel 2 [] regionsOps ∧
    taskRun (regionsFreertos true).cfg (regionsFreertos true).plat [0, 0] regionsOps = some [1200, 1400] ∧
    (espIdf true (regionsFreertos true) [1200, 1400]
      ⟨[⟨1000, 1010⟩, ⟨1010, 1010⟩, ⟨1010, 1020⟩, ⟨1020, 1030⟩], ⟨1030, 1100⟩, ⟨1100, 1200⟩, 1600, 2000⟩ 1990).map (·.1) =
      some [⟨1990, 10⟩, ⟨1200, 100⟩, ⟨1400, 100⟩, ⟨1300, 50⟩, ⟨1500, 50⟩, ⟨1900, 8⟩, ⟨1910, 8⟩, ⟨1000, 10⟩, ⟨1010, 0⟩,
        ⟨1010, 10⟩, ⟨1020, 10⟩, ⟨1030, 70⟩, ⟨1100, 100⟩, ⟨1600, 400⟩] ∧
    (psoc6 (regionsFreertos false) [1200, 1400] ⟨1000, 1020⟩ 1990 1450 (some 0xfffffff9)).map (·.1) =
      some [⟨1990, 10⟩, ⟨1450, 550⟩, ⟨1000, 20⟩, ⟨1200, 100⟩, ⟨1400, 100⟩, ⟨1300, 50⟩, ⟨1500, 50⟩] := by
  refine ⟨by simp [regionsOps, Kernel], by decide +kernel, by decide +kernel, by decide +kernel⟩

/-- Memory of which every byte can be read, so that all control blocks in it can be. -/
example : Memory [(1000, 2000)]
    { regionsFreertos true with plat := ⟨fun a n => sanitizeDa1469x 1000 2000 a n, fun a => some (a + 100)⟩ } := by
  refine ⟨fun a => (C98_clips a _).2.1 _ _ (by decide), fun a => (C98_clips a _).2.1 _ _ (by decide), fun _ _ => rfl,
    fun _ => ⟨fun i hi => ?_, fun i hi => ?_⟩⟩ <;>
  · have : i < 8 := hi
    exact inRam_one.2 (by simp only [regionsFreertos]; omega)

/-- **C98 (psoc6) is false for a crash in an interrupt with recording of stack usage**: with as many tasks as can be
tracked there is one entry left for the two of the bookkeeping, and the second one is written behind the
array. -/
theorem C98_false_psoc6 :
    taskRun (regionsFreertos true).cfg (regionsFreertos true).plat [0, 0] regionsOps = some [1200, 1400] ∧
    psoc6 (regionsFreertos true) [1200, 1400] ⟨1000, 1020⟩ 1990 1450 (some 0xfffffff1) = none ∧
    (psoc6 (regionsFreertos true) [1200, 1400] ⟨1000, 1020⟩ 1990 1450 (some 0xfffffffd)).isSome = true := by
  decide +kernel

/-- **C98 (psoc6) is false when only the size of a coredump is computed** (as the self test does): a null pointer is
read through, whatever the tasks. -/
theorem C98_false_psoc6_size (f : Freertos) (slots : List Nat) (capture : Symbols) (stack psp : Nat) :
    psoc6 f slots capture stack psp none = none := rfl

/-! ## Particle -/

private theorem sanitizeParticle_eq (k : PortRegions.Particle) (he : k.ramEnd < 2 ^ 32) (a n : Nat) :
    sanitizeParticle k a n = if k.ramStart ≤ a ∧ a < k.ramEnd then min n (k.ramEnd - a) else 0 := by
  unfold sanitizeParticle
  by_cases h : k.ramStart ≤ a ∧ a < k.ramEnd
  · rw [if_pos h, if_pos h, sub32_eq (by omega) he]
  · rw [if_neg h, if_neg h]

private theorem part_eq (k : PortRegions.Particle) (he : k.ramEnd < 2 ^ 32) (a n : Nat) (hn : 0 < n) :
    (if sanitizeParticle k a n ≠ 0 then [(⟨a, sanitizeParticle k a n⟩ : Region)] else []) =
      part k.ramStart k.ramEnd a n := by
  unfold part
  rw [sanitizeParticle_eq k he]
  by_cases h : k.ramStart ≤ a ∧ a < k.ramEnd
  · rw [if_pos h, if_pos h, if_pos (by omega)]
  · rw [if_neg h, if_neg h, if_neg (by simp)]

private theorem part_length (lo hi a n : Nat) : (part lo hi a n).length ≤ 1 := by
  unfold part; split <;> simp

private theorem threads_eq (k : PortRegions.Particle) (tcb : Bool) (f : Nat → List Region)
    (ts : List Nat) (hf : ∀ t ∈ ts, (f t).length ≤ 1 ∧
      ∀ room, particleTask k tcb room t = some (if room = 0 then [] else f t)) :
    ∀ out : List Region, out.length ≤ 16 →
      particleThreads k tcb ts out = some ((out ++ (ts.map f).flatten).take 16) := by
  induction ts with
  | nil => intro out ho; simp [particleThreads, List.take_of_length_le ho]
  | cons t ts ih =>
    intro out ho
    obtain ⟨h1, h2⟩ := hf t (by simp)
    rw [particleThreads, h2]
    simp only [List.map_cons, List.flatten_cons]
    by_cases hr : 16 - out.length = 0
    · rw [if_pos hr, putAll, Option.bind_some, ih (fun u hu => hf u (by simp [hu])) out ho]
      rw [List.take_append_of_le_length (by omega), List.take_append_of_le_length (by omega)]
    · rw [if_neg hr, putAll_eq 16 _ _ (by omega), Option.bind_some,
        ih (fun u hu => hf u (by simp [hu])) _ (by rw [List.length_append]; omega), List.append_assoc]

/-- **C98 (Particle, addresses)**: what is left of a region is what is in RAM from its start on. -/
theorem C98_particle_clips (k : PortRegions.Particle) (he : k.ramEnd < 2 ^ 32) (a n : Nat) :
    Clips [(k.ramStart, k.ramEnd)] a n (sanitizeParticle k a n) := by
  rw [sanitizeParticle_eq k he]
  by_cases h : k.ramStart ≤ a ∧ a < k.ramEnd
  · rw [if_pos h]
    exact clips_bank h.1 h.2 he (List.mem_singleton.2 rfl) (by rw [inRam_one]; omega) |> fun x => by
      rwa [sub32_eq (by omega) he] at x
  · rw [if_neg h]
    exact clips_out (by rw [inRam_one]; exact h)

/-- **C98 (Particle, partial)**: if the control block of every thread can be read, the regions are the active stack,
then the control blocks of all threads, then their stacks, each cut to what is in RAM and left out if nothing is, in
this order and as many as fit into the array of 16. They are in RAM. Missing: see `C98_false_particle`. -/
theorem C98_particle_partial (k : PortRegions.Particle) (he : k.ramEnd < 2 ^ 32) (ht : 0 < k.taskStack)
    (threads : List (Nat × Nat)) (hw : ∀ t ∈ threads, k.word t.1 = some t.2) (stack : Nat) :
    ∃ r l, particle k true (threads.map (·.1)) stack = some (r :: l) ∧ r.start = stack ∧
      Clips [(k.ramStart, k.ramEnd)] stack 512 r.size ∧
      l = ((threads.map fun t => part k.ramStart k.ramEnd t.1 200).flatten ++
        (threads.map fun t => part k.ramStart k.ramEnd t.2 k.taskStack).flatten).take 15 ∧
      (∀ x ∈ r :: l, Inside [(k.ramStart, k.ramEnd)] x) ∧
      particle k false (threads.map (·.1)) stack = some [r] := by
  have hc := C98_particle_clips k he stack 512
  have h1 : particleThreads k true (threads.map (·.1)) [⟨stack, sanitizeParticle k stack 512⟩] =
      some (([(⟨stack, sanitizeParticle k stack 512⟩ : Region)] ++
        (threads.map fun t => part k.ramStart k.ramEnd t.1 200).flatten).take 16) := by
    rw [threads_eq k true (fun t => part k.ramStart k.ramEnd t 200) _ ?_ _ (by simp)]
    · rw [List.map_map]; rfl
    · intro t _
      refine ⟨part_length .., fun room => ?_⟩
      unfold particleTask
      simp only [if_true]
      rw [part_eq k he t 200 (by omega)]
      split <;> rfl
  have h2 : ∀ out : List Region, out.length ≤ 16 → particleThreads k false (threads.map (·.1)) out =
      some ((out ++ (threads.map fun t => part k.ramStart k.ramEnd t.2 k.taskStack).flatten).take 16) := by
    intro out ho
    rw [threads_eq k false (fun t => part k.ramStart k.ramEnd ((k.word t).getD 0) k.taskStack) _ ?_ _ ho]
    · rw [List.map_map]
      congr 4
      refine List.map_congr_left fun t ht => ?_
      simp [Function.comp, hw t ht]
    · intro t ht'
      refine ⟨part_length .., fun room => ?_⟩
      obtain ⟨u, hu, rfl⟩ := List.mem_map.mp ht'
      unfold particleTask
      simp only [Bool.false_eq_true, if_false, hw u hu, Option.getD_some]
      rw [part_eq k he u.2 k.taskStack ht]
      split <;> rfl
  refine ⟨⟨stack, sanitizeParticle k stack 512⟩, _, ?_, rfl, hc, rfl, ?_, ?_⟩
  · unfold particle
    rw [putAll_eq 16 _ [] (by simp), Option.bind_some]
    simp only [if_true, List.nil_append]
    rw [h1, Option.bind_some, h2 _ (by simp; omega)]
    generalize (threads.map fun t => part k.ramStart k.ramEnd t.1 200).flatten = A
    generalize (threads.map fun t => part k.ramStart k.ramEnd t.2 k.taskStack).flatten = B
    congr 1
    rw [List.cons_append, List.nil_append, List.take_succ_cons, List.cons_append, List.take_succ_cons]
    congr 1
    rw [List.take_append, List.take_append, List.take_take, Nat.min_self, List.length_take]
    congr 2
    omega
  · have hp : ∀ a n, ∀ x ∈ part k.ramStart k.ramEnd a n, Inside [(k.ramStart, k.ramEnd)] x := by
      intro a n x hx
      unfold part at hx
      split at hx
      · next h =>
        rw [List.mem_singleton] at hx
        subst hx
        intro i hi
        rw [inRam_one]
        dsimp only at hi ⊢
        omega
      · cases hx
    intro x hx
    rcases List.mem_cons.mp hx with rfl | hx
    · exact hc.inside
    · have hx := List.mem_of_mem_take hx
      rw [List.mem_append, List.mem_flatten, List.mem_flatten] at hx
      rcases hx with ⟨l, hl, hx⟩ | ⟨l, hl, hx⟩ <;>
        obtain ⟨t, -, rfl⟩ := List.mem_map.mp hl <;> exact hp _ _ x hx
  · unfold particle
    rw [putAll_eq 16 _ [] (by simp), Option.bind_some]
    rfl

/-- **C98 (Particle) is false** for a thread whose control block cannot be read: it is left out of the control blocks
since it is not in RAM, but the pointer to its stack is read from it. -/
theorem C98_false_particle (k : PortRegions.Particle) (t stack : Nat) (hw : k.word t = none) :
    particle k true [t] stack = none := by
  unfold particle
  rw [putAll_eq 16 _ [] (by simp), Option.bind_some]
  simp only [if_true, List.nil_append, particleThreads, particleTask, hw]
  have : (16 - [(⟨stack, sanitizeParticle k stack 512⟩ : Region)].length = 0) = False := by simp
  rw [if_neg (by simp)]
  simp only
  split
  · rw [putAll_eq 16 _ _ (by simp), Option.bind_some, Option.bind_some]
    simp
  · rw [putAll, Option.bind_some, Option.bind_some]
    simp

/-- Two threads, one with its stack at the end of RAM, and a stack pointer outside of it. -/
example : particle ⟨1000, 3000, fun a => some (a + 790), 256⟩ true [1200, 2100] 5000 =
    some [⟨5000, 0⟩, ⟨1200, 200⟩, ⟨2100, 200⟩, ⟨1990, 256⟩, ⟨2890, 110⟩] := by decide +kernel

end Mflt.Props
