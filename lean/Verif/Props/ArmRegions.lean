import Verif.Model.ArmRegions
import Verif.Spec.ArmRegions
import Verif.Props.Coredump

/-!
# C76: A coredump of a Cortex-M has the registers and the regions of the SDK

A coredump that is not truncated has the fault registers, the system registers, the state of every interrupt and
the MPU regions as the hardware had them, and the logs, heap statistics and task watchdog channels; whatever the
hardware says about its size, no array is left.
-/

namespace Mflt.Props

open Mflt.Coredump ArmRegions Spec.Coredump Spec.ArmRegions

private theorem drop_flatMap {α : Type} (f : α → Bytes) (k : Nat) (l : List α) (hf : ∀ x, (f x).length = k) :
    ∀ i, (l.flatMap f).drop (k * i) = (l.drop i).flatMap f := by
  induction l with
  | nil => intro i; simp
  | cons x l ih =>
    intro i
    cases i with
    | zero => simp
    | succ i =>
      rw [List.flatMap_cons, List.drop_succ_cons, ← ih i, Nat.mul_add, Nat.mul_one, Nat.add_comm, ← List.drop_drop,
        List.drop_left' (hf x)]

private theorem at_flatMap {α : Type} (f : α → Bytes) (k : Nat) (l : List α) (hf : ∀ x, (f x).length = k) (i : Nat)
    (hi : i < l.length) : ((l.flatMap f).drop (k * i)).take k = f l[i] := by
  rw [drop_flatMap f k l hf, List.drop_eq_getElem_cons hi, List.flatMap_cons, List.take_left' (hf _)]

private theorem length_flatMap {α : Type} (f : α → Bytes) (k : Nat) (l : List α) (hf : ∀ x, (f x).length = k) :
    (l.flatMap f).length = k * l.length := by
  induction l with
  | nil => simp
  | cons x l ih => rw [List.flatMap_cons, List.length_append, hf, ih, List.length_cons, Nat.mul_add]; omega

private theorem words_length (hw : Hw) (a n : Nat) : (wordsAt hw a n).length = 4 * n := by
  unfold wordsAt
  rw [length_flatMap _ 4 _ (fun _ => rfl), List.length_range]

private theorem words_at {hw : Hw} {a n i : Nat} (hi : i < n) : ((wordsAt hw a n).drop (4 * i)).take 4 = le32 (hw.word (a + 4 * i)) := by
  unfold wordsAt
  rw [at_flatMap _ 4 _ (fun _ => rfl) i (by simpa using hi)]
  simp

/-- The words of registers. -/
private def Words32 (hw : Hw) : Prop := ∀ a, hw.word a < 2 ^ 32

private theorem hasWord_words {hw : Hw} (h32 : Words32 hw) {blocks : List Block} {a n i : Nat} (hi : i < n)
    (hb : (⟨1, a, wordsAt hw a n⟩ : Block) ∈ blocks) : HasWord blocks (a + 4 * i) (hw.word (a + 4 * i)) := by
  refine ⟨_, hb, rfl, Nat.le_add_right .., ?_, ?_⟩
  · simp only [words_length]; omega
  · simp only [Nat.add_sub_cancel_left]
    rw [words_at hi, number_le32 (h32 _)]

private theorem words_ne {hw : Hw} {a n : Nat} (hn : 0 < n) : wordsAt hw a n ≠ [] := by
  intro h
  have := words_length hw a n
  rw [h] at this
  simp at this
  omega

/-- A region of registers is a block. -/
private theorem mem_region {hw : Hw} {a n : Nat} {rs : List Region} (hn : 0 < n)
    (h : Region.wordAccessOnly a (some (wordsAt hw a n)) ∈ rs) : (⟨1, a, wordsAt hw a n⟩ : Block) ∈ rs.flatMap regionBlock := by
  refine List.mem_flatMap.2 ⟨_, h, ?_⟩
  simp [regionBlock, blockOf, words_ne hn]

/-- What a saved coredump that is not truncated has. -/
private theorem saved {e : UInt8} {mem : Bytes} {p : Plat} {info : SaveInfo} {n : Nat}
    (hp : ∀ i, p.answer i = true) (hlen : mem.length < 2 ^ 32) (hok : AddressesFit info)
    (h : (save p mem info).1 = some n) :
    ∃ d, parse ((save p mem info).2.foldl (apply e) mem) = some d ∧
      (d.truncated = false → ∀ b ∈ regionBlocks info, b ∈ d.blocks) := by
  obtain ⟨d, h1, -, -, got, h2, h3⟩ := C42_parses_partial (e := e) hp hlen hok h
  refine ⟨d, h1, fun ht b hb => ?_⟩
  rcases h3 with h3 | ⟨h3, -⟩
  · have : b ∈ content d.blocks := by rw [h2, h3]; exact List.mem_append_right _ hb
    exact (List.mem_filter.1 this).1
  · rw [ht] at h3; cases h3

private theorem arch_mem {info : SaveInfo} {b : Block} (h : b ∈ info.archRegions.flatMap regionBlock) : b ∈ regionBlocks info := by
  unfold regionBlocks
  rw [List.append_assoc, List.flatMap_append]
  exact List.mem_append_left _ h

private theorem arch_sub {c : Cfg} {hw : Hw} {cached : Cached} {old : MpuRegs} {m : Nat} {rs : List Region}
    (h : archRegions c hw cached old m = some rs) : ∀ r ∈ faultRegion c hw cached :: interruptRegions c hw, r ∈ rs := by
  unfold archRegions at h
  split at h
  · cases h1 : collectMpu hw old with
    | none => simp [h1] at h
    | some x =>
      simp only [h1, Option.map_some] at h
      cases h
      intro r hr
      exact List.mem_append_left _ hr
  · cases h
    exact fun r hr => hr

/-- **C76 (fault registers).** A coredump that is saved and not truncated has the fault registers as they are when
it is saved. -/
theorem C76_fault_registers {e : UInt8} {mem : Bytes} {p : Plat} {info : SaveInfo} {n : Nat} {c : Cfg} {hw : Hw}
    {cached : Cached} {old : MpuRegs} {mpuAddr : Nat}
    (hp : ∀ i, p.answer i = true) (hlen : mem.length < 2 ^ 32) (hok : AddressesFit info)
    (h : (save p mem info).1 = some n) (hw32 : ∀ a, hw.word a < 2 ^ 32)
    (ha : archRegions c hw cached old mpuAddr = some info.archRegions) (hc : c.fault = true ∧ c.cache = false) :
    ∃ d, parse ((save p mem info).2.foldl (apply e) mem) = some d ∧
      (d.truncated = false → ∀ r ∈ faultRegisters, HasWord d.blocks r (hw.word r)) := by
  obtain ⟨d, h1, h2⟩ := saved (e := e) hp hlen hok h
  refine ⟨d, h1, fun ht r hr => ?_⟩
  have hb : (⟨1, 0xE000ED24, wordsAt hw 0xE000ED24 7⟩ : Block) ∈ d.blocks := by
    refine h2 ht _ (arch_mem (mem_region (by omega) (arch_sub ha _ ?_)))
    simp [faultRegion, hc.1, hc.2]
  simp only [faultRegisters, List.mem_cons, List.not_mem_nil, or_false] at hr
  rcases hr with rfl | rfl | rfl | rfl | rfl | rfl | rfl
  · exact hasWord_words hw32 (i := 0) (by omega) hb
  · exact hasWord_words hw32 (i := 1) (by omega) hb
  · exact hasWord_words hw32 (i := 2) (by omega) hb
  · exact hasWord_words hw32 (i := 3) (by omega) hb
  · exact hasWord_words hw32 (i := 4) (by omega) hb
  · exact hasWord_words hw32 (i := 5) (by omega) hb
  · exact hasWord_words hw32 (i := 6) (by omega) hb

/-- **C76 (cached fault registers).** With MEMFAULT_CACHE_FAULT_REGS the coredump has the fault registers as they
were when `memfault_coredump_cache_fault_regs` was called (`hw0`), whatever they are when it is saved (`hw`). -/
theorem C76_cached_registers {e : UInt8} {mem : Bytes} {p : Plat} {info : SaveInfo} {n : Nat} {c : Cfg} {hw hw0 : Hw}
    {old : MpuRegs} {mpuAddr : Nat}
    (hp : ∀ i, p.answer i = true) (hlen : mem.length < 2 ^ 32) (hok : AddressesFit info)
    (h : (save p mem info).1 = some n) (hw32 : ∀ a, hw0.word a < 2 ^ 32)
    (ha : archRegions c hw (cacheFaultRegs hw0) old mpuAddr = some info.archRegions)
    (hc : c.fault = true ∧ c.cache = true) :
    ∃ d, parse ((save p mem info).2.foldl (apply e) mem) = some d ∧
      (d.truncated = false → ∀ r ∈ faultRegisters, HasWord d.blocks r (hw0.word r)) := by
  obtain ⟨d, h1, h2⟩ := saved (e := e) hp hlen hok h
  refine ⟨d, h1, fun ht r hr => ?_⟩
  have hb : (⟨1, 0xE000ED24, wordsAt hw0 0xE000ED24 7⟩ : Block) ∈ d.blocks := by
    refine h2 ht _ (arch_mem (List.mem_flatMap.2 ⟨_, arch_sub ha _ (List.mem_cons_self ..), ?_⟩))
    have hd : wordsAt hw0 0xE000ED24 7 = ((cacheFaultRegs hw0).blk.flatMap le32).take (cacheFaultRegs hw0).size := by
      rw [List.take_of_length_le (by
        rw [length_flatMap _ 4 _ (fun _ => rfl)]; exact Nat.le_refl _)]
      rfl
    rw [hd]
    simp only [faultRegion, hc.1, hc.2, regionBlock]
    rw [← hd]
    simp [blockOf, words_ne, cacheFaultRegs]
  simp only [faultRegisters, List.mem_cons, List.not_mem_nil, or_false] at hr
  rcases hr with rfl | rfl | rfl | rfl | rfl | rfl | rfl
  · exact hasWord_words hw32 (i := 0) (by omega) hb
  · exact hasWord_words hw32 (i := 1) (by omega) hb
  · exact hasWord_words hw32 (i := 2) (by omega) hb
  · exact hasWord_words hw32 (i := 3) (by omega) hb
  · exact hasWord_words hw32 (i := 4) (by omega) hb
  · exact hasWord_words hw32 (i := 5) (by omega) hb
  · exact hasWord_words hw32 (i := 6) (by omega) hb

/-- **C76 (interrupts).** With MEMFAULT_COLLECT_INTERRUPT_STATE it has the system registers, and for each of the
interrupts to be collected the words with its enabled, pending and active bit, and with its priority. -/
theorem C76_interrupts {e : UInt8} {mem : Bytes} {p : Plat} {info : SaveInfo} {n : Nat} {c : Cfg} {hw : Hw}
    {cached : Cached} {old : MpuRegs} {mpuAddr : Nat} (hcok : c.ok)
    (hp : ∀ i, p.answer i = true) (hlen : mem.length < 2 ^ 32) (hok : AddressesFit info)
    (h : (save p mem info).1 = some n) (hw32 : ∀ a, hw.word a < 2 ^ 32)
    (ha : archRegions c hw cached old mpuAddr = some info.archRegions) (hc : c.interrupts = true) :
    ∃ d, parse ((save p mem info).2.foldl (apply e) mem) = some d ∧ (d.truncated = false →
      (∀ r ∈ systemRegisters, HasWord d.blocks r (hw.word r)) ∧
      ∀ i, i < c.nvic →
        HasWord d.blocks (0xE000E100 + 4 * (i / 32)) (hw.word (0xE000E100 + 4 * (i / 32))) ∧
        HasWord d.blocks (0xE000E200 + 4 * (i / 32)) (hw.word (0xE000E200 + 4 * (i / 32))) ∧
        HasWord d.blocks (0xE000E300 + 4 * (i / 32)) (hw.word (0xE000E300 + 4 * (i / 32))) ∧
        HasWord d.blocks (0xE000E400 + 4 * (i / 4)) (hw.word (0xE000E400 + 4 * (i / 4)))) := by
  obtain ⟨d, h1, h2⟩ := saved (e := e) hp hlen hok h
  refine ⟨d, h1, fun ht => ?_⟩
  have hb : ∀ a k, 0 < k → Region.wordAccessOnly a (some (wordsAt hw a k)) ∈ interruptRegions c hw →
      (⟨1, a, wordsAt hw a k⟩ : Block) ∈ d.blocks := by
    intro a k hk hr
    exact h2 ht _ (arch_mem (mem_region hk (arch_sub ha _ (List.mem_cons_of_mem _ hr))))
  have hi : interruptRegions c hw = _ := if_pos hc
  refine ⟨fun r hr => ?_, fun i hin => ?_⟩
  · have b1 := hb 0xE000ED18 3 (by omega) (by rw [hi]; simp)
    have b2 := hb 0xE000E004 4 (by omega) (by rw [hi]; simp)
    have b3 := hb 0xE000ED04 2 (by omega) (by rw [hi]; simp)
    have b4 := hb 0xE000EDFC 1 (by omega) (by rw [hi]; simp)
    simp only [systemRegisters, List.mem_cons, List.not_mem_nil, or_false] at hr
    rcases hr with rfl | rfl | rfl | rfl | rfl | rfl | rfl | rfl | rfl
    · exact hasWord_words hw32 (i := 0) (by omega) b1
    · exact hasWord_words hw32 (i := 1) (by omega) b1
    · exact hasWord_words hw32 (i := 2) (by omega) b1
    · exact hasWord_words hw32 (i := 0) (by omega) b2
    · exact hasWord_words hw32 (i := 1) (by omega) b2
    · exact hasWord_words hw32 (i := 3) (by omega) b2
    · exact hasWord_words hw32 (i := 0) (by omega) b3
    · exact hasWord_words hw32 (i := 1) (by omega) b3
    · exact hasWord_words hw32 (i := 0) (by omega) b4
  · obtain ⟨hn, _, _⟩ := hcok
    refine ⟨hasWord_words hw32 (n := (c.nvic + 31) / 32) (by omega) (hb _ _ (by omega) (by rw [hi]; simp)),
      hasWord_words hw32 (n := (c.nvic + 31) / 32) (by omega) (hb _ _ (by omega) (by rw [hi]; simp)),
      hasWord_words hw32 (n := (c.nvic + 31) / 32) (by omega) (hb _ _ (by omega) (by rw [hi]; simp)),
      hasWord_words hw32 (n := c.nvic / 4) (by omega) (hb _ _ (by omega) (by rw [hi]; simp))⟩

/-! ## The MPU -/

private theorem mpuLoop_eq (hw : Hw) (todo : Nat) : ∀ (region : Nat) (pair : List (Nat × Nat)), region + todo ≤ pair.length →
    ∃ pair', mpuLoop hw todo region pair = some pair' ∧ pair'.length = pair.length ∧
      (∀ i, i < region → pair'[i]? = pair[i]?) ∧
      ∀ i, region ≤ i → i < region + todo → pair'[i]? = some (hw.mpu i) := by
  induction todo with
  | zero => exact fun region pair _ => ⟨pair, rfl, rfl, fun _ _ => rfl, fun i h1 h2 => by omega⟩
  | succ k ih =>
    intro region pair h
    have hr : (hw.read region 0xE000ED9C, hw.read region 0xE000EDA0) = hw.mpu region := rfl
    unfold mpuLoop
    rw [if_pos (by omega), hr]
    obtain ⟨q, h1, h2, h3, h4⟩ := ih (region + 1) (pair.set region (hw.mpu region)) (by rw [List.length_set]; omega)
    refine ⟨q, h1, by rw [h2, List.length_set], fun i hi => ?_, fun i hi1 hi2 => ?_⟩
    · rw [h3 i (by omega), List.getElem?_set_ne (by omega)]
    · by_cases he : i = region
      · subst he
        rw [h3 i (by omega), List.getElem?_set_self (by omega)]
      · exact h4 i (by omega) (by omega)

/-- **C76 (MPU).** Whatever number of regions the MPU says it has, its registers are collected without leaving the
array. A coredump that is saved and not truncated has a block for the MPU of a fixed size: TYPE, and unless this is
zero CTRL and RBAR and RASR of the regions, of as many as there are and as fit. -/
theorem C76_mpu {c : Cfg} {hw : Hw} {cached : Cached} {old : MpuRegs} {mpuAddr : Nat}
    (hold : old.pair.length = c.mpuRegions) (hc : c.mpu = true)
    (hw32 : ∀ a, hw.word a < 2 ^ 32) (hm32 : ∀ i, (hw.mpu i).1 < 2 ^ 32 ∧ (hw.mpu i).2 < 2 ^ 32) :
    ∃ rs, archRegions c hw cached old mpuAddr = some rs ∧
      ∀ {e : UInt8} {mem : Bytes} {p : Plat} {info : SaveInfo} {n : Nat}, info.archRegions = rs →
        (∀ i, p.answer i = true) → mem.length < 2 ^ 32 → AddressesFit info → (save p mem info).1 = some n →
        ∃ d, parse ((save p mem info).2.foldl (apply e) mem) = some d ∧ (d.truncated = false →
          ∃ b ∈ d.blocks, b.type = 9 ∧ b.address = mpuAddr ∧ b.payload.length = 8 + 8 * c.mpuRegions ∧
            number (b.payload.take 4) = hw.word 0xE000ED90 ∧
            (hw.word 0xE000ED90 ≠ 0 → number ((b.payload.drop 4).take 4) = hw.word 0xE000ED94 ∧
              ∀ i, i < hw.word 0xE000ED90 / 256 % 256 → i < c.mpuRegions →
                number ((b.payload.drop (8 + 8 * i)).take 4) = (hw.mpu i).1 ∧
                number ((b.payload.drop (12 + 8 * i)).take 4) = (hw.mpu i).2)) := by
  have hcol : ∃ r, collectMpu hw old = some r ∧ r.type = hw.word 0xE000ED90 ∧ r.pair.length = c.mpuRegions ∧
      (hw.word 0xE000ED90 ≠ 0 → r.ctrl = hw.word 0xE000ED94 ∧
        ∀ i, i < hw.word 0xE000ED90 / 256 % 256 → i < c.mpuRegions → r.pair[i]? = some (hw.mpu i)) := by
    unfold collectMpu
    by_cases h0 : hw.word 0xE000ED90 = 0
    · rw [if_neg (fun h => h h0)]
      exact ⟨_, rfl, rfl, hold, fun h => absurd h0 h⟩
    · rw [if_pos h0]
      obtain ⟨q, h1, h2, -, h4⟩ := mpuLoop_eq hw (min (hw.word 0xE000ED90 / 256 % 256) old.pair.length) 0 old.pair (by omega)
      simp only [h1, Option.map_some]
      refine ⟨_, rfl, rfl, by simp [h2, hold], fun _ => ⟨rfl, fun i hi1 hi2 => h4 i (by omega) (by omega)⟩⟩
  obtain ⟨r, h1, h2, h3, h4⟩ := hcol
  refine ⟨faultRegion c hw cached :: interruptRegions c hw ++ [.mpuUnrolled mpuAddr (some r.bytes)],
    by simp [archRegions, hc, h1], ?_⟩
  intro e mem p info n hi hp hlen hok hsave
  obtain ⟨d, h5, h6⟩ := saved (e := e) hp hlen hok hsave
  refine ⟨d, h5, fun ht => ⟨⟨9, mpuAddr, r.bytes⟩, ?_, rfl, rfl, ?_, ?_, fun hne => ⟨?_, fun i hi1 hi2 => ?_⟩⟩⟩
  · refine h6 ht _ (arch_mem (List.mem_flatMap.2 ⟨.mpuUnrolled mpuAddr (some r.bytes), ?_, ?_⟩))
    · rw [hi]; simp
    · have : r.bytes ≠ [] := by simp [MpuRegs.bytes, le32]
      simp [regionBlock, blockOf, this]
  · show r.bytes.length = _
    unfold MpuRegs.bytes
    rw [List.length_append, length_flatMap _ 8 _ (fun _ => rfl), h3]
    rfl
  · show number (r.bytes.take 4) = _
    unfold MpuRegs.bytes
    rw [List.append_assoc, List.take_left' (length_le32 _), number_le32 (by rw [h2]; exact hw32 _), h2]
  · show number ((r.bytes.drop 4).take 4) = _
    unfold MpuRegs.bytes
    rw [List.append_assoc, List.drop_left' (length_le32 _), List.take_left' (length_le32 _), (h4 hne).1, number_le32 (hw32 _)]
  · obtain ⟨hlt, hget⟩ := List.getElem?_eq_some_iff.1 ((h4 hne).2 i hi1 hi2)
    have hd : ∀ k, r.bytes.drop (8 + k) = (r.pair.flatMap fun p => le32 p.1 ++ le32 p.2).drop k := by
      intro k
      unfold MpuRegs.bytes
      rw [← List.drop_drop, List.drop_left' (show (le32 r.type ++ le32 r.ctrl).length = 8 from rfl)]
    have h8 := at_flatMap (fun p : Nat × Nat => le32 p.1 ++ le32 p.2) 8 r.pair (fun _ => rfl) i hlt
    rw [hget] at h8
    constructor
    · show number ((r.bytes.drop (8 + 8 * i)).take 4) = _
      rw [hd, show 4 = min 4 8 by rfl, ← List.take_take, h8, List.take_left' (length_le32 _), number_le32 (hm32 i).1]
    · show number ((r.bytes.drop (12 + 8 * i)).take 4) = _
      rw [show 12 + 8 * i = 8 + (8 * i + 4) by omega, hd, ← List.drop_drop]
      have h9 : (((r.pair.flatMap fun p => le32 p.1 ++ le32 p.2).drop (8 * i)).drop 4).take 4 =
          (((r.pair.flatMap fun p => le32 p.1 ++ le32 p.2).drop (8 * i)).take 8).drop 4 := by
        rw [List.drop_take]
      rw [h9, h8, List.drop_left' (length_le32 _), number_le32 (hm32 i).2]

/-! ## The SDK -/

/-- **C76 (SDK).** In every configuration and state the regions of the SDK fit the array, and they are: the logger and
its buffer if these are intact, both heap statistics unless there are none, the task channels. -/
theorem C76_sdk (c : SdkCfg) (s : Sdk) :
    sdkRegions c s = some ((
      (if c.logs then (match s.log with | some (x, y) => [x, y] | none => []) else []) ++
      (if c.heap && !s.heapEmpty then [s.heap.1, s.heap.2] else []) ++
      (if c.task then [s.task] else [])).map fun r => .memory r.1 (some r.2)) := by
  obtain ⟨logs, heap, task⟩ := c
  obtain ⟨log, he, hp, tk⟩ := s
  cases logs <;> cases heap <;> cases task <;> cases he <;> rcases log with _ | ⟨x, y⟩ <;> rfl

/-! ## Without fault registers -/

private theorem parseBlocks_le (fuel : Nat) : ∀ (bs : Bytes) (blocks : List Block), parseBlocks fuel bs = some blocks →
    ∀ b ∈ blocks, b.payload.length ≤ bs.length := by
  induction fuel with
  | zero => intro bs blocks h; cases h
  | succ k ih =>
    intro bs blocks h b hb
    unfold parseBlocks at h
    split at h
    · cases h; cases hb
    · split at h
      · cases h
      · dsimp only at h
        split at h
        · cases h
        · cases h1 : parseBlocks k (bs.drop (12 + number ((bs.drop 8).take 4))) with
          | none => simp [h1] at h
          | some rest =>
            simp only [h1, Option.map_some] at h
            cases h
            rcases List.mem_cons.1 hb with rfl | hb
            · simp only [List.length_take, List.length_drop]; omega
            · have := ih _ _ h1 b hb
              rw [List.length_drop] at this
              omega

private theorem parse_le {mem : Bytes} {d : Dump} (h : parse mem = some d) : ∀ b ∈ d.blocks, b.payload.length ≤ d.totalSize := by
  unfold parse at h
  dsimp only at h
  split at h
  · cases h1 : parseBlocks mem.length ((mem.drop 12).take (number ((mem.drop 8).take 4) - 28)) with
    | none => simp [h1] at h
    | some blocks =>
      simp only [h1, Option.map_some] at h
      cases h
      intro b hb
      have := parseBlocks_le _ _ _ h1 b hb
      rw [List.length_take] at this
      show b.payload.length ≤ number ((mem.drop 8).take 4)
      omega
  · cases h

/-- **C76 is false without MEMFAULT_COLLECT_FAULT_REGS.** Address 0 is then taken for a cached block. There is the vector
table: with a stack pointer and a handler for NMIs behind the size of the storage, as in any image that is linked to
the usual addresses, a coredump is always truncated and has none of the other regions, whatever these are. -/
theorem C76_false_no_fault_regs {e : UInt8} {mem : Bytes} {p : Plat} {info : SaveInfo} {n : Nat} {c : Cfg} {hw : Hw}
    {cached : Cached} {old : MpuRegs} {mpuAddr : Nat}
    (hp : ∀ i, p.answer i = true) (hlen : mem.length < 2 ^ 32) (hok : AddressesFit info)
    (h : (save p mem info).1 = some n)
    (ha : archRegions c hw cached old mpuAddr = some info.archRegions) (hc : c.fault = false)
    (hsp : hw.word 0 ≠ 0) (hnmi : mem.length < hw.word 8) :
    ∃ d, parse ((save p mem info).2.foldl (apply e) mem) = some d ∧ d.truncated = true ∧
      ∃ got, content d.blocks = infoBlocks info ++ got ∧ (got = [] ∨ ∃ b, got = [b] ∧ b.address = hw.word 4) := by
  obtain ⟨d, h1, h2, h3, got, h4, h5⟩ := C42_parses_partial (e := e) hp hlen hok h
  have hml : (memory hw 12 (hw.word 8)).length = hw.word 8 := by
    unfold memory
    rw [List.length_take, words_length]
    omega
  have hhead : ∃ rest, regionBlocks info = (⟨1, hw.word 4, memory hw 12 (hw.word 8)⟩ : Block) :: rest := by
    have : ∃ rs, info.archRegions = faultRegion c hw cached :: rs := by
      unfold archRegions at ha
      split at ha
      · cases h6 : collectMpu hw old with
        | none => simp [h6] at ha
        | some x =>
          simp only [h6, Option.map_some, List.cons_append] at ha
          injection ha with ha
          exact ⟨_, ha.symm⟩
      · injection ha with ha
        exact ⟨_, ha.symm⟩
    obtain ⟨rs, hrs⟩ := this
    have hne : memory hw 12 (hw.word 8) ≠ [] := fun h => by rw [h] at hml; simp at hml; omega
    unfold regionBlocks
    rw [hrs]
    simp only [List.cons_append, List.flatMap_cons]
    refine ⟨_, by simp [hsp, faultRegion, hc, regionBlock, blockOf, hne]; rfl⟩
  obtain ⟨rest, hrest⟩ := hhead
  have hnot : (⟨1, hw.word 4, memory hw 12 (hw.word 8)⟩ : Block) ∉ got := by
    intro hin
    have hb : (⟨1, hw.word 4, memory hw 12 (hw.word 8)⟩ : Block) ∈ content d.blocks := by
      rw [h4]; exact List.mem_append_right _ hin
    have := parse_le h1 _ (List.mem_filter.1 hb).1
    simp only [hml] at this
    omega
  rcases h5 with h5 | ⟨ht, done, b, rest', hfull, hgot⟩
  · rw [h5, hrest] at hnot
    exact absurd (List.mem_cons_self ..) hnot
  · refine ⟨d, h1, ht, got, h4, ?_⟩
    cases done with
    | nil =>
      rw [hrest] at hfull
      simp only [List.nil_append, List.cons.injEq] at hfull
      rcases hgot with hgot | ⟨k, _, _, hgot⟩
      · exact .inl hgot
      · exact .inr ⟨_, hgot, by rw [← hfull.1]⟩
    | cons x done =>
      rw [hrest, List.cons_append] at hfull
      injection hfull with hx _
      rcases hgot with hgot | ⟨k, _, _, hgot⟩
      · rw [hgot, ← hx] at hnot
        exact absurd (List.mem_cons_self ..) hnot
      · rw [hgot, ← hx] at hnot
        exact absurd (List.mem_cons_self ..) hnot

/-! ## Examples -/

/-- Registers whose value is the lower half of their address, with an MPU of 4 regions. -/
private def exHw : Hw :=
  ⟨fun a => if a = 0xE000ED90 then 0x400 else a % 65536, fun i => (i * 32, 0x100 + i)⟩

/-- All registers, 32 interrupts and room for 2 MPU regions. -/
private def exCfg : Cfg := ⟨true, false, true, true, 32, 2⟩

/-- What is saved with them. -/
private def exArm (c : Cfg) (cached : Cached) : SaveInfo :=
  { coreInfo with archRegions := (archRegions c exHw cached (noMpu c) 0x20001000).getD [] }

-- all hypotheses are met, and the coredump is complete; the MPU's block has two of the regions
example : exCfg.ok ∧ (archRegions exCfg exHw noCache (noMpu exCfg) 0x20001000).isSome = true ∧
    (save coreWorks (List.replicate 600 0) (exArm exCfg noCache)).1 = some 416 ∧
    (parse ((save coreWorks (List.replicate 600 0) (exArm exCfg noCache)).2.foldl (apply 0xff) (List.replicate 600 0))).map
      (fun d => (d.truncated, (d.blocks.filter (·.type = 9)).map (·.payload))) =
      some (false, [[0, 4, 0, 0, 0x94, 0xED, 0, 0, 0, 0, 0, 0, 0, 1, 0, 0, 32, 0, 0, 0, 1, 1, 0, 0]]) := by
  refine ⟨by unfold Cfg.ok; decide, by decide +kernel, by decide +kernel, by decide +kernel⟩

-- with cached registers
example : (save coreWorks (List.replicate 600 0) (exArm { exCfg with cache := true } (cacheFaultRegs exHw))).1 = some 416 ∧
    (save coreWorks (List.replicate 600 0) (exArm { exCfg with cache := true } noCache)).1 = some 376 := by
  decide +kernel

-- logs, heap statistics and task channels at the same time
example : (sdkRegions ⟨true, true, true⟩ ⟨some ((1, [1]), (2, [2])), false, ((3, [3]), (4, [4])), (5, [5])⟩) =
    some [.memory 1 (some [1]), .memory 2 (some [2]), .memory 3 (some [3]), .memory 4 (some [4]), .memory 5 (some [5])] := rfl

-- `C76_false_no_fault_regs`: a storage of 160 bytes, the vector table says 4, 8
example : let hw : Hw := ⟨fun a => if a = 0 then 0x20010000 else if a = 4 then 0x8000101 else if a = 8 then 500 else a, fun _ => (0, 0)⟩
    let info := { coreInfo with archRegions := (archRegions ⟨false, false, false, false, 32, 8⟩ hw noCache (noMpu exCfg) 0).getD [] }
    hw.word 0 ≠ 0 ∧ 160 < hw.word 8 ∧ (save coreWorks (List.replicate 160 0) info).1 = some 160 := by
  decide +kernel

end Mflt.Props
