import Verif.Lemmas.CoredumpSize

/-!
# Coredumps: C41, C42, C43
-/

namespace Mflt.Props

open Spec.Coredump Coredump

/-! ## C41 -/

/-- What `save` asks the storage for. -/
theorem coredump_ops (p : Plat) (mem : Bytes) (info : SaveInfo) :
    (save p mem info = (none, [])) ∨ (save p mem info = (none, [.erase mem.length]) ∧ 12 ≤ mem.length) ∨
    (12 ≤ mem.length ∧ p.answer 0 = true ∧ ∃ ws, (∀ w ∈ ws, Safe mem.length w) ∧
      (save p mem info = (none, .erase mem.length :: ws) ∨
       ∃ n r, save p mem info = (r, .erase mem.length :: ws ++ [.write 0 (header n)]) ∧ 28 ≤ n ∧
        n ≤ mem.length ∧ (r = some n ∧ p.answer (ws.length + 1) = true ∨ r = none))) := by
  unfold save
  split
  · left; rfl
  split
  · left; rfl
  unfold readHeader
  by_cases h0 : mem.length = 0
  · left; simp [h0]
  rw [if_neg h0]
  by_cases h12 : p.readOk && decide (12 ≤ mem.length)
  · rw [if_pos h12]
    have h12' : 12 ≤ mem.length := by
      simp only [Bool.and_eq_true, decide_eq_true_eq] at h12; exact h12.2
    dsimp only
    split
    · left; rfl
    split
    · right; left; exact ⟨rfl, h12'⟩
    · rename_i ha
      right; right
      refine ⟨h12', by simpa using ha, ?_⟩
      obtain ⟨ws, hws, h⟩ := writeSections_ops (p := p) (size := mem.length) info
      refine ⟨ws, hws, ?_⟩
      rcases h with ⟨h1, h2⟩ | ⟨n, hn, h2, h28, h3⟩
      · left; rw [h1, h2]
      · right; exact ⟨n, _, by rw [h2], h28, hn, h3⟩
  · rw [if_neg h12]; left; rfl

/-- **C41**: A save may stop at any of its storage operations, after any part `j` of that operation, and
earlier operations that failed may have done any part of what they were asked to: unless the save had
reached the last of its operations, the write of the header at offset 0, and at least four bytes of it
were written, the storage is not reported to hold a coredump. `e` is what erased bytes read as.

Missing: `C41_false_torn_header`. -/
theorem C41_crash_partial {e : UInt8} (he : e ∉ [0x43, 0x4f, 0x52, 0x45]) {mem : Bytes}
    (hold : hasValid true mem = none) (p : Plat) (info : SaveInfo) (part : Nat → Nat) (k j : Nat) (op : Op)
    (hk : (save p mem info).2[k]? = some op) (hj : ∀ d, op = .write 0 d → j < 4) :
    hasValid true ((((torn p.answer part 0 (save p mem info).2).take k) ++ [cut j op]).foldl (apply e) mem) =
      none := by
  have he : Plain e := by
    simp only [List.mem_cons, List.not_mem_nil, or_false, not_or] at he
    exact he
  have hm : mem.length < 12 ∨ ¬ Magic mem := (hasValid_none_iff mem).mp hold
  rw [hasValid_none_iff]
  rcases coredump_ops p mem info with h | ⟨h, h12⟩ | ⟨h12, ha, ws, hws, h⟩
  · rw [h] at hk; simp at hk
  · rw [h] at hk ⊢
    right
    cases k with
    | zero =>
      simp only [List.getElem?_cons_zero, Option.some.injEq] at hk
      subst hk
      simp only [List.take_zero, List.nil_append, List.foldl_cons, List.foldl_nil]
      exact cut_erase_magic he (by rcases hm with h | h; · omega
                                   exact h) j
    | succ k => simp at hk
  · have hmm : ¬ Magic mem := by
      rcases hm with h | h
      · omega
      · exact h
    right
    -- all operations but the header's are safe
    have key : ∀ k, k ≤ ws.length → ∀ op', Safe mem.length op' →
        ¬ Magic ((((torn p.answer part 0 (Op.erase mem.length :: ws)).take (k + 1)) ++ [op']).foldl
          (apply e) mem) := by
      intro k _ op' hs
      simp only [torn, ha, if_true, List.take_succ_cons, List.cons_append]
      refine not_magic_of_erased he (erased_then_safe ?_).2
      intro w hw
      rcases List.mem_append.mp hw with hw | hw
      · exact torn_safe ws _ hws w (List.mem_of_mem_take hw)
      · rw [List.mem_singleton.mp hw]; exact hs
    rcases h with h | ⟨n, r, h, h28, hn, -⟩
    · rw [h] at hk ⊢
      cases k with
      | zero =>
        simp only [List.getElem?_cons_zero, Option.some.injEq] at hk
        subst hk
        simp only [List.take_zero, List.nil_append, List.foldl_cons, List.foldl_nil]
        exact cut_erase_magic he hmm j
      | succ k =>
        simp only [List.getElem?_cons_succ] at hk
        obtain ⟨hlt, hmem⟩ := List.getElem?_eq_some_iff.mp hk
        exact key k (by omega) _ (cut_safe (hws _ (by rw [← hmem]; exact List.getElem_mem hlt)))
    · rw [h] at hk ⊢
      cases k with
      | zero =>
        simp only [List.cons_append, List.getElem?_cons_zero, Option.some.injEq] at hk
        subst hk
        simp only [List.take_zero, List.nil_append, List.foldl_cons, List.foldl_nil]
        exact cut_erase_magic he hmm j
      | succ k =>
        simp only [List.cons_append, List.getElem?_cons_succ] at hk
        dsimp only
        rw [torn_append]
        by_cases hkl : k < ws.length
        · rw [List.getElem?_append_left hkl] at hk
          obtain ⟨hlt, hmem⟩ := List.getElem?_eq_some_iff.mp hk
          rw [List.take_append_of_le_length (by rw [torn_length]; simp only [List.length_cons]; omega)]
          exact key k (by omega) _ (cut_safe (hws _ (by rw [← hmem]; exact List.getElem_mem hlt)))
        · rw [List.getElem?_append_right (by omega)] at hk
          have hk0 : k = ws.length := by
            have := (List.getElem?_eq_some_iff.mp hk).1
            simp only [List.length_cons, List.length_nil] at this; omega
          subst hk0
          simp only [Nat.sub_self, List.getElem?_cons_zero, Option.some.injEq] at hk
          subst hk
          have hj := hj _ rfl
          rw [List.take_append_of_le_length (by rw [torn_length]; simp),
            List.take_of_length_le (by rw [torn_length]; simp), List.foldl_append]
          simp only [torn, ha, if_true, List.foldl_nil]
          have hes := erased_then_safe (e := e) (torn_safe (answer := p.answer) (part := part) ws (0 + 1) hws)
          rw [List.foldl_cons (f := apply e) (b := _) (a := cut j _)]
          refine torn_header he (by rw [hes.1]; exact h12) ?_ hj
          rw [hes.2, List.take_replicate]
          congr 1; omega

/-- **C41**: a save that reports success leaves a storage that holds a coredump of the reported size. -/
theorem C41_complete {e : UInt8} {mem : Bytes} (hlen : mem.length < 2 ^ 32) {p : Plat} {info : SaveInfo}
    (part : Nat → Nat) {n : Nat} (h : (save p mem info).1 = some n) :
    hasValid true ((torn p.answer part 0 (save p mem info).2).foldl (apply e) mem) = some n := by
  rcases coredump_ops p mem info with h' | ⟨h', h12⟩ | ⟨h12, ha, ws, hws, h' | ⟨n', r, h', h28, hn, hr⟩⟩
  · rw [h'] at h; cases h
  · rw [h'] at h; cases h
  · rw [h'] at h; cases h
  · rw [h'] at h ⊢
    simp only at h
    rcases hr with ⟨hr, hans⟩ | hr
    · rw [hr] at h
      injection h with h
      subst h
      dsimp only
      rw [torn_append, List.foldl_append]
      simp only [torn, ha, if_true, List.length_cons, Nat.zero_add, hans]
      rw [List.foldl_cons (a := Op.write 0 _), List.foldl_nil]
      exact header_written (by
        rw [(erased_then_safe (e := e) (torn_safe (answer := p.answer) (part := part) ws 1 hws)).1]
        exact h12) (by omega)
    · rw [hr] at h; cases h

/-- **C41**: a save does nothing to a storage that holds a coredump. -/
theorem C41_kept {mem : Bytes} {p : Plat} {info : SaveInfo} {n : Nat} (h : hasValid p.readOk mem = some n) :
    save p mem info = (none, []) := by
  unfold hasValid at h
  unfold save
  split
  · rfl
  split
  · rfl
  split
  · rfl
  · rename_i hdr hh
    rw [hh] at h
    simp only at h
    split at h
    · rename_i hv; rw [if_pos hv]
    · cases h

/-- **C41**, **C42**: all operations stay inside the storage. -/
theorem C41_inside (p : Plat) (mem : Bytes) (info : SaveInfo) :
    ∀ op ∈ (save p mem info).2, Inside mem.length op := by
  have hs : ∀ w, Safe mem.length w → Inside mem.length w := by
    intro w h
    cases w with
    | erase n => exact h.elim
    | write off d => exact h.2
  intro op hop
  rcases coredump_ops p mem info with h' | ⟨h', h12⟩ | ⟨h12, ha, ws, hws, h' | ⟨n', r, h', h28, hn, hr⟩⟩
  · rw [h'] at hop; simp at hop
  · rw [h'] at hop; rw [List.mem_singleton.mp hop]; exact Nat.le_refl _
  · rw [h'] at hop
    rcases List.mem_cons.mp hop with h | h
    · subst h; exact Nat.le_refl _
    · exact hs _ (hws _ h)
  · rw [h'] at hop
    rcases List.mem_append.mp hop with h | h
    · rcases List.mem_cons.mp h with h | h
      · subst h; exact Nat.le_refl _
      · exact hs _ (hws _ h)
    · rw [List.mem_singleton.mp h]; exact h12

/-- A platform on which everything works. -/
def coreWorks : Plat := ⟨0, true, true, fun _ => true⟩

/-- One CPU with two words of registers, a serial, and two regions of 5 and 8 bytes, the second read word
by word. -/
def coreInfo : SaveInfo :=
  { regs := some [1, 2, 3, 4, 5, 6, 7, 8], cpuCount := 1, buildId := none, serial := some [65, 66], softwareVersion := none,
    softwareType := none, hardwareVersion := none, machineType := 40, traceReason := 0x8000,
    archRegions := [], sdkRegions := [],
    regions := [.memory 0x20000000 (some [9, 8, 7, 6, 5]), .wordAccessOnly 0x40000000 (some [1, 1, 1, 1, 2, 2, 2, 2])] }

/-- **C41** is false for a header write that was cut after its first word: the storage is reported to hold
a coredump although the save did not complete, and with a size (here 2^32 - 1) larger than the storage. -/
theorem C41_false_torn_header :
    ∃ (mem : Bytes) (k : Nat) (op : Op), hasValid true mem = none ∧
      (save coreWorks mem coreInfo).2[k]? = some op ∧ k + 1 = (save coreWorks mem coreInfo).2.length ∧
      hasValid true (((save coreWorks mem coreInfo).2.take k ++ [cut 4 op]).foldl (apply 0xff) mem) =
        some 0xffffffff :=
  ⟨List.replicate 160 0, 19, .write 0 (header 160), by decide +kernel, by decide +kernel, by decide +kernel,
    by decide +kernel⟩

/-- `C41_crash_partial` and `C41_complete` are about real runs: this save issues 20 operations and succeeds.
After a crash in the middle of the 15th there is no coredump. -/
example : (save coreWorks (List.replicate 160 0) coreInfo).1 = some 160 ∧
    (save coreWorks (List.replicate 160 0) coreInfo).2.length = 20 ∧
    (save coreWorks (List.replicate 160 0) coreInfo).2[14]? = some (.write 121 [0, 0, 0]) ∧
    hasValid true (((torn coreWorks.answer (fun _ => 0) 0 (save coreWorks (List.replicate 160 0) coreInfo).2).take 14
      ++ [cut 2 (.write 121 [0, 0, 0])]).foldl (apply 0xff) (List.replicate 160 0)) = none := by
  decide +kernel

/-- `C41_kept`: a second save does nothing. -/
example : hasValid true ((save coreWorks (List.replicate 160 0) coreInfo).2.foldl (apply 0xff)
    (List.replicate 160 0)) = some 160 := by decide +kernel

/-! ## C42 -/

theorem size_encAll (bs : List Block) : (encAll bs).length = size bs := by
  induction bs with
  | nil => rfl
  | cons b bs ih =>
    rw [show b :: bs = [b] ++ bs from rfl, encAll_append, encAll_one, List.length_append, enc_length, ih]
    simp [size]

/-- `save` once nothing stands in its way. -/
theorem save_eq {p : Plat} {mem : Bytes} {info : SaveInfo} (hr : info.regions ≠ []) (hb : p.beginOk = true)
    (hread : p.readOk = true) (h12 : 12 ≤ mem.length) (hold : hasValid true mem = none)
    (hp : p.answer 0 = true) :
    save p mem info = ((writeSections p (firstCtx false mem.length [.erase mem.length]) info).1,
      (writeSections p (firstCtx false mem.length [.erase mem.length]) info).2.ops) := by
  have hrd : readHeader p.readOk mem = some (mem.take 12) := by
    unfold readHeader
    rw [if_neg (by omega), hread, if_pos (by simpa using h12)]
  have hv : headerValid (mem.take 12) = false := by
    rw [hread] at hrd
    unfold hasValid at hold
    rw [hrd] at hold
    simp only at hold
    split at hold
    · cases hold
    · rename_i h; simpa using h
  unfold save
  rw [if_neg hr, hb, hrd]
  simp only [Bool.not_true, Bool.false_eq_true, if_false, hv, hp]

theorem save_some {p : Plat} {mem : Bytes} {info : SaveInfo} {n : Nat} (h : (save p mem info).1 = some n) :
    12 ≤ mem.length ∧ save p mem info =
      ((writeSections p (firstCtx false mem.length [.erase mem.length]) info).1,
        (writeSections p (firstCtx false mem.length [.erase mem.length]) info).2.ops) := by
  have h12 : 12 ≤ mem.length := by
    rcases coredump_ops p mem info with h' | ⟨h', h12⟩ | ⟨h12, -⟩
    · rw [h'] at h; cases h
    · exact h12
    · exact h12
  refine ⟨h12, ?_⟩
  revert h
  unfold save
  split
  · intro h; cases h
  split
  · intro h; cases h
  split
  · intro h; cases h
  split
  · intro h; cases h
  split
  · intro h; cases h
  · intro _; rfl

/-- **C42**: when the storage does what it is asked to, a successful save leaves a coredump that parses to
the mandatory blocks followed by the regions, apart from padding, and whose total size is the reported
one. If the regions are not all there, the coredump says that it was truncated, and there is a region up
to which all are complete and which is missing or shortened, and none after it.

Missing: `C42_false_padding` for storages that fail, `C42_false_flag` for the flag. -/
theorem C42_parses_partial {e : UInt8} {mem : Bytes} {p : Plat} {info : SaveInfo} {n : Nat}
    (hp : ∀ i, p.answer i = true) (hlen : mem.length < 2 ^ 32) (hok : AddressesFit info)
    (h : (save p mem info).1 = some n) :
    ∃ d, parse ((save p mem info).2.foldl (apply e) mem) = some d ∧ d.totalSize = n ∧ n ≤ mem.length ∧
      ∃ got, content d.blocks = infoBlocks info ++ got ∧
        (got = regionBlocks info ∨ (d.truncated = true ∧ Shortened (regionBlocks info) got)) := by
  obtain ⟨h12, hs⟩ := save_some h
  rw [hs] at h ⊢
  simp only at h ⊢
  rcases writeSections_at (e := e) hp h12 hok with ⟨h1, -⟩ | ⟨-, -, new, ht, hfit, h1, hout, hmem⟩
  · rw [h1] at h; cases h
  · rw [h1] at h
    injection h with h
    rw [hmem, parse_image _ _ (by
      intro b hb
      rcases List.mem_append.mp hb with hb | hb
      · exact tame_infoBlocks info b hb
      · exact ht b hb) (by omega)]
    refine ⟨_, rfl, h, by omega, content new, by rw [content_append, content_infoBlocks], ?_⟩
    rcases hout with ⟨g, -⟩ | ⟨g, g' | g'⟩
    · exact Or.inl g
    · exact Or.inl g'
    · exact Or.inr ⟨g, g'⟩

/-- **C42**: a coredump that does not say it was truncated has all regions. -/
theorem C42_untruncated_complete {e : UInt8} {mem : Bytes} {p : Plat} {info : SaveInfo} {n : Nat}
    (hp : ∀ i, p.answer i = true) (hlen : mem.length < 2 ^ 32) (hok : AddressesFit info)
    (h : (save p mem info).1 = some n) :
    ∃ d, parse ((save p mem info).2.foldl (apply e) mem) = some d ∧
      (d.truncated = false → content d.blocks = infoBlocks info ++ regionBlocks info) := by
  obtain ⟨d, h1, -, -, got, h2, h3⟩ := C42_parses_partial (e := e) hp hlen hok h
  refine ⟨d, h1, fun ht => ?_⟩
  rcases h3 with h3 | ⟨h3, -⟩
  · rw [h2, h3]
  · rw [ht] at h3; cases h3

/-- **C42**: a save on a storage that works, is readable and holds no coredump succeeds exactly if header,
mandatory blocks and footer fit, however large the regions are. -/
theorem C42_succeeds {mem : Bytes} {p : Plat} {info : SaveInfo} (hp : ∀ i, p.answer i = true)
    (hb : p.beginOk = true) (hread : p.readOk = true) (hr : info.regions ≠ []) (hok : AddressesFit info)
    (hold : hasValid true mem = none) :
    (save p mem info).1.isSome = true ↔ 28 + size (infoBlocks info) ≤ mem.length := by
  rw [← size_encAll]
  by_cases h12 : 12 ≤ mem.length
  · rw [save_eq hr hb hread h12 hold (hp 0)]
    simp only
    rcases writeSections_at (e := 0) hp h12 hok with ⟨h1, h2⟩ | ⟨h0, -, new, -, -, h1, -⟩
    · rw [h1]; simp only [Option.isSome_none, Bool.false_eq_true, false_iff]; omega
    · rw [h1]; simp only [Option.isSome_some, true_iff]; exact h0
  · constructor
    · intro h
      obtain ⟨n, hn⟩ := Option.isSome_iff_exists.mp h
      exact absurd (save_some hn).1 h12
    · intro h; omega

/-- The hypotheses of the C42 theorems are met, with everything saved in 160 bytes and the second region
dropped in 130. -/
example : AddressesFit coreInfo ∧ (save coreWorks (List.replicate 130 0) coreInfo).1 = some 125 ∧
    (parse ((save coreWorks (List.replicate 130 0) coreInfo).2.foldl (apply 0xff) (List.replicate 130 0))).map
      (·.truncated) = some true ∧
    (parse ((save coreWorks (List.replicate 160 0) coreInfo).2.foldl (apply 0xff) (List.replicate 160 0))).map
      (fun d => (d.truncated, content d.blocks)) = some (false, infoBlocks coreInfo ++ regionBlocks coreInfo) := by
  refine ⟨?_, by decide +kernel, by decide +kernel, by decide +kernel⟩
  unfold AddressesFit
  decide +kernel

/-- Two regions of one byte. -/
def coreSmall : SaveInfo :=
  { regs := none, cpuCount := 1, buildId := none, serial := none, softwareVersion := none,
    softwareType := none, hardwareVersion := none, machineType := 40, traceReason := 0x8000,
    archRegions := [], sdkRegions := [], regions := [.memory 0x20000000 (some [9]), .memory 0x40000000 (some [1])] }

/-- **C42** is false as to the flag: the padding before the last region does not fit but the region does,
so that everything is there and the coredump says that it was truncated. -/
theorem C42_false_flag : ∃ mem : Bytes,
    (save coreWorks mem coreSmall).1 = some mem.length ∧
    (parse ((save coreWorks mem coreSmall).2.foldl (apply 0xff) mem)).map
      (fun d => (d.truncated, content d.blocks)) = some (true, infoBlocks coreSmall ++ regionBlocks coreSmall) :=
  ⟨List.replicate 86 0, by decide +kernel, by decide +kernel⟩

/-- **C42** is false if a padding write fails: the result of that write is not looked at, so the save
goes on and reports success, and what it leaves cannot be parsed. -/
theorem C42_false_padding : ∃ (mem : Bytes) (answer : Nat → Bool),
    (save ⟨0, true, true, answer⟩ mem coreSmall).1 = some 98 ∧
    parse ((torn answer (fun _ => 0) 0 (save ⟨0, true, true, answer⟩ mem coreSmall).2).foldl (apply 0xff) mem) =
      none :=
  ⟨List.replicate 200 0, fun i => i != 8, by decide +kernel, by decide +kernel⟩

/-! ## C43 -/

/-- **C43**: on a storage that works, is readable, holds no coredump and is at least as large as the
computed size, a save succeeds, takes exactly the computed size, and leaves all regions and no truncation
flag. -/
theorem C43_size_suffices {e : UInt8} {mem : Bytes} {p : Plat} {info : SaveInfo}
    (hp : ∀ i, p.answer i = true) (hb : p.beginOk = true) (hread : p.readOk = true) (hr : info.regions ≠ [])
    (hok : AddressesFit info) (hold : hasValid true mem = none) (hlen : mem.length < 2 ^ 32)
    (hsize : getSaveSize info ≤ mem.length) :
    (save p mem info).1 = some (getSaveSize info) ∧
    ∃ d, parse ((save p mem info).2.foldl (apply e) mem) = some d ∧ d.totalSize = getSaveSize info ∧
      d.truncated = false ∧ content d.blocks = infoBlocks info ++ regionBlocks info := by
  rw [getSaveSize_eq hr] at hsize ⊢
  rw [encAll_append, List.length_append] at hsize
  have h12 : 12 ≤ mem.length := by omega
  rw [save_eq hr hb hread h12 hold (hp 0)]
  simp only
  have h0 := firstCtx_at (e := e) h12
  have hs0 : (firstCtx false mem.length [.erase mem.length]).storageSize =
    if mem.length > 16 then mem.length - 16 else mem.length := rfl
  have ht0 : (firstCtx false mem.length [.erase mem.length]).truncated = false := rfl
  generalize firstCtx false mem.length [.erase mem.length] = c0 at h0 hs0 ht0
  rw [if_pos (by omega)] at hs0
  obtain ⟨hiff, hyes⟩ := writeFixed_true hp (info := info) h0 ht0
  rw [fixedOf_eq] at hiff hyes
  have hfix := hiff.mpr (by omega)
  obtain ⟨a1, t1, s1⟩ := hyes hfix
  generalize hx : writeFixed p c0 (fixedBlocks info) = x at hfix a1 t1 s1
  obtain ⟨ok, c1⟩ := x
  simp only at hfix a1 t1 s1
  subst hfix
  have o1 := a1.off
  obtain ⟨c2, e2, a2, s2, t2⟩ := writeRegions_fits hp (info.archRegions ++ info.sdkRegions ++ info.regions)
    a1 t1 (by rw [o1]; omega)
  have o2 := a2.off
  rw [encAll_append, List.length_append] at o2
  rw [o1] at a2 o2
  obtain ⟨c3, e3, m3⟩ := writeEnd_at hp a2 (by omega)
  have hw : writeSections p c0 info = (some (28 + (encAll (infoBlocks info ++
      layout (12 + (encAll (infoBlocks info)).length)
        (info.archRegions ++ info.sdkRegions ++ info.regions))).length), c3) := by
    unfold writeSections
    rw [hx]
    simp only
    rw [writeAllRegions_eq, e2]
    simp only [Bool.not_true, Bool.false_and, Bool.false_eq_true, if_false]
    exact e3
  rw [hw]
  simp only
  refine ⟨trivial, ?_⟩
  rw [m3, t2, parse_image _ _ (by
    intro b hb
    rcases List.mem_append.mp hb with hb | hb
    · exact tame_infoBlocks info b hb
    · exact tame_layout _ _ hok b hb) (by rw [encAll_append, List.length_append]; omega)]
  refine ⟨_, rfl, rfl, rfl, ?_⟩
  rw [content_append, content_infoBlocks, content_layout]
  rfl

/-- **C43**: conversely, a save into a storage smaller than the computed size fails or says that it
truncated. -/
theorem C43_size_needed {e : UInt8} {mem : Bytes} {p : Plat} {info : SaveInfo} {n : Nat}
    (hp : ∀ i, p.answer i = true) (hr : info.regions ≠ []) (hok : AddressesFit info)
    (hlen : mem.length < 2 ^ 32) (hsize : mem.length < getSaveSize info) (h : (save p mem info).1 = some n) :
    ∃ d, parse ((save p mem info).2.foldl (apply e) mem) = some d ∧ d.truncated = true := by
  obtain ⟨h12, hs⟩ := save_some h
  rw [hs] at h ⊢
  simp only at h ⊢
  rcases writeSections_at (e := e) hp h12 hok with ⟨h1, -⟩ | ⟨hfi, hfix, new, ht, hfit, h1, hout, hmem⟩
  · rw [h1] at h; cases h
  · rw [hmem, parse_image _ _ (by
      intro b hb
      rcases List.mem_append.mp hb with hb | hb
      · exact tame_infoBlocks info b hb
      · exact ht b hb) (by omega)]
    refine ⟨_, rfl, ?_⟩
    simp only
    have h0 := firstCtx_at (e := e) h12
    have hs0 : (firstCtx false mem.length [.erase mem.length]).storageSize =
      if mem.length > 16 then mem.length - 16 else mem.length := rfl
    have ht0 : (firstCtx false mem.length [.erase mem.length]).truncated = false := rfl
    generalize firstCtx false mem.length [.erase mem.length] = c0 at h0 hs0 ht0 hfix
    rw [if_pos (by omega)] at hs0
    obtain ⟨hiff, hyes⟩ := writeFixed_true hp (info := info) h0 ht0
    obtain ⟨a1, t1, s1⟩ := hyes hfix
    rw [fixedOf_eq] at a1
    generalize writeFixed p c0 (fixedBlocks info) = x at a1 t1 s1
    obtain ⟨ok, c1⟩ := x
    simp only at a1 t1 s1 ⊢
    rw [writeAllRegions_eq]
    cases htr : (writeRegions p c1 (info.archRegions ++ info.sdkRegions ++ info.regions)).2.truncated with
    | true => rfl
    | false =>
      exfalso
      obtain ⟨-, a2⟩ := writeRegions_untruncated hp _ a1 hok htr
      have hss := (writeRegions_at hp (info.archRegions ++ info.sdkRegions ++ info.regions) a1 hok)
      obtain ⟨-, -, hss, -⟩ := hss
      have o2 := a2.off
      rw [a1.off] at o2
      rw [getSaveSize_eq hr] at hsize
      have hroom := a2.room
      rcases hroom with hroom | hroom
      · omega
      · have := congrArg (fun l => (encAll l).length) hroom
        rw [a1.off] at this
        simp only [encAll_nil] at this
        omega

/-- **C43**: the check of the storage size passes exactly if a save would leave a coredump that is not
truncated. -/
theorem C43_check {e : UInt8} {mem : Bytes} {p : Plat} {info : SaveInfo}
    (hp : ∀ i, p.answer i = true) (hb : p.beginOk = true) (hread : p.readOk = true) (hr : info.regions ≠ [])
    (hok : AddressesFit info) (hold : hasValid true mem = none) (hlen : mem.length < 2 ^ 32) :
    checkSize (getSaveSize info) mem.length = true ↔
      ∃ n d, (save p mem info).1 = some n ∧ parse ((save p mem info).2.foldl (apply e) mem) = some d ∧
        d.truncated = false := by
  unfold checkSize
  rw [decide_eq_true_iff]
  constructor
  · intro h
    obtain ⟨h1, d, h2, -, h3, -⟩ := C43_size_suffices (e := e) hp hb hread hr hok hold hlen h
    exact ⟨_, d, h1, h2, h3⟩
  · rintro ⟨n, d, h1, h2, h3⟩
    by_cases hs : getSaveSize info ≤ mem.length
    · exact hs
    · obtain ⟨d', h2', h3'⟩ := C43_size_needed (e := e) hp hr hok hlen (by omega) h1
      rw [h2] at h2'
      injection h2' with h2'
      rw [← h2', h3] at h3'
      cases h3'

/-- **C43 (nothing to save).** Without a region the computed size is 0, and nothing is asked of the storage. -/
theorem C43_nothing (p : Plat) (mem : Bytes) (info : SaveInfo) (h : info.regions = []) :
    getSaveSize info = 0 ∧ save p mem info = (none, []) := by
  unfold getSaveSize save
  rw [if_pos h, if_pos h]
  exact ⟨rfl, rfl⟩

example : getSaveSize { coreInfo with regions := [] } = 0 := by decide

/-- The computed size of the example is 160, and 159 bytes are not enough. -/
example : coreInfo.regions ≠ [] ∧ getSaveSize coreInfo = 160 ∧
    hasValid true (List.replicate 160 0) = none ∧
    (save coreWorks (List.replicate 159 0) coreInfo).1 = some 156 := by decide +kernel

end Mflt.Props
