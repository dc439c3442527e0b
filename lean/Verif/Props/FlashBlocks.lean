import Verif.Lemmas.FlashBlocks
import Verif.Props.FlashPorts

/-! # C74: coredumps stored in flash memory in blocks by the ports -/

namespace Mflt.Props

open FlashPorts
open Spec.Flash
open Mflt.Coredump (save SaveInfo Plat hasValid hasValid_none_iff save_seq wr)
open Spec.Coredump (apply parse content infoBlocks regionBlocks AddressesFit Shortened number)
open Mflt.BufferedStorage (writes writes_agree Acc)
open Spec.BufferedStorage (blocks pieces)

/-! ## What the ports are -/

theorem medium_mk {start size lo len : Nat} {p : Port} (h1 : lo ≤ start ∧ start + size ≤ lo + len) (h2 : p.size = size)
    (h3 : ∀ m o n, o + n ≤ size → p.read m o n = some (read m (start + o) n))
    (h5 : ∀ m, ∃ m', p.erase m 0 size = some (true, m') ∧ Only lo len m m' ∧ ∀ i, i < size → m' (start + i) = 0xff)
    (h6 : ∀ m, ∃ m', p.clear m = some m' ∧ Only lo len m m' ∧ (m' start = 0 ∨ m' start = 0xff)) :
    Medium start size lo len p := ⟨h1, h2, h3, h5, h6⟩

theorem emlibLoop_eq {c : Area} {a n : Nat} (hp : 0 < c.page) (hn : a + n < 2 ^ 32) : ∀ (k fuel sector : Nat) (m : Flash),
    sector + k * c.page = n → k < fuel → emlibLoop c a n fuel m sector = some (erase m (a + sector) (k * c.page)) := by
  intro k
  induction k with
  | zero =>
    intro fuel sector m h hf
    unfold emlibLoop
    rw [if_neg (by omega), Nat.zero_mul, erase_zero]
  | succ k ih =>
    intro fuel sector m h hf
    rw [Nat.add_mul, Nat.one_mul] at h
    cases fuel with
    | zero => omega
    | succ fuel =>
      unfold emlibLoop
      rw [if_pos (by omega)]
      simp only
      rw [add32_eq (by omega), add32_eq (by omega), ih fuel (sector + c.page) _ (by omega) (by omega),
        ← Nat.add_assoc, erase_append, Nat.add_mul, Nat.one_mul, Nat.add_comm c.page]

theorem mod_add {W o a k : Nat} (hk : W % k = 0) (ha : a % k = 0) (ho : o % W = 0) : (a + o) % k = 0 := by
  obtain ⟨x, hx⟩ := Nat.dvd_of_mod_eq_zero ho
  obtain ⟨y, hy⟩ := Nat.dvd_of_mod_eq_zero hk
  rw [hx, hy, Nat.mul_assoc, Nat.add_mul_mod_self_left]; exact ha

/-- **C74.** The storage of the emlib port. -/
theorem C74_emlib {c : Area} {W : Nat} (h : AreaOk c) (hW : W % 4 = 0) (ha : c.start % 4 = 0) :
    BlockStorage c.start (c.stop - c.start) c.start (c.stop - c.start) W (emlib c) := by
  obtain ⟨h1, h2, h3, h4⟩ := id h
  have hsz := areaOk_size h
  refine ⟨medium_mk ⟨Nat.le_refl _, Nat.le_refl _⟩ hsz (readMapped_in h) ?_ ?_, ?_⟩
  · intro m
    refine ⟨erase m c.start (c.stop - c.start), ?_, erased_only m _ _⟩
    show emlibErase c m 0 _ = _
    unfold emlibErase
    have hk : (c.stop - c.start) / c.page * c.page = c.stop - c.start := Nat.div_mul_cancel (Nat.dvd_of_mod_eq_zero h4)
    have hle := Nat.div_le_self (c.stop - c.start) c.page
    rw [hsz, (within_iff (by omega)).2 (by omega), Nat.zero_mod, h4, add32_eq (by omega), Nat.add_zero,
      emlibLoop_eq h3 (by omega) ((c.stop - c.start) / c.page) _ 0 m (by omega) (by omega), hk]
    simp
  · intro m
    refine ⟨_, rfl, only_program.widen (Nat.le_refl _) ?_, .inl (clear_zero (by decide) rfl)⟩
    show c.start + 4 ≤ _
    omega
  · intro m o d ho hd hn _
    show emlibBlock c m o d = _
    unfold emlibBlock
    simp only
    rw [add32_eq (by omega), if_pos ⟨mod_add hW ha ho, by rw [hd]; exact hW⟩]

theorem read_blank {m : Flash} {a n : Nat} (h : Blank m a n) : read m a n = List.replicate n 0xff := by
  apply List.ext_getElem?
  intro i
  rw [read_get, List.getElem?_replicate]
  split
  · rw [h i (by assumption)]
  · rfl

theorem dwordLoop_eq : ∀ (k : Nat) (m : Flash) (a : Nat) (d : Bytes), d.length = 8 * k → a % 8 = 0 →
    a + d.length < 2 ^ 32 → Blank m a d.length → dwordLoop m a k d = some (program m a d) := by
  intro k
  induction k with
  | zero =>
    intro m a d hd _ _ _
    rw [show d = [] from List.eq_nil_of_length_eq_zero (by omega), dwordLoop, program_nil]
  | succ k ih =>
    intro m a d hd ha hlt hb
    have hl : (d.take 8).length = 8 := by rw [List.length_take]; omega
    have hp : programOnce 8 m a (d.take 8) = some (program m a (d.take 8)) := by
      unfold programOnce
      rw [if_pos ⟨ha, hl, .inl (read_blank fun i hi => hb i (by omega))⟩]
    have happ := program_append m a (d.take 8) (d.drop 8)
    rw [hl, List.take_append_drop] at happ
    rw [dwordLoop, hp]
    simp only
    rw [add32_eq (by omega), ih _ _ _ (by rw [List.length_drop]; omega) (by omega)
      (by rw [List.length_drop]; omega) ?_, happ]
    intro i hi
    rw [List.length_drop] at hi
    rw [program_out (by omega), Nat.add_assoc]
    exact hb _ (by omega)

theorem l4Block_eq {c : Area} {W : Nat} (h : AreaOk c) (hW : W % 8 = 0) (ha : c.start % 8 = 0) (m : Flash) (o : Nat)
    (d : Bytes) (ho : o % W = 0) (hd : d.length = W) (hn : o + W ≤ c.stop - c.start)
    (hb : ∀ i, i < W → m (c.start + o + i) = 0xff) : l4Block c m o d = some (true, program m (c.start + o) d) := by
  obtain ⟨h1, h2, -⟩ := h
  unfold l4Block
  rw [if_neg (by omega), add32_eq (by omega), dwordLoop_eq _ _ _ _ (by omega) (mod_add hW ha ho) (by omega)
    (by rw [hd]; exact hb)]
  rfl

theorem l4Clear_eq {c : Area} (h : AreaOk c) (ha : c.start % 8 = 0) (m : Flash) :
    ∃ m', l4Clear c m = some m' ∧ Only c.start (c.stop - c.start) m m' ∧ (m' c.start = 0 ∨ m' c.start = 0xff) := by
  refine ⟨program m c.start (List.replicate 8 0), ?_, only_program.widen (Nat.le_refl _) ?_, .inl (clear_zero (by decide) rfl)⟩
  · unfold l4Clear programOnce
    rw [if_pos ⟨ha, rfl, .inr rfl⟩]
    rfl
  · obtain ⟨h1, h2, -⟩ := h
    show c.start + 8 ≤ _
    omega

/-- The chip's flash: two banks of whole pages, and the storage in it. -/
def ChipOk (k : Chip) (c : Area) : Prop :=
  k.base ≤ c.start ∧ c.stop ≤ k.flashEnd ∧ k.base % c.page = 0 ∧ k.bank1End % c.page = 0 ∧ c.start % c.page = 0 ∧
    c.page % 8 = 0

theorem sub_pages {p a b : Nat} (ha : a % p = 0) (hb : b % p = 0) (h : a ≤ b) : a + (b - a) / p * p = b := by
  have : (b - a) % p = 0 := by
    obtain ⟨x, hx⟩ := Nat.dvd_of_mod_eq_zero ha
    obtain ⟨y, hy⟩ := Nat.dvd_of_mod_eq_zero hb
    rw [hx, hy, ← Nat.mul_sub]; exact Nat.mul_mod_right _ _
  rw [Nat.div_mul_cancel (Nat.dvd_of_mod_eq_zero this)]; omega

theorem stop_page {k : Chip} {c : Area} (h : AreaOk c) (hk : ChipOk k c) : c.stop % c.page = 0 := by
  obtain ⟨h1, h2, h3, h4⟩ := h
  have := mod_add (W := c.stop - c.start) (o := c.stop - c.start) (a := c.start) (k := c.page) h4 hk.2.2.2.2.1
    (Nat.mod_self _)
  rwa [show c.start + (c.stop - c.start) = c.stop by omega] at this

/-- Erasing from one page to another. -/
theorem erase_pages {p a b e : Nat} (ha : a % p = 0) (hb : b % p = 0) (he : e % p = 0) (h1 : a ≤ b) (h2 : b ≤ e) (he2 : e < 2 ^ 32)
    (m : Flash) : erase m (a + sub32 b a / p * p) (sub32 e b / p * p) = erase m b (e - b) := by
  rw [sub32_eq h1 (by omega), sub32_eq h2 he2, sub_pages ha hb h1]
  have := sub_pages hb he h2
  congr 1; omega

/-- **C74.** The storage of the stm32cube/l4 port, also if it lies in both banks. -/
theorem C74_l4 {k : Chip} {c : Area} {W : Nat} (h : AreaOk c) (hk : ChipOk k c) (hW : W % 8 = 0) :
    BlockStorage c.start (c.stop - c.start) c.start (c.stop - c.start) W (l4 k c) := by
  obtain ⟨h1, h2, h3, h4⟩ := id h
  obtain ⟨k1, k2, k3, k4, k5, k6⟩ := id hk
  have hsz := areaOk_size h
  have ha : c.start % 8 = 0 := by
    have := mod_add (W := c.page) (o := c.start) (a := 0) k6 rfl k5
    rwa [Nat.zero_add] at this
  have hstop := stop_page h hk
  refine ⟨medium_mk ⟨Nat.le_refl _, Nat.le_refl _⟩ hsz (readMapped_in h) ?_ (l4Clear_eq h ha), l4Block_eq h hW ha⟩
  intro m
  refine ⟨erase m c.start (c.stop - c.start), ?_, erased_only m _ _⟩
  show l4Erase k c m 0 _ = _
  unfold l4Erase
  rw [hsz, (within_iff (by omega)).2 (by omega), add32_eq (a := c.start) (b := 0) (by omega), Nat.add_zero]
  simp only [Bool.not_true, Bool.false_eq_true, if_false]
  rw [if_neg (by omega), add32_eq (a := c.start) (b := 0) (by omega), Nat.add_zero, if_neg (by omega),
    add32_eq (by omega), show c.start + (c.stop - c.start) = c.stop by omega]
  by_cases hb1 : c.start < k.bank1End
  · rw [if_pos hb1]
    by_cases hb2 : c.stop ≤ k.bank1End
    · rw [Nat.min_eq_right hb2, if_pos rfl, erase_pages k3 k5 hstop k1 (by omega) (by omega)]
    · rw [Nat.min_eq_left (by omega), if_neg (by omega), erase_pages k3 k5 k4 k1 (by omega) (by omega),
        erase_pages k4 k4 hstop (Nat.le_refl _) (by omega) (by omega)]
      have := erase_append m c.start (k.bank1End - c.start) (c.stop - k.bank1End)
      rw [show c.start + (k.bank1End - c.start) = k.bank1End by omega] at this
      rw [this]
      congr 3; omega
  · rw [if_neg hb1, erase_pages k4 k5 hstop (by omega) (by omega) (by omega)]

/-- **C74.** The storage of the stm32cube/wb port. -/
theorem C74_wb {k : Chip} {c : Area} {W : Nat} (h : AreaOk c) (hk : ChipOk k c) (hW : W % 8 = 0) :
    BlockStorage c.start (c.stop - c.start) c.start (c.stop - c.start) W (wb k c) := by
  obtain ⟨h1, h2, h3, h4⟩ := id h
  obtain ⟨k1, k2, k3, k4, k5, k6⟩ := id hk
  have hsz := areaOk_size h
  have ha : c.start % 8 = 0 := by
    have := mod_add (W := c.page) (o := c.start) (a := 0) k6 rfl k5
    rwa [Nat.zero_add] at this
  have hstop := stop_page h hk
  refine ⟨medium_mk ⟨Nat.le_refl _, Nat.le_refl _⟩ hsz (readMapped_in h) ?_ (l4Clear_eq h ha), l4Block_eq h hW ha⟩
  intro m
  refine ⟨erase m c.start (c.stop - c.start), ?_, erased_only m _ _⟩
  show wbErase k c m 0 _ = _
  unfold wbErase
  rw [hsz, (within_iff (by omega)).2 (by omega), add32_eq (a := c.start) (b := 0) (by omega), Nat.add_zero]
  simp only [Bool.not_true, Bool.false_eq_true, if_false]
  rw [if_neg (by omega), add32_eq (a := c.start) (b := 0) (by omega), Nat.add_zero, if_neg (by omega),
    add32_eq (by omega), show c.start + (c.stop - c.start) = c.stop by omega,
    erase_pages k3 k5 hstop k1 (by omega) (by omega)]

/-- **C74.** The storage of the stm32cube/u5 port on parts that program 16 bytes, if it lies in one bank. -/
theorem C74_u5 {k : Chip} {c : Area} (h : AreaOk c) (hk : ChipOk k c) (h16 : c.page % 16 = 0) (hp : c.page ≤ c.stop - c.start)
    (hbank : k.bank1End ≤ c.start ∨ c.stop ≤ k.bank1End) :
    BlockStorage c.start (c.stop - c.start) c.start (c.stop - c.start) 16 (u5 k c) := by
  obtain ⟨h1, h2, h3, h4⟩ := id h
  obtain ⟨k1, k2, k3, k4, k5, k6⟩ := id hk
  have hsz := areaOk_size h
  have ha : c.start % 16 = 0 := by
    have := mod_add (W := c.page) (o := c.start) (a := 0) h16 rfl k5
    rwa [Nat.zero_add] at this
  have her : ∀ m n, n ≤ c.stop - c.start → n % c.page = 0 → u5Erase k c m 0 n = some (true, erase m c.start n) := by
    intro m n hn hn0
    unfold u5Erase
    rw [hsz, (within_iff (by omega)).2 (by omega), Nat.zero_div, Nat.div_mul_cancel (Nat.dvd_of_mod_eq_zero hn0)]
    simp only [Bool.not_true, Bool.false_eq_true, if_false, Nat.add_zero]
    by_cases hb : c.start ≥ k.bank1End
    · rw [if_pos hb, sub32_eq hb (by omega), sub_pages k4 k5 hb]
    · rw [if_neg hb, sub32_eq k1 (by omega), sub_pages k3 k5 k1]
  refine ⟨medium_mk ⟨Nat.le_refl _, Nat.le_refl _⟩ hsz (readMapped_in h) ?_ ?_, ?_⟩
  · intro m
    exact ⟨_, her m _ (Nat.le_refl _) h4, erased_only m _ _⟩
  · intro m
    refine ⟨erase m c.start c.page, ?_, only_erase.widen (Nat.le_refl _) (by omega), .inr (erase_in (i := 0) h3)⟩
    show u5Clear k c m = _
    unfold u5Clear
    rw [her m _ hp (Nat.mod_self _)]
    rfl
  · intro m o d ho hd hn hb
    show u5Block c m o d = _
    unfold u5Block
    rw [hsz, (within_iff (by omega)).2 (by omega), add32_eq (by omega), Nat.add_comm o]
    simp only [Bool.not_true, Bool.false_eq_true, if_false]
    unfold programOnce
    rw [if_pos ⟨by omega, hd, .inl (read_blank hb)⟩]
    rfl

theorem s32Mem_pf {a : Nat} (h : a < 0x800000) : s32Mem a = a := by
  unfold s32Mem
  simp only
  rw [Nat.mod_eq_of_lt (by omega), if_pos h]

theorem s32Loop_eq : ∀ (k : Nat) (m : Flash) (a : Nat) (d : Bytes), d.length = 8 * k → a % 8 = 0 →
    a + d.length ≤ 0x800000 → Blank m a d.length → s32Loop m a k d = some (program m a d) := by
  intro k
  induction k with
  | zero =>
    intro m a d hd _ _ _
    rw [show d = [] from List.eq_nil_of_length_eq_zero (by omega), s32Loop, program_nil]
  | succ k ih =>
    intro m a d hd ha hlt hb
    have hl : (d.take 8).length = 8 := by rw [List.length_take]; omega
    have hp : programOnce 8 m a (d.take 8) = some (program m a (d.take 8)) := by
      unfold programOnce
      rw [if_pos ⟨ha, hl, .inl (read_blank fun i hi => hb i (by omega))⟩]
    have happ := program_append m a (d.take 8) (d.drop 8)
    rw [hl, List.take_append_drop] at happ
    rw [s32Loop, s32Mem_pf (by omega), hp]
    simp only
    rw [add32_eq (by omega), ih _ _ _ (by rw [List.length_drop]; omega) (by omega)
      (by rw [List.length_drop]; omega) ?_, happ]
    intro i hi
    rw [List.length_drop] at hi
    rw [program_out (by omega), Nat.add_assoc]
    exact hb _ (by omega)

theorem s32EraseLoop_eq {a s n : Nat} (hp : 0 < s) (hn : a + n ≤ 0x800000) : ∀ (k fuel o : Nat) (m : Flash),
    o + k * s = n → k < fuel → s32EraseLoop a s n fuel m o = some (erase m (a + o) (k * s)) := by
  intro k
  induction k with
  | zero =>
    intro fuel o m h hf
    unfold s32EraseLoop
    rw [if_neg (by omega), Nat.zero_mul, erase_zero]
  | succ k ih =>
    intro fuel o m h hf
    rw [Nat.add_mul, Nat.one_mul] at h
    cases fuel with
    | zero => omega
    | succ fuel =>
      unfold s32EraseLoop
      rw [if_pos (by omega)]
      simp only
      rw [add32_eq (by omega), add32_eq (by omega), s32Mem_pf (by omega), ih fuel (o + s) _ (by omega) (by omega),
        ← Nat.add_assoc, erase_append, Nat.add_mul, Nat.one_mul, Nat.add_comm s]

/-- **C74.** The storage of the s32sdk port in program flash, if there is as much flash behind it as it is
large, and if it starts at a multiple of its size. Missing: storages at the end of the flash or not at a
multiple of their size (`C74_false_s32_write`, `C74_false_s32_erase`). -/
theorem C74_s32_partial {k : S32} {c : Area} {W : Nat} (h : AreaOk c) (hpage : c.page = k.pfSector) (h8 : c.start % 8 = 0)
    (hal : c.start % (c.stop - c.start) = 0) (hsec : k.pfSector ≤ c.stop - c.start)
    (hend : c.stop + (c.stop - c.start) ≤ k.pfSize) (hpf : k.pfSize ≤ 0x800000) (hW : W % 8 = 0) :
    BlockStorage c.start (c.stop - c.start) c.start (c.stop - c.start) W (s32 k c) := by
  obtain ⟨h1, h2, h3, h4⟩ := id h
  have hsz := areaOk_size h
  have hpf' : k.pfSize ≤ 0x800000 := hpf
  refine ⟨medium_mk ⟨Nat.le_refl _, Nat.le_refl _⟩ hsz (readMapped_in h) ?_ ?_, ?_⟩
  · intro m
    refine ⟨erase m c.start (c.stop - c.start), ?_, erased_only m _ _⟩
    show s32Erase k c m 0 _ = _
    have hlk : s32Lookup k c.start c.stop = some (k.pfSector, c.start) := by
      unfold s32Lookup; rw [if_pos (by omega)]
    have hk : (c.stop - c.start) / c.page * c.page = c.stop - c.start := Nat.div_mul_cancel (Nat.dvd_of_mod_eq_zero h4)
    have hle := Nat.div_le_self (c.stop - c.start) c.page
    unfold s32Erase
    simp only
    rw [add32_eq (a := c.start) (b := 0) (by omega), Nat.add_zero, add32_eq (by omega),
      show c.start + (c.stop - c.start) = c.stop by omega, hlk]
    simp only
    rw [if_neg (by omega), add32_eq (by omega), Nat.add_zero, if_neg (by rw [← hpage]; omega), ← hpage,
      s32EraseLoop_eq h3 (by omega) ((c.stop - c.start) / c.page) _ 0 m (by omega) (by omega), hk]
    rfl
  · intro m
    refine ⟨erase m c.start k.pfSector, ?_, only_erase.widen (Nat.le_refl _) (by omega),
      .inr (erase_in (i := 0) (by omega))⟩
    show s32Clear k c m = _
    unfold s32Clear s32Lookup
    rw [if_pos (by omega)]
    simp only
    rw [s32Mem_pf (by omega)]
  · intro m o d ho hd hn hb
    have hlk : s32Lookup k (c.start + o) (c.start + o + o + d.length) = some (k.pfSector, c.start + o) := by
      unfold s32Lookup; rw [if_pos (by omega)]
    show s32Block k c m o d = _
    unfold s32Block
    simp only
    rw [add32_eq (a := c.start) (by omega), add32_eq (a := c.start + o) (b := o) (by omega), add32_eq (by omega), hlk]
    simp only
    rw [if_neg (by omega), s32Loop_eq _ _ _ _ (by omega) (mod_add hW h8 ho) (by omega) (by rw [hd]; exact hb)]
    rfl

theorem s32Mem_df {a : Nat} (h : 0x10000000 ≤ a) (h2 : a < 0x10800000) : s32Mem (a - 0x10000000 + 0x800000) = a := by
  unfold s32Mem
  simp only
  rw [Nat.mod_eq_of_lt (by omega), if_neg (by omega)]
  omega

theorem s32Loop_df : ∀ (k : Nat) (m : Flash) (a : Nat) (d : Bytes), d.length = 8 * k → a % 8 = 0 →
    0x10000000 ≤ a → a + d.length ≤ 0x10800000 → Blank m a d.length →
    s32Loop m (a - 0x10000000 + 0x800000) k d = some (program m a d) := by
  intro k
  induction k with
  | zero =>
    intro m a d hd _ _ _ _
    rw [show d = [] from List.eq_nil_of_length_eq_zero (by omega), s32Loop, program_nil]
  | succ k ih =>
    intro m a d hd ha hge hlt hb
    have hl : (d.take 8).length = 8 := by rw [List.length_take]; omega
    have hp : programOnce 8 m a (d.take 8) = some (program m a (d.take 8)) := by
      unfold programOnce
      rw [if_pos ⟨ha, hl, .inl (read_blank fun i hi => hb i (by omega))⟩]
    have happ := program_append m a (d.take 8) (d.drop 8)
    rw [hl, List.take_append_drop] at happ
    rw [s32Loop, s32Mem_df hge (by omega), hp]
    simp only
    rw [add32_eq (by omega), show a - 0x10000000 + 0x800000 + 8 = a + 8 - 0x10000000 + 0x800000 by omega,
      ih _ _ _ (by rw [List.length_drop]; omega) (by omega) (by omega) (by rw [List.length_drop]; omega) ?_, happ]
    intro i hi
    rw [List.length_drop] at hi
    rw [program_out (by omega), Nat.add_assoc]
    exact hb _ (by omega)

theorem s32EraseLoop_df {a s n : Nat} (hp : 0 < s) (hge : 0x10000000 ≤ a) (hn : a + n ≤ 0x10800000) :
    ∀ (k fuel o : Nat) (m : Flash), o + k * s = n → k < fuel →
      s32EraseLoop (a - 0x10000000 + 0x800000) s n fuel m o = some (erase m (a + o) (k * s)) := by
  intro k
  induction k with
  | zero =>
    intro fuel o m h hf
    unfold s32EraseLoop
    rw [if_neg (by omega), Nat.zero_mul, erase_zero]
  | succ k ih =>
    intro fuel o m h hf
    rw [Nat.add_mul, Nat.one_mul] at h
    cases fuel with
    | zero => omega
    | succ fuel =>
      unfold s32EraseLoop
      rw [if_pos (by omega)]
      simp only
      rw [add32_eq (by omega), add32_eq (by omega),
        show a - 0x10000000 + 0x800000 + o = a + o - 0x10000000 + 0x800000 by omega,
        s32Mem_df (by omega) (by omega), ih fuel (o + s) _ (by omega) (by omega),
        ← Nat.add_assoc, erase_append, Nat.add_mul, Nat.one_mul, Nat.add_comm s]

theorem s32Lookup_df {k : S32} {a e : Nat} (ha : 0x10000000 ≤ a) (hae : a ≤ e) (he : e ≤ 0x10000000 + k.dfSize)
    (hpf : k.pfSize ≤ 0x800000) (hdf : k.dfSize ≤ 0x800000) :
    s32Lookup k a e = some (k.dfSector, a - 0x10000000 + 0x800000) := by
  unfold s32Lookup
  rw [if_neg (by omega), add32_eq (a := 0x10000000) (by omega), if_pos ⟨ha, he⟩, add32_eq (by omega),
    sub32_eq (by omega) (by omega), show a + 0x800000 - 0x10000000 = a - 0x10000000 + 0x800000 by omega]

/-- **C74.** The storage of the s32sdk port in data flash, which the flash controller knows by other
addresses, under the conditions of `C74_s32_partial`. Missing: as there. -/
theorem C74_s32_data_partial {k : S32} {c : Area} {W : Nat} (h : AreaOk c) (hpage : c.page = k.dfSector) (h8 : c.start % 8 = 0)
    (hal : c.start % (c.stop - c.start) = 0) (hsec : k.dfSector ≤ c.stop - c.start) (hst : 0x10000000 ≤ c.start)
    (hend : c.stop + (c.stop - c.start) ≤ 0x10000000 + k.dfSize) (hpf : k.pfSize ≤ 0x800000)
    (hdf : k.dfSize ≤ 0x800000) (hW : W % 8 = 0) :
    BlockStorage c.start (c.stop - c.start) c.start (c.stop - c.start) W (s32 k c) := by
  obtain ⟨h1, h2, h3, h4⟩ := id h
  have hsz := areaOk_size h
  refine ⟨medium_mk ⟨Nat.le_refl _, Nat.le_refl _⟩ hsz (readMapped_in h) ?_ ?_, ?_⟩
  · intro m
    refine ⟨erase m c.start (c.stop - c.start), ?_, erased_only m _ _⟩
    show s32Erase k c m 0 _ = _
    have hlk := s32Lookup_df (k := k) (a := c.start) (e := c.stop) hst (by omega) (by omega) hpf hdf
    have hk : (c.stop - c.start) / c.page * c.page = c.stop - c.start := Nat.div_mul_cancel (Nat.dvd_of_mod_eq_zero h4)
    have hle := Nat.div_le_self (c.stop - c.start) c.page
    unfold s32Erase
    simp only
    rw [add32_eq (a := c.start) (b := 0) (by omega), Nat.add_zero, add32_eq (by omega),
      show c.start + (c.stop - c.start) = c.stop by omega, hlk]
    simp only
    rw [if_neg (by omega), add32_eq (by omega), Nat.add_zero, if_neg (by rw [← hpage]; omega), ← hpage,
      s32EraseLoop_df h3 hst (by omega) ((c.stop - c.start) / c.page) _ 0 m (by omega) (by omega), hk]
    rfl
  · intro m
    refine ⟨erase m c.start k.dfSector, ?_, only_erase.widen (Nat.le_refl _) (by omega),
      .inr (erase_in (i := 0) (by omega))⟩
    show s32Clear k c m = _
    unfold s32Clear
    rw [s32Lookup_df hst (by omega) (by omega) hpf hdf]
    simp only
    rw [s32Mem_df hst (by omega)]
  · intro m o d ho hd hn hb
    have hlk := s32Lookup_df (k := k) (a := c.start + o) (e := c.start + o + o + d.length) (by omega) (by omega)
      (by omega) hpf hdf
    show s32Block k c m o d = _
    unfold s32Block
    simp only
    rw [add32_eq (a := c.start) (by omega), add32_eq (a := c.start + o) (b := o) (by omega), add32_eq (by omega), hlk]
    simp only
    rw [if_neg (by omega), s32Loop_df _ _ _ _ (by omega) (mod_add hW h8 ho) (by omega) (by omega) (by rw [hd]; exact hb)]
    rfl

/-- Two sectors of 2 KiB in the data flash of an S32K144. -/
example : AreaOk ⟨0x10001000, 0x10002000, 0x800⟩ ∧
    BlockStorage 0x10001000 0x1000 0x10001000 0x1000 32 (s32 ⟨0x80000, 0x10000, 0x1000, 0x800⟩ ⟨0x10001000, 0x10002000, 0x800⟩) := by
  have h : AreaOk ⟨0x10001000, 0x10002000, 0x800⟩ := by unfold AreaOk; decide
  exact ⟨h, C74_s32_data_partial h rfl rfl rfl (by decide) (by decide) (by decide) (by decide) (by decide) rfl⟩

/-! ## What they do -/

theorem blockOps_eq (l : List (Nat × Bytes)) : blockOps l = l.map wr := rfl

/-- **C74.** A coredump of at least one block saved through aligned blocks of at least the size of the header:
whatever was in the flash before, the flash is erased and every block is written where it is erased, so that
every operation succeeds; nothing outside of the part of the flash meant for coredumps changes, and what is
read back parses as the coredump. Power lost between any two blocks leaves no coredump. Missing: coredumps of
less than one block, blocks that are not aligned, and a loss of power within the writing of a block. -/
theorem C74_saved_blocks_partial {start size lo len W : Nat} {p : Port} (hS : BlockStorage start size lo len W p)
    (hW : 12 ≤ W) (hs : size % W = 0) (hsize : size < 2 ^ 32) {plat : Plat} (hp : ∀ i, plat.answer i = true)
    {m : Flash} {info : SaveInfo} {n : Nat} (hok : AddressesFit info)
    (h : (save plat (read m start size) info).1 = some n) (hbig : W ≤ n) :
    ∃ m1 ws s m' mem d, (save plat (read m start size) info).2 = .erase size :: blockOps ws ∧
      p.erase m 0 size = some (true, m1) ∧
      writes W size (answers p m1) (BufferedStorage.init W) ws = some (true, s) ∧
      s = { BufferedStorage.init W with log := s.log } ∧
      runOps p m1 (blockOps s.log) = some m' ∧ Only lo len m m' ∧
      p.read m' 0 p.size = some mem ∧ parse mem = some d ∧ d.totalSize = n ∧ n ≤ p.size ∧
      (∃ got, content d.blocks = infoBlocks info ++ got ∧
        (got = regionBlocks info ∨ (d.truncated = true ∧ Shortened (regionBlocks info) got))) ∧
      ∀ k, k < s.log.length → ∃ mk memk, runOps p m1 (blockOps (s.log.take k)) = some mk ∧ Only lo len m mk ∧
        p.read mk 0 p.size = some memk ∧ hasValid true memk = none := by
  have hl := read_length m start size
  obtain ⟨ds, e1, e2, e3, e4⟩ := save_seq hp h
  obtain ⟨d, g1, g2, g3, g4⟩ := C42_parses_partial (e := 0xff) hp (by rw [hl]; exact hsize) hok h
  have hfold := foldl_save 0xff (ds := ds) (hdr := Mflt.Coredump.header n) (mem := read m start size) rfl
    (by omega)
  rw [e4, hfold] at g1
  rw [hl] at e4 g3 g1
  have hdl : (Mflt.Coredump.header n ++ ds.flatten).length = n := by
    rw [List.length_append, show (Mflt.Coredump.header n).length = 12 from rfl]; omega
  generalize hdump : Mflt.Coredump.header n ++ ds.flatten = dump at hdl g1
  obtain ⟨m1, f1, f2, f3⟩ := hS.erase_all m
  have hb := C68_blocks (W := W) (size := size) (dump := dump) (by omega) hs (by omega) (by omega)
  have hap := blocks_apart (W := W) (blocks W dump) hb.1 (fun b h => ⟨(hb.2 b h).1, (hb.2 b h).2.1⟩)
  have hrun : ∀ k, ∃ mk, runOps p m1 (blockOps ((blocks W dump).take k)) = some mk ∧ Only start size m1 mk ∧
      read mk start size = ((blocks W dump).take k).foldl Spec.BufferedStorage.program (read m1 start size) := by
    intro k
    rw [blockOps_eq, ← foldl_program]
    refine runOps_blocks hS _ m1 (fun w hw => ?_) (hap.sublist (List.take_sublist ..))
    obtain ⟨w1, w2, w3⟩ := hb.2 w (List.mem_of_mem_take hw)
    refine ⟨w1, w2, w3, fun i hi => ?_⟩
    rw [Nat.add_assoc]; exact f3 _ (by omega)
  have hmem := C68_memory (W := W) (dump := dump) (mem := read m1 start size) (by omega)
    (by rw [read_length]; exact hs) (by rw [read_length]; omega) (by rw [read_length]; omega)
  obtain ⟨r, s, w1, w2, -, w4⟩ := C68_buffered_write_partial (W := W) (size := size) (port := fun _ _ => true)
    (hdr := Mflt.Coredump.header n) (ds := ds) (by show 0 < 12; omega) hW hs (by omega) hsize
    (by rw [hdump]; omega) (by rw [hdump]; omega)
  have hr := w4 (fun _ _ => rfl)
  subst hr
  have w2 := w2 rfl
  rw [hdump] at w2
  have hlog : s.log = blocks W dump := by rw [w2]
  have hacc : Acc (answers p m1) s.log := by
    intro k b hk
    rw [hlog] at hk ⊢
    obtain ⟨mk, hmk, -⟩ := hrun (k + 1)
    have : (blocks W dump).take (k + 1) = (blocks W dump).take k ++ [b] := by
      rw [List.take_succ, hk]; rfl
    rw [this] at hmk
    unfold answers
    rw [hmk]; rfl
  have hw := (writes_agree W size (answers p m1) _ (BufferedStorage.init W) s w1).2 hacc
  obtain ⟨m', r1, r2, r3⟩ := hrun (blocks W dump).length
  rw [List.take_length] at r1 r3
  refine ⟨m1, pieces 12 ds ++ [(0, Mflt.Coredump.header n)], s, m', read m' start size, d, ?_, f1, hw, ?_, ?_,
    f2.trans (r2.widen hS.inside.1 hS.inside.2), ?_, ?_, g2, hS.size_eq.symm ▸ g3, g4, ?_⟩
  · rw [e4, blockOps_eq, List.map_append]; rfl
  · rw [w2]
  · rw [hlog]; exact r1
  · rw [hS.size_eq, hS.read_eq _ _ _ (by omega), Nat.add_zero]
  · rw [← g1]
    have hnum : number (((dump ++ List.replicate (size - (12 + ds.flatten.length)) (0xff : UInt8)).drop 8).take 4) = n := by
      rw [← g2]
      unfold parse at g1
      simp only at g1
      split at g1
      · rw [Option.map_eq_some_iff] at g1
        obtain ⟨x, -, rfl⟩ := g1
        rfl
      · cases g1
    have htake : (dump ++ List.replicate (size - (12 + ds.flatten.length)) (0xff : UInt8)).take n =
        (read m' start size).take n := by
      rw [r3, List.take_append_of_le_length (by omega), ← hdl, hmem.1, List.take_length]
    refine (parse_congr ?_ (by omega) hnum htake).symm
    rw [read_length, List.length_append, List.length_replicate, hdl]
    omega
  · intro k hk
    rw [hlog] at hk ⊢
    obtain ⟨mk, q1, q2, q3⟩ := hrun k
    refine ⟨mk, read mk start size, q1, f2.trans (q2.widen hS.inside.1 hS.inside.2),
      by rw [hS.size_eq, hS.read_eq _ _ _ (by omega), Nat.add_zero], ?_⟩
    rw [hasValid_none_iff]
    right
    intro hM
    have hz := hmem.2 k hk
    rw [← q3] at hz
    have h0 := congrArg (·[0]?) hM
    have h1 := congrArg (·[0]?) hz
    simp only [List.getElem?_take_of_lt (show 0 < 4 by omega), List.getElem?_take_of_lt (show 0 < W by omega),
      read_get] at h0 h1
    rw [if_pos (by omega)] at h0 h1
    rw [if_pos (by omega), f3 0 (by omega)] at h1
    rw [Option.some.inj h1] at h0
    revert h0; decide

/-! ## What is false -/

/-- **C74 is false for the s32sdk port** at the end of program flash: a block is refused if it does not lie in
the first half of the storage (its offset is counted twice), so no coredump larger than that can be saved. -/
theorem C74_false_s32_write {k : S32} {c : Area} (h : AreaOk c) (hend : c.stop = k.pfSize) (hpf : k.pfSize ≤ 0x800000)
    (m : Flash) (o : Nat) (d : Bytes) (hin : o + d.length ≤ c.stop - c.start)
    (hup : c.stop - c.start < 2 * o + d.length) : s32Block k c m o d = some (false, m) := by
  obtain ⟨h1, h2, -⟩ := h
  unfold s32Block
  simp only
  rw [add32_eq (a := c.start) (by omega), add32_eq (a := c.start + o) (b := o) (by omega), add32_eq (by omega)]
  have : s32Lookup k (c.start + o) (c.start + o + o + d.length) = none := by
    unfold s32Lookup
    rw [if_neg (by omega), if_neg (by omega)]
  rw [this]

/-- ... and if the storage does not start at a multiple of its size it cannot be erased (the alignment is
checked against the number of bytes to be erased). -/
theorem C74_false_s32_erase {k : S32} {c : Area} (h : AreaOk c) (hend : c.stop ≤ k.pfSize)
    (hal : c.start % (c.stop - c.start) ≠ 0) (m : Flash) :
    s32Erase k c m 0 (c.stop - c.start) = some (false, m) := by
  obtain ⟨h1, h2, -⟩ := h
  unfold s32Erase
  simp only
  rw [add32_eq (a := c.start) (b := 0) (by omega), Nat.add_zero, add32_eq (by omega),
    show c.start + (c.stop - c.start) = c.stop by omega]
  have : s32Lookup k c.start c.stop = some (k.pfSector, c.start) := by
    unfold s32Lookup; rw [if_pos (by omega)]
  rw [this]
  simp only
  rw [if_neg (by omega), add32_eq (by omega), Nat.add_zero, if_pos (.inl hal)]

/-- The cases: 16 kB of the last 16 kB of 512 kB of flash, and 8 kB at 12 kB. -/
example : AreaOk ⟨0x7c000, 0x80000, 0x1000⟩ ∧ 0x2000 + 32 ≤ 0x80000 - 0x7c000 ∧ 0x80000 - 0x7c000 < 2 * 0x2000 + 32 ∧
    AreaOk ⟨0x3000, 0x5000, 0x1000⟩ ∧ 0x3000 % (0x5000 - 0x3000) ≠ 0 := by
  refine ⟨⟨?_, ?_, ?_, ?_⟩, ?_, ?_, ⟨?_, ?_, ?_, ?_⟩, ?_⟩ <;> decide

/-- **C74 is false for erasing a part of the storage with the stm32cube/l4 and wb ports**: if asked to erase one
page from the middle of the first one on, they erase the first page, so also what is before the part (the
offset is counted twice when the alignment is checked). -/
theorem C74_false_half_page {k : Chip} {c : Area} (h : AreaOk c) (hk : ChipOk k c) (hlow : c.stop ≤ k.bank1End)
    (h2p : 2 * c.page ≤ c.stop - c.start) (m : Flash) :
    l4Erase k c m (c.page / 2) c.page = some (true, erase m c.start c.page) ∧
    wbErase k c m (c.page / 2) c.page = some (true, erase m c.start c.page) := by
  obtain ⟨h1, h2, h3, h4⟩ := id h
  obtain ⟨k1, k2, k3, k4, k5, k6⟩ := id hk
  have hsz := areaOk_size h
  have hpos : k.base + sub32 (c.start + c.page / 2) k.base / c.page * c.page = c.start := by
    rw [sub32_eq (by omega) (by omega), show c.start + c.page / 2 - k.base = (c.start - k.base) + c.page / 2 by omega]
    obtain ⟨x, hx⟩ := Nat.dvd_of_mod_eq_zero k3
    obtain ⟨y, hy⟩ := Nat.dvd_of_mod_eq_zero k5
    have hxy : c.start - k.base = c.page * (y - x) := by rw [Nat.mul_sub]; omega
    rw [hxy, Nat.mul_add_div h3, Nat.div_eq_of_lt (a := c.page / 2) (by omega), Nat.add_zero, Nat.mul_comm, ← hxy]
    omega
  have hal : (c.start + c.page / 2 + c.page / 2) % c.page = 0 := by
    rw [show c.start + c.page / 2 + c.page / 2 = c.start + c.page by omega, Nat.add_mod_right]; exact k5
  have hlen : sub32 (c.start + c.page / 2 + c.page) (c.start + c.page / 2) / c.page * c.page = c.page := by
    rw [sub32_eq (by omega) (by omega), Nat.add_sub_cancel_left, Nat.div_self h3, Nat.one_mul]
  constructor
  · unfold l4Erase
    rw [hsz, (within_iff (by omega)).2 (by omega), add32_eq (a := c.start) (by omega)]
    simp only [Bool.not_true, Bool.false_eq_true, if_false]
    rw [if_neg (by omega), add32_eq (a := c.start + c.page / 2) (b := c.page / 2) (by omega),
      if_neg (by rw [hal, Nat.mod_self]; omega), add32_eq (by omega), if_pos (by omega),
      Nat.min_eq_right (by omega), if_pos rfl, hpos, hlen]
  · unfold wbErase
    rw [hsz, (within_iff (by omega)).2 (by omega), add32_eq (a := c.start) (by omega)]
    simp only [Bool.not_true, Bool.false_eq_true, if_false]
    rw [if_neg (by omega), add32_eq (a := c.start + c.page / 2) (b := c.page / 2) (by omega),
      if_neg (by rw [hal, Nat.mod_self]; omega), add32_eq (by omega), hpos, hlen]

/-- **C74.** The stm32cube/l4 and wb ports do not erase a part of a page. -/
theorem C74_part_of_page {k : Chip} {c : Area} (m : Flash) {o n : Nat} (hn : n % c.page ≠ 0) :
    l4Erase k c m o n = some (false, m) ∧ wbErase k c m o n = some (false, m) := by
  unfold l4Erase wbErase
  simp [hn]

example : (0x900 : Nat) % 0x800 ≠ 0 := by decide

/-- What memfault/ports/stm32cube/{l4,wb}/flash.h say of clearing an ECC error: whether there was none or it was cleared; only
double words of the range are changed. -/
def EccSpec (f : Option Nat → Nat → Nat → Flash → Bool × Flash) : Prop :=
  ∀ ecc s e m, ((f ecc s e m).1 = true ↔ ∀ a, ecc = some a → s ≤ a ∧ a < e) ∧
    ∀ a, ecc = some a → ¬ (s ≤ a ∧ a < e) → (f ecc s e m).2 = m

/-- **C74 is false for the functions that clear ECC errors**: they return the opposite, for every state, and
the one of the l4 port also overwrites the double word behind the range. -/
theorem C74_false_ecc : ¬ EccSpec l4ClearEcc ∧ ¬ EccSpec wbClearEcc ∧
    (∀ ecc s e m, (wbClearEcc ecc s e m).1 = false ↔ ∀ a, ecc = some a → s ≤ a ∧ a < e) ∧
    ∀ s e m, s ≤ e → l4ClearEcc (some e) s e m = (false, program m e [0, 0, 0, 0, 0, 0, 0, 0]) := by
  refine ⟨fun h => ?_, fun h => ?_, fun ecc s e m => ?_, fun s e m h => ?_⟩
  · have := (h none 0 0 (fun _ => 0)).1.2 (by simp)
    cases this
  · have := (h none 0 0 (fun _ => 0)).1.2 (by simp)
    cases this
  · cases ecc with
    | none => simp [wbClearEcc]
    | some a =>
      simp only [wbClearEcc, Option.some.injEq, forall_eq']
      split
      · constructor
        · intro hx; cases hx
        · intro hx; omega
      · simp; omega
  · unfold l4ClearEcc
    simp only
    rw [if_neg (by omega)]
    rfl

/-- **C74 (stm32cube/wb, ECC errors)**: a double word with an error in the range is overwritten with 0, and nothing else is
changed; an error elsewhere changes nothing. Missing: the result (`C74_false_ecc`). The l4 port does the same up to and
including the end of the range. -/
theorem C74_ecc_partial {a s e : Nat} (m : Flash) (i : Nat) :
    (wbClearEcc (some a) s e m).2 i = (if s ≤ a ∧ a < e ∧ a ≤ i ∧ i < a + 8 then 0 else m i) ∧
    (l4ClearEcc (some a) s e m).2 i = (if s ≤ a ∧ a ≤ e ∧ a ≤ i ∧ i < a + 8 then 0 else m i) ∧
    wbClearEcc none s e m = (false, m) ∧ l4ClearEcc none s e m = (false, m) := by
  have hp : program m a (List.replicate 8 0) i = if a ≤ i ∧ i < a + 8 then 0 else m i := by
    by_cases h : a ≤ i ∧ i < a + 8
    · rw [if_pos h]
      obtain ⟨k, rfl⟩ : ∃ k, i = a + k := ⟨i - a, by omega⟩
      rw [program_in (by simp; omega)]
      have hk : (List.replicate 8 (0 : UInt8)).getD k 0xff = 0 := by
        rw [List.getD_eq_getElem?_getD, List.getElem?_replicate, if_pos (by omega)]; rfl
      rw [hk]; exact UInt8.and_zero
    · rw [if_neg h, program_out (by simpa using h)]
  refine ⟨?_, ?_, rfl, rfl⟩
  · simp only [wbClearEcc]
    by_cases h : a < s ∨ a ≥ e
    · rw [if_pos h, if_neg (by omega)]
    · rw [if_neg h]
      dsimp only
      rw [hp]
      by_cases h' : a ≤ i ∧ i < a + 8
      · rw [if_pos h', if_pos (by omega)]
      · rw [if_neg h', if_neg (by omega)]
  · simp only [l4ClearEcc]
    by_cases h : a < s ∨ a > e
    · rw [if_pos h, if_neg (by omega)]
    · rw [if_neg h]
      dsimp only
      rw [hp]
      by_cases h' : a ≤ i ∧ i < a + 8
      · rw [if_pos h', if_pos (by omega)]
      · rw [if_neg h', if_neg (by omega)]

/-- **C74 is false for erasing less than a page with the stm32cube/u5 port**: nothing is erased, with success. -/
theorem C74_false_u5_part {k : Chip} {c : Area} (h : AreaOk c) (m : Flash) {n : Nat} (hn : n < c.page)
    (hp : c.page ≤ c.stop - c.start) : u5Erase k c m 0 n = some (true, m) := by
  obtain ⟨h1, h2, -⟩ := id h
  unfold u5Erase
  rw [areaOk_size h, (within_iff (by omega)).2 (by omega), Nat.div_eq_of_lt hn, Nat.zero_mul]
  simp only [Bool.not_true, Bool.false_eq_true, if_false, erase_zero]

/-! ## Examples -/

/-- An STM32L4 with 1 MB of flash, its storage in both banks. -/
def exChip : Chip := ⟨0x08000000, 0x08080000, 0x08100000⟩

def exArea : Area := ⟨0x0807f000, 0x08081000, 0x800⟩

example : AreaOk exArea ∧ ChipOk exChip exArea ∧ exArea.size % 32 = 0 ∧ AreaOk ⟨0x0807e000, 0x08080000, 0x800⟩ ∧
    ChipOk exChip ⟨0x0807e000, 0x08080000, 0x800⟩ ∧ 2 * 0x800 ≤ 0x08080000 - 0x0807e000 := by
  refine ⟨⟨?_, ?_, ?_, ?_⟩, ⟨?_, ?_, ?_, ?_, ?_, ?_⟩, ?_, ⟨?_, ?_, ?_, ?_⟩, ⟨?_, ?_, ?_, ?_, ?_, ?_⟩, ?_⟩ <;> decide +kernel

/-- The port of an STM32WB with a storage of 160 bytes (to keep it short). -/
def exWb : Port := wb exChip ⟨0x08000020, 0x080000c0, 0x20⟩

/-- It is erased, gets the five blocks of a coredump and is read back. -/
example : (save coreWorks (read (fun a => UInt8.ofNat a) 0x08000020 160) coreInfo).1 = some 160 ∧
    ((exWb.erase (fun a => UInt8.ofNat a) 0 160).bind fun r =>
      (writes 32 160 (answers exWb r.2) (BufferedStorage.init 32)
        ((save coreWorks (read (fun a => UInt8.ofNat a) 0x08000020 160) coreInfo).2.filterMap fun op =>
          match op with
          | .write o d => some (o, d)
          | .erase _ => none)).bind fun s =>
      (runOps exWb r.2 (blockOps s.2.log)).bind fun m' => (exWb.read m' 0 160).map fun mem =>
        (r.1, s.1, s.2.log.map (·.1), hasValid true mem, (parse mem).map (·.truncated))) =
      some (true, true, [32, 64, 96, 128, 0], some 160, some false) := by
  decide +kernel

end Mflt.Props
