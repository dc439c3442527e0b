import Verif.Model.ExampleStorage
import Verif.Props.FlashBlocks

/-!
# C115: the coredump storages of the example applications

`Spec.Flash` says what a coredump storage in flash is, `Spec.BufferedStorage` what the blocks of a coredump are.
-/

namespace Mflt.Props

open ExampleStorage
open FlashPorts (Area area_size clear_zero)
open Spec.Flash
open Mflt.Coredump (save SaveInfo Plat hasValid hasValid_none_iff save_seq)
open Spec.Coredump (apply parse content infoBlocks regionBlocks AddressesFit Shortened number)
open Spec.BufferedStorage (block blocks numBlocks pieces)

namespace ExampleAux

theorem mbedLoop_eq {c : Area} {n : Nat} (hp : 0 < c.page) (hn : c.start + n < 2 ^ 32) : ∀ (k fuel sector : Nat) (m : Flash),
    sector + k * c.page = n → k < fuel → mbedLoop c n fuel m sector = some (erase m (c.start + sector) (k * c.page)) := by
  intro k
  induction k with
  | zero =>
    intro fuel sector m h hf
    unfold mbedLoop
    rw [if_neg (by omega), Nat.zero_mul, erase_zero]
  | succ k ih =>
    intro fuel sector m h hf
    rw [Nat.add_mul, Nat.one_mul] at h
    cases fuel with
    | zero => omega
    | succ fuel =>
      unfold mbedLoop
      rw [if_pos (by omega)]
      simp only
      rw [add32_eq (by omega), add32_eq (by omega), ih fuel (sector + c.page) _ (by omega) (by omega),
        ← Nat.add_assoc, erase_append, Nat.add_mul, Nat.one_mul, Nat.add_comm c.page]

theorem wicedLoop_eq {stop : Nat} (hn : stop < 2 ^ 32) : ∀ (k fuel sector : Nat) (m : Flash),
    sector + k * 4096 = stop → k < fuel → wicedLoop stop fuel m sector = some (erase m sector (k * 4096)) := by
  intro k
  induction k with
  | zero =>
    intro fuel sector m h hf
    unfold wicedLoop
    rw [if_neg (by omega), Nat.zero_mul, erase_zero]
  | succ k ih =>
    intro fuel sector m h hf
    cases fuel with
    | zero => omega
    | succ fuel =>
      unfold wicedLoop
      rw [if_pos (by omega)]
      simp only
      rw [add32_eq (by omega), ih fuel (sector + 4096) _ (by omega) (by omega), erase_append, Nat.add_mul, Nat.one_mul,
        Nat.add_comm 4096]

theorem cypressLoop_eq {c : Area} : ∀ (k i : Nat) (m : Flash), c.start + (i + k) * 512 < 2 ^ 32 →
    cypressLoop c k m i = erase m (c.start + i * 512) (k * 512) := by
  intro k
  induction k with
  | zero => intro i m _; rw [cypressLoop, Nat.zero_mul, erase_zero]
  | succ k ih =>
    intro i m h
    have e1 : c.start + (i + 1) * 512 = c.start + i * 512 + 512 := by omega
    have e2 : 512 + k * 512 = (k + 1) * 512 := by omega
    have e3 : c.start + i * 512 < 2 ^ 32 := by
      have : i * 512 ≤ (i + (k + 1)) * 512 := Nat.mul_le_mul_right _ (by omega)
      exact Nat.lt_of_le_of_lt (Nat.add_le_add_left this _) h
    have e4 : c.start + (i + 1 + k) * 512 < 2 ^ 32 := by
      rw [show i + 1 + k = i + (k + 1) by omega]; exact h
    simp only [cypressLoop, cypressW]
    rw [add32_eq e3, ih (i + 1) _ e4, e1, erase_append, e2]

end ExampleAux

open ExampleAux

/-! ## mbed -/

/-- **C115.** The storage of the mbed example. -/
theorem C115_mbed {c : Area} (h : AreaOk c) :
    Storage c.start (c.stop - c.start) c.start (c.stop - c.start) (mbed c) ∧ Refuses (c.stop - c.start) (mbed c) := by
  obtain ⟨h1, h2, h3, h4⟩ := id h
  have hsz := areaOk_size h
  have hk : (c.stop - c.start) / c.page * c.page = c.stop - c.start := Nat.div_mul_cancel (Nat.dvd_of_mod_eq_zero h4)
  have hle := Nat.div_le_self (c.stop - c.start) c.page
  refine ⟨storage_mk ⟨Nat.le_refl _, Nat.le_refl _⟩ hsz ?_ ?_ ?_ ?_, ⟨?_, ?_, ?_⟩⟩
  · intro m o n hn
    show mbedRead c m o n = _
    unfold mbedRead
    rw [hsz, add32_eq (a := o) (by omega), if_neg (by omega), add32_eq (by omega)]
  · intro m o d _ hd
    show mbedWrite c m o d = _
    unfold mbedWrite
    rw [hsz, add32_eq (a := o) (by omega), if_neg (by omega), add32_eq (by omega)]
  · intro m
    refine ⟨erase m c.start (c.stop - c.start), ?_, erased_only m _ _⟩
    show mbedErase c m 0 _ = _
    unfold mbedErase
    rw [hsz, add32_eq (by omega), if_neg (by omega), if_neg (by simp),
      mbedLoop_eq h3 (by omega) ((c.stop - c.start) / c.page) _ 0 m (by omega) (by omega), hk]
    rfl
  · intro m
    refine ⟨_, rfl, only_program.widen (Nat.le_refl _) ?_, .inl (clear_zero (by decide) rfl)⟩
    show c.start + 1 ≤ _
    omega
  · intro m o n hn hw
    show mbedRead c m o n = _
    unfold mbedRead
    rw [hsz, add32_eq hw, if_pos hn]
  · intro m o d _ hn hw
    show mbedWrite c m o d = _
    unfold mbedWrite
    rw [hsz, add32_eq hw, if_pos hn]
  · intro m o n hn hw
    show mbedErase c m o n = _
    unfold mbedErase
    rw [hsz, add32_eq hw, if_pos hn]

/-- **C115 is false for erasing a part of the storage with the mbed example**: the size is taken for the end. A
part that starts at or behind its own size is not erased, with success. -/
theorem C115_false_mbed_erase {c : Area} (h : AreaOk c) (m : Flash) {o n : Nat} (ho : o % c.page = 0)
    (hin : o + n ≤ c.stop - c.start) (hno : n ≤ o) : (mbed c).erase m o n = some (true, m) := by
  obtain ⟨h1, h2, h3, h4⟩ := id h
  show mbedErase c m o n = _
  unfold mbedErase
  rw [areaOk_size h, add32_eq (by omega), if_neg (by omega), if_neg (by omega)]
  unfold mbedLoop
  rw [if_neg (by omega)]
  rfl

/-- The last sector of an STM32F429. -/
example : AreaOk ⟨0x081e0000, 0x08200000, 0x20000⟩ := by
  refine ⟨?_, ?_, ?_, ?_⟩ <;> decide +kernel

/-! ## WICED -/

/-- An application area found at start: `count` sectors of 4096 bytes, enough of them, and not at the end of the
address space. -/
def WicedFound (first count want : Nat) : Prop := want ≤ 4096 * count ∧ 4096 * (first + count) + 4096 < 2 ^ 32 ∧ 0 < count

theorem wiced_init {first count want : Nat} (h : WicedFound first count want) :
    wicedInit (some (first, count)) want = (true, some ⟨4096 * first, 4096 * (first + count), true⟩) := by
  obtain ⟨h1, h2, h3⟩ := h
  have e1 : wicedInit.mul32 4096 first = 4096 * first := Nat.mod_eq_of_lt (by omega)
  have e2 : wicedInit.mul32 4096 count = 4096 * count := Nat.mod_eq_of_lt (by omega)
  unfold wicedInit
  simp only [e1, e2]
  rw [add32_eq (by omega), sub32_eq (by omega) (by omega), if_neg (by omega), Nat.mul_add]

namespace ExampleAux

theorem wicedAddr_in {a b : Nat} (hb : b + 4096 < 2 ^ 32) {o n : Nat} (hn : a + o + n ≤ b) :
    wicedAddr (some ⟨a, b, true⟩) o n = .at (a + o) := by
  simp only [wicedAddr, Bool.not_true, Bool.false_eq_true, if_false]
  rw [add32_eq (a := a) (by omega), add32_eq (by omega), if_neg (by omega)]

theorem wicedAddr_out {a b : Nat} {o n : Nat} (hn : b < a + o + n) (hw : a + o + n < 2 ^ 32) :
    wicedAddr (some ⟨a, b, true⟩) o n = .refused := by
  simp only [wicedAddr, Bool.not_true, Bool.false_eq_true, if_false]
  rw [add32_eq (a := a) (by omega), add32_eq (by omega), if_pos (by omega)]

theorem wicedErase_in {a b : Nat} (hb : b + 4096 < 2 ^ 32) (m : Flash) {o n : Nat} (hn : a + o + n ≤ b) (hm : n % 4096 = 0) :
    wicedErase (some ⟨a, b, true⟩) m o n = some (true, erase m (a + o) n) := by
  have hk : n / 4096 * 4096 = n := by omega
  unfold wicedErase
  rw [if_neg (by omega), wicedAddr_in hb hn]
  simp only
  rw [add32_eq (by omega), wicedLoop_eq (by omega) (n / 4096) _ _ m (by omega) (by omega), hk]
  rfl

theorem wiced_storage {a n : Nat} (hb : a + n + 4096 < 2 ^ 32) (hn : n % 4096 = 0) (h0 : 0 < n) :
    Storage a n a n (wiced (some ⟨a, a + n, true⟩)) := by
  refine storage_mk ⟨Nat.le_refl _, Nat.le_refl _⟩ ?_ ?_ ?_ ?_ ?_
  · have e1 : sub32 (a + n) a = n := by rw [sub32_eq (by omega) (by omega)]; omega
    have e2 : wicedSize (some ⟨a, a + n, true⟩) = some n := by
      simp only [wicedSize, Option.map_some, if_true, e1]
    simp only [wiced, e2, Option.getD_some]
  · intro m o k hk
    show wicedRead _ m o k = _
    unfold wicedRead
    rw [wicedAddr_in hb (by omega)]
  · intro m o d _ hk
    show wicedWrite _ m o d = _
    unfold wicedWrite
    rw [wicedAddr_in hb (by omega)]
  · intro m
    have e := wicedErase_in (a := a) hb m (o := 0) (n := n) (by omega) hn
    rw [Nat.add_zero] at e
    refine ⟨erase m a n, ?_, erased_only m _ _⟩
    simp only [wiced, e]
  · intro m
    refine ⟨program m a [0, 0, 0, 0], ?_, only_program.widen (Nat.le_refl _) ?_, .inl (clear_zero (by decide) rfl)⟩
    · have e := wicedAddr_in hb (a := a) (o := 0) (n := 4) (by omega)
      simp only [wiced, wicedClear, wicedWrite, List.length_cons, List.length_nil, Nat.zero_add, Nat.reduceAdd, e,
        Option.map_some, Nat.add_zero]
    · simp only [List.length_cons, List.length_nil]
      omega

end ExampleAux

/-- **C115.** The storage of the WICED example, once it was set up at start: the sectors of the application area. -/
theorem C115_wiced {first count want : Nat} (h : WicedFound first count want) :
    (wicedInit (some (first, count)) want).1 = true ∧
    Storage (4096 * first) (4096 * count) (4096 * first) (4096 * count) (wiced (wicedInit (some (first, count)) want).2) := by
  obtain ⟨h1, h2, h3⟩ := id h
  rw [wiced_init h, Nat.mul_add]
  exact ⟨rfl, wiced_storage (by omega) (by omega) (by omega)⟩

/-- **C115.** Requests that do not lie inside the storage of the WICED example are refused, as long as they do not
reach behind the end of the address space. -/
theorem C115_wiced_refuses {first count want : Nat} (h : WicedFound first count want) (m : Flash) {o n : Nat} {d : Bytes}
    (hn : 4096 * count < o + n) (hd : d.length = n) (hw : 4096 * first + o + n < 2 ^ 32) :
    let p := wiced (wicedInit (some (first, count)) want).2
    p.read m o n = none ∧ p.write m o d = some (false, m) ∧ p.erase m o n = some (false, m) := by
  obtain ⟨h1, h2, h3⟩ := id h
  rw [wiced_init h]
  have ha : wicedAddr (some ⟨4096 * first, 4096 * (first + count), true⟩) o n = .refused :=
    wicedAddr_out (by omega) hw
  refine ⟨?_, ?_, ?_⟩
  · simp only [wiced, wicedRead, ha]
  · simp only [wiced, wicedWrite, hd, ha]
  · simp only [wiced, wicedErase, ha, ite_self]

/-- **C115.** The WICED example erases exactly the sectors it is asked to erase. -/
theorem C115_wiced_erase {first count want : Nat} (h : WicedFound first count want) (m : Flash) {o k : Nat}
    (hn : o + 4096 * k ≤ 4096 * count) :
    (wiced (wicedInit (some (first, count)) want).2).erase m o (4096 * k) =
      some (true, erase m (4096 * first + o) (4096 * k)) := by
  obtain ⟨h1, h2, h3⟩ := id h
  rw [wiced_init h]
  exact wicedErase_in (by omega) m (by omega) (by omega)

/-- **C115.** If what the WICED example keeps in memory about the storage was overwritten before the crash, nothing is
read, written or erased, and the size is 0: no coredump is saved. -/
theorem C115_wiced_clobbered {c : Ctx} (h : c.crcOk = false) (m : Flash) (o n : Nat) (d : Bytes) :
    (wiced (some c)).size = 0 ∧ (wiced (some c)).read m o n = none ∧ (wiced (some c)).write m o d = some (false, m) ∧
    (wiced (some c)).erase m o n = some (false, m) := by
  have ha : ∀ o n, wicedAddr (some c) o n = .refused := by
    intro o n
    simp [wicedAddr, h]
  refine ⟨?_, ?_, ?_, ?_⟩
  · show (wicedSize (some c)).getD 0 = 0
    simp [wicedSize, h]
  · show wicedRead _ m o n = _
    unfold wicedRead
    rw [ha]
  · show wicedWrite _ m o d = _
    unfold wicedWrite
    rw [ha]
  · show wicedErase _ m o n = _
    unfold wicedErase
    split
    · rfl
    · rw [ha]

/-- **C115 is false for the WICED example if the application area cannot be used**: the pointer to what is known about the
storage stays null and is followed when the size is asked for, also before there was any crash, instead of there being
no storage. -/
theorem C115_false_wiced_null (want : Nat) (m : Flash) (o : Nat) (d : Bytes) :
    wicedInit none want = (false, none) ∧ wicedSize (wicedInit none want).2 = none ∧
    (wiced (wicedInit none want).2).write m o d = none ∧ (wiced (wicedInit none want).2).clear m = none :=
  ⟨rfl, rfl, rfl, rfl⟩

/-- 33 sectors for 130 kB. -/
example : WicedFound 64 33 (130 * 1024) ∧
    (wiced (wicedInit (some (64, 33)) (130 * 1024)).2).erase (fun a => UInt8.ofNat a) 4096 4096 ≠ none := by
  refine ⟨⟨by decide, by decide, by decide⟩, ?_⟩
  have := C115_wiced_erase (first := 64) (count := 33) (want := 130 * 1024) ⟨by decide, by decide, by decide⟩
    (fun a => UInt8.ofNat a) (o := 4096) (k := 1) (by decide)
  rw [show 4096 * 1 = 4096 from rfl] at this
  rw [this]
  simp

/-! ## Cypress -/

/-- Writes one after the other with the function of the cypress example, until one fails. -/
def cypressWrites (c : Area) (port : BufferedStorage.Port) (s : BufferedStorage.State) :
    List (Nat × Bytes) → Option (Bool × BufferedStorage.State)
  | [] => some (true, s)
  | (o, d) :: ws =>
    match cypressWrite c port s o d with
    | none => none
    | some (false, s) => some (false, s)
    | some (true, s) => cypressWrites c port s ws

/-- An ordinary area of whole pages of 512 bytes. -/
def CypressOk (c : Area) : Prop := c.start + 512 ≤ c.stop ∧ c.stop + 512 < 2 ^ 32 ∧ c.start % 512 = 0 ∧ c.stop % 512 = 0

namespace ExampleAux

theorem cypress_size {c : Area} (h : CypressOk c) : c.size = c.stop - c.start := by
  obtain ⟨h1, h2, -⟩ := h
  exact area_size (by omega) (by omega)

theorem cypressClear_eq {c : Area} (h : CypressOk c) (m : Flash) :
    cypressClear c m = some (erase m c.start (c.stop - c.start)) := by
  obtain ⟨h1, h2, h3, h4⟩ := h
  have e1 : (c.stop - c.start) / 512 * 512 = c.stop - c.start := by omega
  have e2 : c.start + (0 + (c.stop - c.start) / 512) * 512 < 2 ^ 32 := by
    rw [Nat.zero_add, e1]; omega
  have e3 : sub32 c.stop c.start = c.stop - c.start := sub32_eq (by omega) (by omega)
  unfold cypressClear
  rw [e3, show cypressW = 512 from rfl, cypressLoop_eq _ _ m e2, e1, Nat.zero_mul, Nat.add_zero]

theorem program_erased {m : Flash} {a n : Nat} (h : ∀ i, i < n → m (a + i) = 0xff) : erase m a n = m := by
  funext i
  unfold erase
  split
  · next hi =>
    have := h (i - a) (by omega)
    rw [show a + (i - a) = i by omega] at this
    exact this.symm
  · rfl

theorem cypressWrite_eq {c : Area} (h : CypressOk c) (port : BufferedStorage.Port) (s : BufferedStorage.State) {o : Nat}
    {d : Bytes} (hw : c.start + o + d.length < 2 ^ 32) :
    cypressWrite c port s o d = BufferedStorage.bufferedWrite 512 (c.stop - c.start) port s o d := by
  obtain ⟨h1, h2, h3, h4⟩ := h
  unfold cypressWrite BufferedStorage.bufferedWrite
  rw [add32_eq (a := c.start) (by omega), add32_eq hw, add32_eq (a := o) (by omega)]
  by_cases hb : c.start + o + d.length > c.stop
  · rw [if_pos hb, if_pos (by omega)]
  · rw [if_neg hb, if_neg (by omega)]
    rfl

theorem cypressWrites_eq {c : Area} (h : CypressOk c) (port : BufferedStorage.Port) (ws : List (Nat × Bytes)) :
    ∀ s, (∀ w ∈ ws, c.start + w.1 + w.2.length < 2 ^ 32) →
      cypressWrites c port s ws = BufferedStorage.writes 512 (c.stop - c.start) port s ws := by
  induction ws with
  | nil => intro s _; rfl
  | cons w ws ih =>
    intro s hw
    obtain ⟨o, d⟩ := w
    rw [cypressWrites, BufferedStorage.writes, cypressWrite_eq h port s (hw (o, d) (by simp))]
    cases BufferedStorage.bufferedWrite 512 (c.stop - c.start) port s o d with
    | none => rfl
    | some r =>
      obtain ⟨r, s'⟩ := r
      cases r
      · rfl
      · exact ih s' (fun w hx => hw w (by simp [hx]))

theorem pieces_inside (ds : List Bytes) : ∀ (o : Nat), ∀ w ∈ pieces o ds, w.1 + w.2.length ≤ o + ds.flatten.length := by
  induction ds with
  | nil => intro o w hw; simp [pieces] at hw
  | cons d ds ih =>
    intro o w hw
    rw [pieces, List.mem_cons] at hw
    rw [List.flatten_cons, List.length_append]
    rcases hw with rfl | hw
    · simp only; omega
    · have := ih _ w hw; omega

/-- The writes of a coredump lie inside the storage. -/
theorem save_inside {plat : Plat} {mem : Bytes} {info : SaveInfo} {ws : List (Nat × Bytes)} {n : Nat}
    (h : (save plat mem info).2 = .erase n :: blockOps ws) : ∀ w ∈ ws, w.1 + w.2.length ≤ mem.length := by
  intro w hw
  have := C41_inside plat mem info (.write w.1 w.2) (by
    rw [h]
    exact List.mem_cons_of_mem _ (List.mem_map.2 ⟨w, hw, rfl⟩))
  exact this

end ExampleAux

/-- **C115.** The cypress example: blocks of 512 bytes can be written where it is erased, all of it can be erased. -/
theorem C115_cypress {c : Area} (h : CypressOk c) :
    BlockStorage c.start (c.stop - c.start) c.start (c.stop - c.start) 512 (cypress c) := by
  obtain ⟨h1, h2, h3, h4⟩ := id h
  refine ⟨⟨⟨Nat.le_refl _, Nat.le_refl _⟩, cypress_size h, ?_, ?_, ?_⟩, ?_⟩
  · intro m o n hn
    have e1 : add32 c.start o = c.start + o := add32_eq (by omega)
    have e2 : add32 (c.start + o) n = c.start + o + n := add32_eq (by omega)
    simp only [cypress, cypressRead, e1, e2]
    rw [if_neg (by omega)]
  · intro m
    have e1 : add32 c.start 0 = c.start + 0 := add32_eq (by omega)
    have e2 : add32 (c.start + 0) (c.stop - c.start) = c.start + 0 + (c.stop - c.start) := add32_eq (by omega)
    refine ⟨_, ?_, erased_only m _ _⟩
    simp only [cypress, cypressErase, e1, e2, cypressClear_eq h, Option.map_some]
    rw [if_neg (by omega)]
  · intro m
    refine ⟨erase m c.start (c.stop - c.start), ?_, only_erase, .inr ?_⟩
    · simp only [cypress, cypressClear_eq h]
    · exact erase_in (a := c.start) (i := 0) (by omega)
  · intro m o d ho hd hs hb
    have e1 : add32 c.start o = c.start + o := add32_eq (by omega)
    simp only [cypress, cypressBlock, e1, cypressW]
    rw [if_pos ⟨by omega, hd⟩, program_erased hb]

/-- **C115 (partial).** A coredump of at least one block saved with the cypress example: whatever was in the flash before,
everything succeeds, nothing else in the flash changes, what is read back parses as the coredump, and power lost between
any two blocks leaves no coredump. Missing: coredumps of less than 512 bytes (`C68_false_small_dump`). -/
theorem C115_cypress_saved_partial {c : Area} (hc : CypressOk c) {plat : Plat} (hp : ∀ i, plat.answer i = true)
    {m : Flash} {info : SaveInfo} {n : Nat} (hok : AddressesFit info)
    (h : (save plat (read m c.start (c.stop - c.start)) info).1 = some n) (hbig : 512 ≤ n) :
    ∃ m1 ws s m' mem d, (save plat (read m c.start (c.stop - c.start)) info).2 = .erase (c.stop - c.start) :: blockOps ws ∧
      (cypress c).erase m 0 (c.stop - c.start) = some (true, m1) ∧
      cypressWrites c (answers (cypress c) m1) (BufferedStorage.init 512) ws = some (true, s) ∧
      runOps (cypress c) m1 (blockOps s.log) = some m' ∧ Only c.start (c.stop - c.start) m m' ∧
      (cypress c).read m' 0 (cypress c).size = some mem ∧ parse mem = some d ∧ d.totalSize = n ∧
      (∃ got, content d.blocks = infoBlocks info ++ got ∧
        (got = regionBlocks info ∨ (d.truncated = true ∧ Shortened (regionBlocks info) got))) ∧
      ∀ k, k < s.log.length → ∃ mk memk, runOps (cypress c) m1 (blockOps (s.log.take k)) = some mk ∧
        Only c.start (c.stop - c.start) m mk ∧
        (cypress c).read mk 0 (cypress c).size = some memk ∧ hasValid true memk = none := by
  obtain ⟨h1, h2, h3, h4⟩ := id hc
  obtain ⟨m1, ws, s, m', mem, d, a1, a2, a3, -, a5, a6, a7, a8, a9, -, a11, a12⟩ :=
    C74_saved_blocks_partial (C115_cypress hc) (by omega) (by omega) (by omega) hp hok h hbig
  refine ⟨m1, ws, s, m', mem, d, a1, a2, ?_, a5, a6, a7, a8, a9, a11, a12⟩
  rw [cypressWrites_eq hc _ _ _ (fun w hw => ?_)]
  · exact a3
  · have := save_inside a1 w hw
    rw [read_length] at this
    omega

/-- **C115 is false for erasing a part of the storage with the cypress example**: always all of it is erased. -/
theorem C115_false_cypress_erase {c : Area} (hc : CypressOk c) (m : Flash) {o n : Nat} (hin : o + n ≤ c.stop - c.start) :
    (cypress c).erase m o n = some (true, erase m c.start (c.stop - c.start)) := by
  obtain ⟨h1, h2, h3, h4⟩ := id hc
  have e1 : add32 c.start o = c.start + o := add32_eq (by omega)
  have e2 : add32 (c.start + o) n = c.start + o + n := add32_eq (by omega)
  simp only [cypress, cypressErase, e1, e2, cypressClear_eq hc, Option.map_some]
  rw [if_neg (by omega)]

/-- **C115.** What would end after the area is refused by the cypress example. -/
theorem C115_cypress_refuses {c : Area} {m : Flash} {port : BufferedStorage.Port} {s : BufferedStorage.State} {o n : Nat}
    {d : Bytes} (hw : c.start + o + n < 2 ^ 32) (hd : d.length = n) (hbad : c.stop < c.start + o + n) :
    (cypress c).read m o n = none ∧ cypressWrite c port s o d = some (false, s) ∧ (cypress c).erase m o n = some (false, m) := by
  have a1 : add32 c.start o = c.start + o := add32_eq (by omega)
  have a2 : add32 (c.start + o) n = c.start + o + n := add32_eq (by omega)
  subst hd
  refine ⟨?_, ?_, ?_⟩
  · simp only [cypress, cypressRead, a1, a2]; rw [if_pos (by omega)]
  · simp only [cypressWrite, a1, a2]; rw [if_pos (by omega)]
  · simp only [cypress, cypressErase, a1, a2]; rw [if_pos (by omega)]

/-- **C115.** The mbed example does not erase from the middle of a sector. -/
theorem C115_mbed_unaligned {c : Area} (m : Flash) {o n : Nat} (ho : o % c.page ≠ 0) :
    (mbed c).erase m o n = some (false, m) := by
  show mbedErase c m o n = _
  unfold mbedErase
  rw [if_pos ho, ite_self]

/-- 64 kB at the end of the flash of a PSoC 64. -/
example : CypressOk ⟨0x101b0000, 0x101c0000, 512⟩ := by
  refine ⟨?_, ?_, ?_, ?_⟩ <;> decide +kernel

/-! ## STM32H743 -/

/-- Writes one after the other with the function of the STM32H743 example, until one fails. -/
def h7Writes (k : H7) (s : BufferedStorage.State) : List (Nat × Bytes) → Option (Bool × BufferedStorage.State)
  | [] => some (true, s)
  | (o, d) :: ws =>
    match h7Write k.startOff k.endOff s o d with
    | none => none
    | some (false, s) => some (false, s)
    | some (true, s) => h7Writes k s ws

/-- An area of whole flash words in one sector of an ordinary bank. -/
def H7Ok (k : H7) : Prop :=
  k.startOff + 32 ≤ k.endOff ∧ k.bankStart + k.endOff < 2 ^ 32 ∧ 0 < k.sector ∧ k.bankStart % 32 = 0 ∧ k.startOff % 32 = 0 ∧
    k.endOff % 32 = 0 ∧ k.endOff ≤ k.startOff / k.sector * k.sector + k.sector

namespace ExampleAux

open BufferedStorage

/-- The same buffers, and the same blocks written, perhaps in another order. -/
def Same (s t : State) : Prop := s.hdr = t.hdr ∧ s.dat = t.dat ∧ s.log.Perm t.log

/-- No block is refused. -/
def any : BufferedStorage.Port := fun _ _ => true

theorem flush_same {s t : State} (h : Same s t) : ∃ t', tryFlush 32 any t = (true, t') ∧ Same (h7Flush s) t' := by
  obtain ⟨sh, sd, sl⟩ := s
  obtain ⟨th, td, tl⟩ := t
  obtain ⟨h1, h2, h3⟩ := h
  simp only at h1 h2 h3
  subst h1
  subst h2
  have hz : (zeroBuf 32).bytesWritten = 0 := rfl
  by_cases hf : sh.bytesWritten = 32
  · by_cases hd : sd.bytesWritten = 0
    · refine ⟨⟨zeroBuf 32, sd, tl ++ [(sh.writeOffset, sh.data)]⟩, ?_, ?_⟩
      · simp [tryFlush, writeHdr, flushFullDat, any, hf, hd]
      · have : h7Flush ⟨sh, sd, sl⟩ = ⟨zeroBuf 32, sd, sl ++ [(sh.writeOffset, sh.data)]⟩ := by
          simp [h7Flush, h7WriteHdr, h7W, hf, hd]
        rw [this]
        exact ⟨rfl, rfl, h3.append_right _⟩
    · refine ⟨⟨zeroBuf 32, zeroBuf 32, tl ++ [(sd.writeOffset, sd.data)] ++ [(sh.writeOffset, sh.data)]⟩, ?_, ?_⟩
      · simp [tryFlush, writeHdr, writeDat, flushFullDat, any, hf, hd, hz]
      · have : h7Flush ⟨sh, sd, sl⟩ =
            ⟨zeroBuf 32, zeroBuf 32, sl ++ [(sh.writeOffset, sh.data)] ++ [(sd.writeOffset, sd.data)]⟩ := by
          simp [h7Flush, h7WriteHdr, h7WriteDat, h7W, hf, hd, hz]
        rw [this]
        refine ⟨rfl, rfl, ?_⟩
        simp only
        rw [List.append_assoc, List.append_assoc]
        exact h3.append (List.Perm.swap _ _ _)
  · by_cases hd : sd.bytesWritten = 32
    · refine ⟨⟨sh, zeroBuf 32, tl ++ [(sd.writeOffset, sd.data)]⟩, ?_, ?_⟩
      · simp [tryFlush, writeDat, flushFullDat, any, hf, hd]
      · have : h7Flush ⟨sh, sd, sl⟩ = ⟨sh, zeroBuf 32, sl ++ [(sd.writeOffset, sd.data)]⟩ := by
          simp [h7Flush, h7WriteDat, h7W, hf, hd]
        rw [this]
        exact ⟨rfl, rfl, h3.append_right _⟩
    · refine ⟨⟨sh, sd, tl⟩, ?_, ?_⟩
      · simp [tryFlush, flushFullDat, hf, hd]
      · have : h7Flush ⟨sh, sd, sl⟩ = ⟨sh, sd, sl⟩ := by
          simp [h7Flush, h7W, hf, hd]
        rw [this]
        exact ⟨rfl, rfl, h3⟩

/-- What becomes of a state on both sides. -/
def SameO (x : Option State) (y : Option (Bool × State)) : Prop :=
  (x = none ∧ y = none) ∨ ∃ s t, x = some s ∧ y = some (true, t) ∧ Same s t

theorem put_same {s t : State} (h : Same s t) (page idx : Nat) (d : Bytes) :
    SameO (h7Put s page idx d) (put 32 any t page idx d) := by
  obtain ⟨h1, h2, h3⟩ := h
  unfold h7Put put
  by_cases hp : page = 0
  · rw [if_pos hp, if_pos hp, h1]
    cases hm : memcpyIn t.hdr.data idx d with
    | none => exact .inl ⟨rfl, rfl⟩
    | some b =>
      right
      simp only [Option.map_some]
      obtain ⟨t', e1, e2⟩ := flush_same (s := { s with hdr := ⟨b, page, add32 t.hdr.bytesWritten d.length⟩ })
        (t := { t with hdr := ⟨b, page, add32 t.hdr.bytesWritten d.length⟩ }) ⟨rfl, h2, h3⟩
      exact ⟨_, t', rfl, by rw [e1], e2⟩
  · rw [if_neg hp, if_neg hp, h2]
    cases hm : memcpyIn t.dat.data idx d with
    | none => exact .inl ⟨rfl, rfl⟩
    | some b =>
      right
      simp only [Option.map_some]
      obtain ⟨t', e1, e2⟩ := flush_same (s := { s with dat := ⟨b, page, add32 t.dat.bytesWritten d.length⟩ })
        (t := { t with dat := ⟨b, page, add32 t.dat.bytesWritten d.length⟩ }) ⟨h1, rfl, h3⟩
      exact ⟨_, t', rfl, by rw [e1], e2⟩

theorem loop_same (a : Nat) (d : Bytes) : ∀ (fuel : Nat) (s t : State) (i : Nat), Same s t →
    SameO (h7Loop a d fuel s i) (loop 32 any a d fuel t i) := by
  intro fuel
  induction fuel with
  | zero =>
    intro s t i h
    unfold h7Loop loop
    by_cases hi : i < d.length
    · rw [if_pos hi, if_pos hi]; exact .inl ⟨rfl, rfl⟩
    · rw [if_neg hi, if_neg hi]; exact .inr ⟨_, _, rfl, rfl, h⟩
  | succ fuel ih =>
    intro s t i h
    unfold h7Loop loop
    by_cases hi : i < d.length
    · rw [if_pos hi, if_pos hi]
      simp only
      rw [show h7W = 32 from rfl]
      rcases put_same h (a + i) 0 ((d.drop i).take (min 32 (d.length - i))) with ⟨e1, e2⟩ | ⟨s', t', e1, e2, e3⟩
      · rw [e1, e2]; exact .inl ⟨rfl, rfl⟩
      · rw [e1, e2]; exact ih s' t' (i + 32) e3
    · rw [if_neg hi, if_neg hi]; exact .inr ⟨_, _, rfl, rfl, h⟩

theorem h7Write_same {k : H7} (hk : H7Ok k) {s t : State} (h : Same s t) {o : Nat} {d : Bytes}
    (hw : k.startOff + o + d.length ≤ k.endOff) {t' : State}
    (ht : bufferedWrite 32 (k.endOff - k.startOff) any t o d = some (true, t')) :
    ∃ s', h7Write k.startOff k.endOff s o d = some (true, s') ∧ Same s' t' := by
  obtain ⟨k1, k2, k3, k4, k5, k6, k7⟩ := hk
  have a1 : add32 k.startOff o = k.startOff + o := add32_eq (by omega)
  have a2 : add32 (k.startOff + o) d.length = k.startOff + o + d.length := add32_eq (by omega)
  have a3 : add32 o d.length = o + d.length := add32_eq (by omega)
  unfold h7Write
  rw [a1, a2, if_neg (by omega)]
  unfold bufferedWrite at ht
  rw [a3, if_neg (by omega)] at ht
  simp only [show h7W = 32 from rfl] at ht ⊢
  have fin : ∀ x y, SameO x y → y = some (true, t') →
      ∃ s', x.map (fun s => (true, s)) = some (true, s') ∧ Same s' t' := by
    rintro x y (⟨-, e⟩ | ⟨s1, t1, e1, e2, e3⟩) hy
    · rw [e] at hy; cases hy
    · rw [e2] at hy
      have := congrArg Prod.snd (Option.some.inj hy)
      simp only at this
      subst this
      exact ⟨s1, by rw [e1]; rfl, e3⟩
  by_cases hp : o / 32 * 32 ≠ o
  · rw [if_pos hp] at ht ⊢
    rcases put_same h (o / 32 * 32) (o - o / 32 * 32) (d.take (min (o / 32 * 32 + 32 - o) d.length)) with
      ⟨e1, e2⟩ | ⟨s1, t1, e1, e2, e3⟩
    · rw [e2] at ht; cases ht
    · rw [e2] at ht
      rw [e1]
      exact fin _ _ (loop_same _ _ _ s1 t1 0 e3) ht
  · rw [if_neg hp] at ht ⊢
    exact fin _ _ (loop_same _ _ _ s t 0 h) ht

theorem h7Writes_same {k : H7} (hk : H7Ok k) (ws : List (Nat × Bytes)) : ∀ (s t t' : State), Same s t →
    (∀ w ∈ ws, k.startOff + w.1 + w.2.length ≤ k.endOff) →
    writes 32 (k.endOff - k.startOff) any t ws = some (true, t') →
    ∃ s', h7Writes k s ws = some (true, s') ∧ Same s' t' := by
  induction ws with
  | nil =>
    intro s t t' h _ ht
    rw [writes] at ht
    have := congrArg Prod.snd (Option.some.inj ht)
    simp only at this
    subst this
    exact ⟨s, rfl, h⟩
  | cons w ws ih =>
    intro s t t' h hw ht
    obtain ⟨o, d⟩ := w
    rw [writes] at ht
    cases hb : bufferedWrite 32 (k.endOff - k.startOff) any t o d with
    | none => rw [hb] at ht; cases ht
    | some r =>
      obtain ⟨r, t1⟩ := r
      rw [hb] at ht
      cases r with
      | false => simp at ht
      | true =>
        simp only at ht
        obtain ⟨s1, e1, e2⟩ := h7Write_same hk h (hw (o, d) (by simp)) hb
        rw [h7Writes, e1]
        exact ih s1 t1 t' e2 (fun w hx => hw w (by simp [hx])) ht

/-- The memory does not depend on the order of the blocks. -/
theorem perm_memory {W : Nat} {dump mem : Bytes} {l : List (Nat × Bytes)} (hW : 0 < W) (hs1 : mem.length % W = 0)
    (hs2 : W ≤ mem.length) (hfit : dump.length ≤ mem.length) (hl : l.Perm (blocks W dump)) :
    (l.foldl Spec.BufferedStorage.program mem).take dump.length = dump := by
  obtain ⟨hn, hb⟩ := C68_blocks (dump := dump) hW hs1 hs2 hfit
  have h0 := (C68_memory hW hs1 hs2 hfit).1
  have p1 : ∀ b ∈ blocks W dump, b.1 % W = 0 ∧ b.2.length = W ∧ b.1 + W ≤ mem.length := hb
  have p2 : ∀ b ∈ l, b.1 % W = 0 ∧ b.2.length = W ∧ b.1 + W ≤ mem.length := fun b hx => hb b (hl.mem_iff.1 hx)
  have hn' : (l.map (·.1)).Nodup := (hl.map _).nodup_iff.2 hn
  have : l.foldl Spec.BufferedStorage.program mem = (blocks W dump).foldl Spec.BufferedStorage.program mem := by
    apply List.ext_getElem?
    intro i
    have q1 := programs_get hW (blocks W dump) mem p1 hn i
    have q2 := programs_get hW l mem p2 hn' i
    by_cases hx : ∃ b ∈ l, b.1 = i / W * W
    · obtain ⟨b, b1, b2⟩ := hx
      rw [q2.1 b b1 b2, q1.1 b (hl.mem_iff.1 b1) b2]
    · have hx2 : ∀ b ∈ l, b.1 ≠ i / W * W := fun b b1 b2 => hx ⟨b, b1, b2⟩
      rw [q2.2 hx2, q1.2 (fun b b1 => hx2 b (hl.mem_iff.2 b1))]
  rw [this, h0]

end ExampleAux

/-- **C115.** The STM32H743 example: blocks of 32 bytes can be written where it is erased, all of it can be erased. -/
theorem C115_h7 {k : H7} (hk : H7Ok k) :
    BlockStorage (k.bankStart + k.startOff) (k.endOff - k.startOff) (k.bankStart + k.startOff / k.sector * k.sector) k.sector 32
      (h7 k) := by
  obtain ⟨k1, k2, k3, k4, k5, k6, k7⟩ := id hk
  have hle : k.startOff / k.sector * k.sector ≤ k.startOff := Nat.div_mul_le_self _ _
  have a1 : add32 k.bankStart k.startOff = k.bankStart + k.startOff := add32_eq (by omega)
  generalize hbase : k.startOff / k.sector * k.sector = base at *
  have he : ∀ m, h7Clear k m = some (erase m (k.bankStart + base) k.sector) := by
    intro m; rw [h7Clear, hbase]
  have hin : ∀ (m : Flash) i, i < k.endOff - k.startOff →
      erase m (k.bankStart + base) k.sector (k.bankStart + k.startOff + i) = 0xff := by
    intro m i hi
    have := erase_in (m := m) (a := k.bankStart + base) (n := k.sector) (i := k.startOff - base + i) (by omega)
    rwa [show k.bankStart + base + (k.startOff - base + i) = k.bankStart + k.startOff + i by omega] at this
  refine ⟨⟨by omega, ?_, ?_, ?_, ?_⟩, ?_⟩
  · simp only [h7]
    rw [sub32_eq (by omega) (by omega)]
  · intro m o n hn
    have e1 : add32 k.startOff o = k.startOff + o := add32_eq (by omega)
    have e2 : add32 (k.startOff + o) n = k.startOff + o + n := add32_eq (by omega)
    have e3 : add32 (k.bankStart + k.startOff) o = k.bankStart + k.startOff + o := add32_eq (by omega)
    simp only [h7, h7Read, e1, e2, a1, e3]
    rw [if_neg (by omega)]
  · intro m
    refine ⟨erase m (k.bankStart + base) k.sector, ?_, only_erase, hin m⟩
    simp only [h7, h7Erase, he, Option.map_some]
  · intro m
    refine ⟨erase m (k.bankStart + base) k.sector, ?_, only_erase, .inr ?_⟩
    · simp only [h7, he]
    · exact hin m 0 (by omega)
  · intro m o d ho hd hs hb
    have e3 : add32 (k.bankStart + k.startOff) o = k.bankStart + k.startOff + o := add32_eq (by omega)
    simp only [h7, h7Block, a1, e3, h7W, programOnce]
    rw [if_pos ⟨by omega, hd, .inl (read_blank hb)⟩]
    rfl

/-- **C115 (partial).** A coredump of at least one block saved with the STM32H743 example: whatever was in the flash before,
everything succeeds, nothing outside of the sector changes, and what is read back parses as the coredump. Missing: coredumps
of less than 32 bytes, and power lost before the last block, see `C115_false_h7_crash`. -/
theorem C115_h7_saved_partial {k : H7} (hk : H7Ok k) {plat : Plat} (hp : ∀ i, plat.answer i = true)
    {m : Flash} {info : SaveInfo} {n : Nat} (hok : AddressesFit info)
    (h : (save plat (read m (k.bankStart + k.startOff) (k.endOff - k.startOff)) info).1 = some n) (hbig : 32 ≤ n) :
    ∃ m1 ws s m' mem d, (save plat (read m (k.bankStart + k.startOff) (k.endOff - k.startOff)) info).2 =
        .erase (k.endOff - k.startOff) :: blockOps ws ∧
      (h7 k).erase m 0 (k.endOff - k.startOff) = some (true, m1) ∧
      h7Writes k (BufferedStorage.init 32) ws = some (true, s) ∧
      runOps (h7 k) m1 (blockOps s.log) = some m' ∧
      Only (k.bankStart + k.startOff / k.sector * k.sector) k.sector m m' ∧
      (h7 k).read m' 0 (h7 k).size = some mem ∧ parse mem = some d ∧ d.totalSize = n ∧
      ∃ got, content d.blocks = infoBlocks info ++ got ∧
        (got = regionBlocks info ∨ (d.truncated = true ∧ Shortened (regionBlocks info) got)) := by
  obtain ⟨k1, k2, k3, k4, k5, k6, k7⟩ := id hk
  have hS := C115_h7 hk
  generalize hstart : k.bankStart + k.startOff = start at *
  generalize hsz : k.endOff - k.startOff = size at *
  generalize hlo : k.bankStart + k.startOff / k.sector * k.sector = lo at *
  have hl := read_length m start size
  obtain ⟨ds, e1, e2, e3, e4⟩ := save_seq hp h
  obtain ⟨d, g1, g2, g3, g4⟩ := C42_parses_partial (e := 0xff) hp (by rw [hl]; omega) hok h
  have hfold := foldl_save 0xff (ds := ds) (hdr := Mflt.Coredump.header n) (mem := read m start size) rfl
    (by omega)
  rw [e4, hfold] at g1
  rw [hl] at e4 g3 g1
  have hdl : (Mflt.Coredump.header n ++ ds.flatten).length = n := by
    rw [List.length_append, show (Mflt.Coredump.header n).length = 12 from rfl]; omega
  have hsave : (save plat (read m start size) info).2 =
      .erase size :: blockOps (pieces 12 ds ++ [(0, Mflt.Coredump.header n)]) := by
    rw [e4, blockOps_eq, List.map_append]; rfl
  have hins := save_inside hsave
  rw [hl] at hins
  obtain ⟨r, t, w1, w2, -, w4⟩ := C68_buffered_write_partial (W := 32) (size := size) (port := any)
    (hdr := Mflt.Coredump.header n) (ds := ds) (by show 0 < 12; omega) (by show 12 ≤ 32; omega) (by omega) (by omega) (by omega)
    (by omega) (by omega)
  have hr := w4 (fun _ _ => rfl)
  subst hr
  have w2 := w2 rfl
  generalize hdump : Mflt.Coredump.header n ++ ds.flatten = dump at hdl g1 w2
  obtain ⟨s, s1, s2⟩ := h7Writes_same hk (pieces 12 ds ++ [(0, Mflt.Coredump.header n)]) (BufferedStorage.init 32)
    (BufferedStorage.init 32) t ⟨rfl, rfl, List.Perm.refl _⟩ (fun w hw => by have := hins w hw; omega) (by rw [hsz]; exact w1)
  have hperm : s.log.Perm (blocks 32 dump) := by
    have := s2.2.2
    rwa [w2] at this
  obtain ⟨m1, f1, f2, f3⟩ := hS.erase_all m
  have hb := C68_blocks (W := 32) (size := size) (dump := dump) (by omega) (by omega) (by omega) (by omega)
  have hb' : ∀ b ∈ s.log, b.1 % 32 = 0 ∧ b.2.length = 32 ∧ b.1 + 32 ≤ size := fun b hx => hb.2 b (hperm.mem_iff.1 hx)
  have hn' : (s.log.map (·.1)).Nodup := (hperm.map _).nodup_iff.2 hb.1
  have hap := blocks_apart (W := 32) s.log hn' (fun b h => ⟨(hb' b h).1, (hb' b h).2.1⟩)
  obtain ⟨m', r1, r2, r3⟩ := runOps_blocks hS s.log m1 (fun w hw => by
    obtain ⟨x1, x2, x3⟩ := hb' w hw
    refine ⟨x1, x2, x3, fun i hi => ?_⟩
    rw [Nat.add_assoc]; exact f3 _ (by omega)) hap
  rw [foldl_program] at r3
  have hmem := perm_memory (W := 32) (dump := dump) (mem := read m1 start size) (l := s.log) (by omega)
    (by rw [read_length]; omega) (by rw [read_length]; omega) (by rw [read_length]; omega) hperm
  refine ⟨m1, _, s, m', read m' start size, d, hsave, f1, s1, by rw [blockOps_eq]; exact r1,
    f2.trans (r2.widen hS.inside.1 hS.inside.2), ?_, ?_, g2, g4⟩
  · rw [hS.size_eq, hS.read_eq _ _ _ (by omega), Nat.add_zero]
  · rw [← g1]
    have hnum : number (((dump ++ List.replicate (size - (12 + ds.flatten.length)) (0xff : UInt8)).drop 8).take 4) = n := by
      rw [← g2]
      unfold parse at g1
      simp only at g1
      split at g1
      · rw [Option.map_eq_some_iff] at g1
        obtain ⟨x, -, rfl⟩ := g1
        rfl
      · cases g1
    have htake : (dump ++ List.replicate (size - (12 + ds.flatten.length)) (0xff : UInt8)).take n =
        (read m' start size).take n := by
      rw [r3, List.take_append_of_le_length (by omega), ← hdl, hmem, List.take_length]
    refine (parse_congr ?_ (by omega) hnum htake).symm
    rw [read_length, List.length_append, List.length_replicate, hdl]
    omega

/-- An area of sixteen flash words in a sector of a kilobyte. -/
def h7Small : H7 := ⟨0x08100000, 0x200, 0x400, 0x400⟩

example : H7Ok h7Small := by unfold H7Ok h7Small; decide

/-- The writes of a list of operations on the storage. -/
def opWrites : List Mflt.Coredump.Op → List (Nat × Bytes)
  | [] => []
  | .write o d :: l => (o, d) :: opWrites l
  | .erase _ :: l => opWrites l

/-- A memory full of old data. -/
def h7Old : Flash := fun a => UInt8.ofNat a

/-- A coredump that does not end with a block. -/
def h7Info : SaveInfo := { coreInfo with serial := some (List.replicate 21 65) }

example : AddressesFit h7Info ∧
    (save coreWorks (read h7Old (h7Small.bankStart + h7Small.startOff) (h7Small.endOff - h7Small.startOff)) h7Info).1 =
      some 180 := by
  unfold AddressesFit; decide +kernel

/-- The writes that save it. -/
def h7Saves : List (Nat × Bytes) := opWrites (save coreWorks (read h7Old 0x08100200 0x200) h7Info).2

/-- **C115 is false for power lost in the STM32H743 example**: the header is written before the last block, so that a
coredump whose last block is missing is taken for a complete one. -/
theorem C115_false_h7_crash :
    H7Ok h7Small ∧ (save coreWorks (read h7Old 0x08100200 0x200) h7Info).2 = .erase 0x200 :: blockOps h7Saves ∧
      ∃ s mk mem, h7Writes h7Small (BufferedStorage.init 32) h7Saves = some (true, s) ∧
        runOps (h7 h7Small) (erase h7Old 0x08100000 0x400) (blockOps s.log.dropLast) = some mk ∧
        (h7 h7Small).read mk 0 (h7 h7Small).size = some mem ∧ (hasValid true mem).isSome ∧ (parse mem).isNone := by
  refine ⟨by unfold H7Ok h7Small; decide, by decide +kernel, ?_⟩
  have h1 : (h7Writes h7Small (BufferedStorage.init 32) h7Saves).map (·.1) = some true := by decide +kernel
  have h2 : (((h7Writes h7Small (BufferedStorage.init 32) h7Saves).bind fun r =>
      (runOps (h7 h7Small) (erase h7Old 0x08100000 0x400) (blockOps r.2.log.dropLast)).bind fun mk =>
        (h7 h7Small).read mk 0 (h7 h7Small).size).map fun mem => ((hasValid true mem).isSome && (parse mem).isNone)) =
      some true := by decide +kernel
  rw [Option.map_eq_some_iff] at h1 h2
  obtain ⟨⟨r, s⟩, e1, rfl⟩ := h1
  obtain ⟨mem, e3, e4⟩ := h2
  rw [e1, Option.bind_some, Option.bind_eq_some_iff] at e3
  obtain ⟨mk, e5, e6⟩ := e3
  rw [Bool.and_eq_true] at e4
  exact ⟨s, mk, mem, e1, e5, e6, e4.1, e4.2⟩

/-- **C115 is false for the STM32H743 example when a part is erased**: the whole sector is erased with success, whatever is
asked for, even what is not in the storage at all. -/
theorem C115_false_h7_erase (k : H7) (m : Flash) (o n : Nat) :
    ∃ m', (h7 k).erase m o n = some (true, m') ∧
      ∀ i, i < k.sector → m' (k.bankStart + k.startOff / k.sector * k.sector + i) = 0xff := by
  refine ⟨erase m (k.bankStart + k.startOff / k.sector * k.sector) k.sector, ?_, fun i hi => erase_in hi⟩
  simp only [h7, h7Erase, h7Clear, Option.map_some]

/-- **C115.** A read or a write that would end after the area is refused by the STM32H743 example. -/
theorem C115_h7_refuses {k : H7} {m : Flash} {s : BufferedStorage.State} {o n : Nat} {d : Bytes}
    (hn : k.startOff + o + n < 2 ^ 32) (hd : d.length = n) (hbad : k.endOff < k.startOff + o + n) :
    (h7 k).read m o n = none ∧ h7Write k.startOff k.endOff s o d = some (false, s) := by
  have a1 : add32 k.startOff o = k.startOff + o := add32_eq (by omega)
  have a2 : add32 (k.startOff + o) n = k.startOff + o + n := add32_eq (by omega)
  subst hd
  refine ⟨?_, ?_⟩
  · simp only [h7, h7Read, a1, a2]; rw [if_pos (by omega)]
  · simp only [h7Write, a1, a2]; rw [if_pos (by omega)]

example : h7Small.startOff + 0x1f0 + 32 < 2 ^ 32 ∧ h7Small.endOff < h7Small.startOff + 0x1f0 + 32 := by
  unfold h7Small; decide

end Mflt.Props
