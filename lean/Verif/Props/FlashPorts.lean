import Verif.Lemmas.FlashPorts

/-!
# C74: coredumps stored in flash memory by the ports

`Spec.Flash` (`Spec/Flash.lean`) is the specification: how flash behaves, and what a coredump storage in it
is (`Storage`, `Refuses`).
-/

namespace Mflt.Props

open FlashPorts
open Spec.Flash
open Mflt.Coredump (save SaveInfo Plat hasValid hasValid_none_iff save_seq)
open Spec.Coredump (apply parse content infoBlocks regionBlocks AddressesFit Shortened)

/-! ## What the ports are -/

/-- The flash area is an ordinary one: it does not end at the end of the address space, and consists of whole
sectors. -/
def AreaOk (c : Area) : Prop :=
  c.start + 12 ≤ c.stop ∧ c.stop + c.page < 2 ^ 32 ∧ 0 < c.page ∧ (c.stop - c.start) % c.page = 0

theorem areaOk_size {c : Area} (h : AreaOk c) : c.size = c.stop - c.start :=
  area_size (by have := h.1; omega) (by have := h.2.1; omega)

theorem readMapped_in {c : Area} (h : AreaOk c) (m : Flash) (o n : Nat) (hn : o + n ≤ c.stop - c.start) :
    readMapped c m o n = some (read m (c.start + o) n) := by
  obtain ⟨h1, h2, -⟩ := id h
  unfold readMapped
  rw [areaOk_size h, (within_iff (by omega)).2 hn, add32_eq (by omega)]
  rfl

theorem readMapped_out {c : Area} (h : AreaOk c) (m : Flash) (o n : Nat) (hn : c.stop - c.start < o + n)
    (hw : o + n < 2 ^ 32) : readMapped c m o n = none := by
  unfold readMapped
  rw [areaOk_size h, show within (c.stop - c.start) o n = false from by
    rw [Bool.eq_false_iff, ne_eq, within_iff hw]; omega]
  rfl

theorem sectorErase_all {c : Area} (h : AreaOk c) (m : Flash) :
    sectorErase c m 0 (c.stop - c.start) = some (true, erase m c.start (c.stop - c.start)) := by
  obtain ⟨h1, h2, h3, h4⟩ := id h
  unfold sectorErase
  rw [areaOk_size h, (within_iff (by omega)).2 (by omega)]
  have hk : (c.stop - c.start) / c.page * c.page = c.stop - c.start := Nat.div_mul_cancel (Nat.dvd_of_mod_eq_zero h4)
  have hle := Nat.div_le_self (c.stop - c.start) c.page
  rw [sectorLoop_eq h3 (by omega) ((c.stop - c.start) / c.page) _ 0 m (by omega) (by omega), hk]
  simp

theorem sectorErase_out {c : Area} (h : AreaOk c) (m : Flash) (o n : Nat) (hn : c.stop - c.start < o + n)
    (hw : o + n < 2 ^ 32) : sectorErase c m o n = some (false, m) := by
  unfold sectorErase
  rw [areaOk_size h, show within (c.stop - c.start) o n = false from by
    rw [Bool.eq_false_iff, ne_eq, within_iff hw]; omega]
  rfl

theorem erased_only (m : Flash) (start size : Nat) :
    Only start size m (erase m start size) ∧ ∀ i, i < size → erase m start size (start + i) = 0xff :=
  ⟨only_erase, fun _ h => erase_in h⟩

theorem storage_mk {start size lo len : Nat} {p : Port} (h1 : lo ≤ start ∧ start + size ≤ lo + len) (h2 : p.size = size)
    (h3 : ∀ m o n, o + n ≤ size → p.read m o n = some (read m (start + o) n))
    (h4 : ∀ m o d, d ≠ [] → o + d.length ≤ size → p.write m o d = some (true, program m (start + o) d))
    (h5 : ∀ m, ∃ m', p.erase m 0 size = some (true, m') ∧ Only lo len m m' ∧ ∀ i, i < size → m' (start + i) = 0xff)
    (h6 : ∀ m, ∃ m', p.clear m = some m' ∧ Only lo len m m' ∧ (m' start = 0 ∨ m' start = 0xff)) :
    Storage start size lo len p := ⟨⟨h1, h2, h3, h5, h6⟩, h4⟩

/-- **C74.** The storage of the nrf5_sdk port (without the SoftDevice). -/
theorem C74_nrf5 {c : Area} (h : AreaOk c) (dataAddr : Nat) :
    Storage c.start (c.stop - c.start) c.start (c.stop - c.start) (nrf5 c dataAddr) ∧
    Refuses (c.stop - c.start) (nrf5 c dataAddr) := by
  obtain ⟨h1, h2, h3, h4⟩ := id h
  have hsz := areaOk_size h
  refine ⟨storage_mk ⟨Nat.le_refl _, Nat.le_refl _⟩ hsz (readMapped_in h) ?_ ?_ ?_,
    ⟨readMapped_out h, ?_, sectorErase_out h⟩⟩
  · intro m o d _ hd
    show nrf5Write c dataAddr m o d = _
    unfold nrf5Write
    rw [hsz, (within_iff (by omega)).2 hd, add32_eq (by omega)]
    simp only [Bool.not_true, Bool.false_eq_true, if_false]
    split
    · have hl : (d.take (d.length / 4 * 4)).length = d.length / 4 * 4 := by rw [List.length_take]; omega
      have := program_append m (c.start + o) (d.take (d.length / 4 * 4)) (d.drop (d.length / 4 * 4))
      rw [hl, List.take_append_drop] at this
      rw [add32_eq (by omega), List.take_of_length_le (i := d.length % 4) (by rw [List.length_drop]; omega), this]
    · rfl
  · intro m
    exact ⟨_, sectorErase_all h m, erased_only m _ _⟩
  · intro m
    refine ⟨_, rfl, only_program.widen (Nat.le_refl _) ?_, .inl (clear_zero (by decide) rfl)⟩
    show c.start + 4 ≤ _
    omega
  · intro m o d _ hn hw
    show nrf5Write c dataAddr m o d = _
    unfold nrf5Write
    rw [hsz, show within (c.stop - c.start) o d.length = false from by
      rw [Bool.eq_false_iff, ne_eq, within_iff hw]; omega]
    rfl

/-- **C74.** The storage of the dialog/da145xx port. -/
theorem C74_da145xx {c : Area} (h : AreaOk c) :
    Storage c.start (c.stop - c.start) c.start (c.stop - c.start) (da145xx c) ∧
    Refuses (c.stop - c.start) (da145xx c) := by
  obtain ⟨h1, h2, h3, h4⟩ := id h
  have hsz := areaOk_size h
  have hw : ∀ m o (d : Bytes), o + d.length ≤ c.stop - c.start →
      da145xxWrite c m o d = some (true, program m (c.start + o) d) := by
    intro m o d hd
    unfold da145xxWrite
    rw [hsz, (within_iff (by omega)).2 hd, add32_eq (by omega)]
    rfl
  refine ⟨storage_mk ⟨Nat.le_refl _, Nat.le_refl _⟩ hsz (readMapped_in h) (fun m o d _ => hw m o d) ?_ ?_,
    ⟨readMapped_out h, ?_, sectorErase_out h⟩⟩
  · intro m
    exact ⟨_, sectorErase_all h m, erased_only m _ _⟩
  · intro m
    refine ⟨program m c.start [0, 0, 0, 0], ?_, only_program.widen (Nat.le_refl _) ?_, .inl (clear_zero (by decide) rfl)⟩
    · show da145xxClear c m = _
      unfold da145xxClear
      rw [hw m 0 [0, 0, 0, 0] (by show 0 + 4 ≤ _; omega)]
      rfl
    · show c.start + 4 ≤ _
      omega
  · intro m o d _ hn hw
    show da145xxWrite c m o d = _
    unfold da145xxWrite
    rw [hsz, show within (c.stop - c.start) o d.length = false from by
      rw [Bool.eq_false_iff, ne_eq, within_iff hw]; omega]
    rfl

/-- **C74.** The storage of the dialog/da1469x port. -/
theorem C74_da1469x {c : Area} (h : AreaOk c) :
    Storage c.start (c.stop - c.start) c.start (c.stop - c.start) (da1469x c) ∧
    Refuses (c.stop - c.start) (da1469x c) := by
  obtain ⟨h1, h2, h3, h4⟩ := id h
  have hsz := areaOk_size h
  have hw : ∀ m o (d : Bytes), o + d.length ≤ c.stop - c.start →
      da1469xWrite c m o d = some (true, program m (c.start + o) d) := by
    intro m o d hd
    unfold da1469xWrite
    rw [hsz, (within_iff (by omega)).2 hd, add32_eq (by omega), pageLoop_eq (by omega) _ _ _ (by omega) (by omega)]
    rfl
  refine ⟨storage_mk ⟨Nat.le_refl _, Nat.le_refl _⟩ hsz (readMapped_in h) (fun m o d _ => hw m o d) ?_ ?_,
    ⟨readMapped_out h, ?_, sectorErase_out h⟩⟩
  · intro m
    exact ⟨_, sectorErase_all h m, erased_only m _ _⟩
  · intro m
    refine ⟨program m c.start [0, 0, 0, 0], ?_, only_program.widen (Nat.le_refl _) ?_, .inl (clear_zero (by decide) rfl)⟩
    · show da1469xClear c m = _
      unfold da1469xClear
      rw [hw m 0 [0, 0, 0, 0] (by show 0 + 4 ≤ _; omega)]
      rfl
    · show c.start + 4 ≤ _
      omega
  · intro m o d _ hn hw
    show da1469xWrite c m o d = _
    unfold da1469xWrite
    rw [hsz, show within (c.stop - c.start) o d.length = false from by
      rw [Bool.eq_false_iff, ne_eq, within_iff hw]; omega]
    rfl

/-- **C74.** The storage of the stm32cube/f4 port, if it lies in the sector whose number is configured. -/
theorem C74_f4 {c : Area} {sector sectorSize : Nat} (h : AreaOk c) (hs : sector ≤ c.start)
    (he : c.stop ≤ sector + sectorSize) :
    Storage c.start (c.stop - c.start) sector sectorSize (f4 c sector sectorSize) ∧
    Refuses (c.stop - c.start) (f4 c sector sectorSize) := by
  obtain ⟨h1, h2, h3, h4⟩ := id h
  have hsz := areaOk_size h
  have hw : ∀ m o (d : Bytes), o + d.length ≤ c.stop - c.start →
      f4Write c m o d = some (true, program m (c.start + o) d) := by
    intro m o d hd
    unfold f4Write
    rw [hsz, (within_iff (by omega)).2 hd, add32_eq (by omega), byteLoop_eq _ _ _ (by omega)]
    rfl
  refine ⟨storage_mk ⟨hs, by omega⟩ hsz (readMapped_in h) (fun m o d _ => hw m o d) ?_ ?_,
    ⟨readMapped_out h, ?_, ?_⟩⟩
  · intro m
    refine ⟨erase m sector sectorSize, ?_, only_erase, ?_⟩
    · show f4Erase c sector sectorSize m 0 _ = _
      unfold f4Erase
      rw [hsz, (within_iff (by omega)).2 (by omega)]
      rfl
    · intro i hi
      have := erase_in (m := m) (a := sector) (n := sectorSize) (i := c.start - sector + i) (by omega)
      rwa [show sector + (c.start - sector + i) = c.start + i by omega] at this
  · intro m
    refine ⟨program m c.start [0, 0, 0, 0], ?_, only_program.widen hs ?_, .inl (clear_zero (by decide) rfl)⟩
    · show f4Clear c m = _
      unfold f4Clear
      rw [hw m 0 [0, 0, 0, 0] (by show 0 + 4 ≤ _; omega)]
      rfl
    · show c.start + 4 ≤ _
      omega
  · intro m o d _ hn hw
    show f4Write c m o d = _
    unfold f4Write
    rw [hsz, show within (c.stop - c.start) o d.length = false from by
      rw [Bool.eq_false_iff, ne_eq, within_iff hw]; omega]
    rfl
  · intro m o n hn hw
    show f4Erase c sector sectorSize m o n = _
    unfold f4Erase
    rw [hsz, show within (c.stop - c.start) o n = false from by
      rw [Bool.eq_false_iff, ne_eq, within_iff hw]; omega]
    rfl

/-- The partition is known and valid, and is an ordinary one. -/
def PartOk (c : Part) : Prop := c.magicOk = true ∧ c.crcOk = true ∧ 12 ≤ c.size ∧ c.address + c.size < 2 ^ 32

theorem partRead_in {c : Part} (h : PartOk c) (m : Flash) (o n : Nat) (hn : o + n ≤ c.size) :
    partRead c m o n = some (read m (c.address + o) n) := by
  obtain ⟨h1, -, h2, h3⟩ := h
  unfold partRead
  rw [h1, (within_iff (by omega)).2 hn, add32_eq (by omega)]
  rfl

theorem partRead_out {c : Part} (h : PartOk c) (m : Flash) (o n : Nat) (hn : c.size < o + n)
    (hw : o + n < 2 ^ 32) : partRead c m o n = none := by
  unfold partRead
  rw [h.1, show within c.size o n = false from by
    rw [Bool.eq_false_iff, ne_eq, within_iff hw]; omega]
  rfl

theorem partErase_in {c : Part} (h : PartOk c) (m : Flash) (o n : Nat) (hn : o + n ≤ c.size) :
    partErase c m o n = some (true, erase m (c.address + o) n) := by
  obtain ⟨h1, -, h2, h3⟩ := h
  unfold partErase
  rw [h1, (within_iff (by omega)).2 hn, add32_eq (by omega)]
  rfl

theorem partErase_out {c : Part} (h : PartOk c) (m : Flash) (o n : Nat) (hn : c.size < o + n)
    (hw : o + n < 2 ^ 32) : partErase c m o n = some (false, m) := by
  unfold partErase
  rw [h.1, show within c.size o n = false from by
    rw [Bool.eq_false_iff, ne_eq, within_iff hw]; omega]
  rfl

theorem validSize_ok {c : Part} (h : PartOk c) : c.validSize = c.size := by
  unfold Part.validSize; rw [if_pos ⟨h.2.1, h.1⟩]

theorem mynewtWrite_in {c : Part} (h : PartOk c) (m : Flash) (o : Nat) (d : Bytes) (hn : o + d.length ≤ c.size) :
    mynewtWrite c m o d = some (true, program m (c.address + o) d) := by
  obtain ⟨h1, -, h2, h3⟩ := h
  unfold mynewtWrite
  rw [h1, (within_iff (by omega)).2 hn, add32_eq (by omega)]
  rfl

/-- **C74.** The storage of the dialog/da1468x port. -/
theorem C74_da1468x {c : Part} {sector : Nat} (h : PartOk c) (hs : 0 < sector) (hs' : sector ≤ c.size) :
    Storage c.address c.size c.address c.size (da1468x c sector) ∧ Refuses c.size (da1468x c sector) := by
  obtain ⟨h1, h0, h2, h3⟩ := id h
  refine ⟨storage_mk ⟨Nat.le_refl _, Nat.le_refl _⟩ (validSize_ok h) (partRead_in h) ?_ ?_ ?_,
    ⟨partRead_out h, ?_, partErase_out h⟩⟩
  · intro m o d hd hn
    have hd : d.length ≠ 0 := fun hx => hd (List.eq_nil_of_length_eq_zero hx)
    show da1468xWrite c m o d = _
    unfold da1468xWrite
    rw [if_neg hd, h1, (within_iff (by omega)).2 hn, add32_eq (by omega)]
    rfl
  · intro m
    exact ⟨_, partErase_in h m 0 c.size (by omega), erased_only m _ _⟩
  · intro m
    refine ⟨erase m c.address sector, ?_, only_erase.widen (Nat.le_refl _) (by omega), .inr ?_⟩
    · show da1468xClear c sector m = _
      unfold da1468xClear
      rw [partErase_in h m 0 sector (by omega)]
      rfl
    · exact erase_in (a := c.address) (i := 0) hs
  · intro m o d hd hn hw
    have hd : d.length ≠ 0 := fun hx => hd (List.eq_nil_of_length_eq_zero hx)
    show da1468xWrite c m o d = _
    unfold da1468xWrite
    rw [if_neg hd, h1, show within c.size o d.length = false from by
      rw [Bool.eq_false_iff, ne_eq, within_iff hw]; omega]
    rfl

/-- **C74.** If the partition for coredumps cannot be used, nothing is read, and writing and erasing fail
and change nothing, in all ports with partitions; the ports that validate it report a size of 0. -/
theorem C74_unusable {c : Part} (h : c.magicOk = false) (sector : Nat) (k : EspCfg) (verify : Bool)
    {p : Port} (hp : p = da1468x c sector ∨ p = mynewt c ∨ p = esp8266 c ∨ p = espIdf k verify c)
    (m : Flash) (o n : Nat) {d : Bytes} (hd : d ≠ []) :
    p.read m o n = none ∧ p.write m o d = some (false, m) ∧ p.erase m o n = some (false, m) ∧
      (p ≠ mynewt c → p.size = 0) := by
  have hl : d.length ≠ 0 := fun hx => hd (List.eq_nil_of_length_eq_zero hx)
  have hpos : d.length > 0 := by omega
  rcases hp with rfl | rfl | rfl | rfl
  · simp [da1468x, partRead, da1468xWrite, partErase, Part.validSize, h, hl]
  · simp [mynewt, partRead, mynewtWrite, partErase, h]
  · simp [esp8266, partRead, esp8266Write, esp8266Loop, mynewtWrite, esp8266Erase, Part.validSize, h, hpos]
  · simp [espIdf, espRead, espWrite, espErase, h]

example : (⟨false, true, 0x1000, 64⟩ : Part).magicOk = false ∧ ([1, 2] : Bytes) ≠ [] := by decide

/-- **C74.** The storage of the mynewt port, while its flash area holds no image in use. -/
theorem C74_mynewt {c : Part} (h : PartOk c) :
    Storage c.address c.size c.address c.size (mynewt c) ∧ Refuses c.size (mynewt c) := by
  obtain ⟨h1, h0, h2, h3⟩ := id h
  refine ⟨storage_mk ⟨Nat.le_refl _, Nat.le_refl _⟩ rfl (partRead_in h) (fun m o d _ => mynewtWrite_in h m o d) ?_ ?_,
    ⟨partRead_out h, ?_, partErase_out h⟩⟩
  · intro m
    exact ⟨_, partErase_in h m 0 c.size (by omega), erased_only m _ _⟩
  · intro m
    refine ⟨program m c.address [0], ?_, only_program.widen (Nat.le_refl _) ?_, .inl (clear_zero (by decide) rfl)⟩
    · show mynewtClear c m = _
      unfold mynewtClear
      rw [h1, mynewtWrite_in h m 0 [0] (by show 0 + 1 ≤ _; omega)]
      rfl
    · show c.address + 1 ≤ _
      omega
  · intro m o d _ hn hw
    show mynewtWrite c m o d = _
    unfold mynewtWrite
    rw [h1, show within c.size o d.length = false from by
      rw [Bool.eq_false_iff, ne_eq, within_iff hw]; omega]
    rfl

/-- **C74.** The storage of the esp8266_sdk port. It does not refuse everything outside of it:
`C74_false_esp8266`. -/
theorem C74_esp8266 {c : Part} (h : PartOk c) : Storage c.address c.size c.address c.size (esp8266 c) := by
  obtain ⟨h1, h0, h2, h3⟩ := id h
  refine storage_mk ⟨Nat.le_refl _, Nat.le_refl _⟩ (validSize_ok h) (partRead_in h)
    (fun m o d _ hn => esp8266Loop_eq h1 h3 _ m o d hn (by omega)) ?_ ?_
  · intro m
    refine ⟨erase m c.address c.size, ?_, erased_only m _ _⟩
    show esp8266Erase c m 0 c.size = _
    unfold esp8266Erase
    rw [h1, add32_eq (by omega)]
    rfl
  · intro m
    refine ⟨program m c.address [0, 0, 0, 0], ?_, only_program.widen (Nat.le_refl _) ?_, .inl (clear_zero (by decide) rfl)⟩
    · show esp8266Clear c m = _
      unfold esp8266Clear
      rw [h1, if_neg (by simp), if_neg (by omega)]
    · show c.address + 4 ≤ _
      omega

/-- The number of bytes of the partition that ESP-IDF coredumps may take. -/
def espUsed (k : EspCfg) (c : Part) : Nat := if k.maxSize = 0 ∨ c.size ≤ k.maxSize then c.size else k.maxSize

/-- **C74.** The storage of the esp_idf port, behind the sectors that are left free. These are erased as well.
Nothing is refused: `C74_false_esp_idf`. -/
theorem C74_esp_idf {k : EspCfg} {verify : Bool} {c : Part} (h : PartOk c) (hk : k.writeOffset + 12 ≤ espUsed k c) :
    Storage (c.address + k.writeOffset) (espUsed k c - k.writeOffset) c.address c.size (espIdf k verify c) := by
  obtain ⟨h1, h0, h2, h3⟩ := id h
  have hu : espUsed k c ≤ c.size := by
    unfold espUsed; split
    · exact Nat.le_refl _
    · omega
  have ha : espAdjustedSize k c = espUsed k c - k.writeOffset := by
    unfold espAdjustedSize
    have : (if k.maxSize > 0 then min c.size k.maxSize else c.size) = espUsed k c := by
      unfold espUsed
      by_cases hz : k.maxSize = 0
      · simp [hz]
      · rw [if_pos (by omega)]
        by_cases hle : c.size ≤ k.maxSize
        · rw [if_pos (.inr hle), Nat.min_eq_left hle]
        · rw [if_neg (by omega), Nat.min_eq_right (by omega)]
    rw [this, sub32_eq (by omega) (by omega)]
  refine storage_mk ⟨by omega, by omega⟩ ?_ ?_ ?_ ?_ ?_
  · show (if c.crcOk = true ∧ c.magicOk = true then espAdjustedSize k c else 0) = _
    rw [if_pos ⟨h0, h1⟩, ha]
  · intro m o n hn
    show espRead k c m o n = _
    unfold espRead
    rw [h1, (within_iff (by omega)).2 (by omega), add32_eq (a := c.address) (by omega), add32_eq (by omega),
      Nat.add_right_comm]
    rfl
  · intro m o d _ hn
    show espWrite k verify c m o d = _
    unfold espWrite
    rw [h1, add32_eq (a := c.address) (by omega), add32_eq (by omega), espFlashWrite_eq (by omega),
      Nat.add_right_comm]
    rfl
  · intro m
    refine ⟨erase m c.address (espUsed k c), ?_, only_erase.widen (Nat.le_refl _) (by omega), ?_⟩
    · show espErase k c m 0 _ = _
      unfold espErase
      rw [h1, add32_eq (by omega), add32_eq (by omega), Nat.sub_add_cancel (by omega)]
      rfl
    · intro i hi
      rw [Nat.add_assoc]
      exact erase_in (by omega)
  · intro m
    refine ⟨program m (c.address + k.writeOffset) [0, 0, 0, 0], ?_, only_program.widen (by omega) ?_,
      .inl (clear_zero (by decide) rfl)⟩
    · show espClear k verify c m = _
      unfold espClear
      rw [h1, if_neg (by simp), if_neg (by omega), add32_eq (by omega), espFlashWrite_eq (by show _ + 4 < _; omega)]
    · show c.address + k.writeOffset + 4 ≤ _
      omega

/-! ## What they do -/

theorem torn_all {answer : Nat → Bool} (h : ∀ i, answer i = true) {part : Nat → Nat} (ops : List Coredump.Op) :
    ∀ i, Spec.Coredump.torn answer part i ops = ops := by
  induction ops with
  | nil => intro i; rfl
  | cons op ops ih => intro i; rw [Spec.Coredump.torn, h i, if_pos rfl, ih]

theorem apply_cut_zero (e : UInt8) (mem : Bytes) (op : Coredump.Op) : apply e mem (Spec.Coredump.cut 0 op) = mem := by
  cases op with
  | erase n => simp [Spec.Coredump.cut, apply]
  | write o d => simp [Spec.Coredump.cut, apply]

/-- **C74.** A coredump saved to any of these storages, whatever was in the flash before, provided there was
no coredump (`save` would not have started): every erase and every write succeeds, nothing outside of the part
of the flash meant for coredumps changes, and what is read back parses as the coredump. -/
theorem C74_saved {start size lo len : Nat} {p : Port} (hS : Storage start size lo len p) {plat : Plat}
    (hp : ∀ i, plat.answer i = true) (hsize : size < 2 ^ 32) {m : Flash} {info : SaveInfo} {n : Nat}
    (hok : AddressesFit info) (h : (save plat (read m start size) info).1 = some n) :
    ∃ m' mem d, runOps p m (save plat (read m start size) info).2 = some m' ∧ Only lo len m m' ∧
      p.read m' 0 p.size = some mem ∧ parse mem = some d ∧ d.totalSize = n ∧ n ≤ p.size ∧
      ∃ got, content d.blocks = infoBlocks info ++ got ∧
        (got = regionBlocks info ∨ (d.truncated = true ∧ Shortened (regionBlocks info) got)) := by
  have hl := read_length m start size
  obtain ⟨ds, e1, e2, e3, e4⟩ := save_seq hp h
  obtain ⟨d, g1, g2, g3, g4⟩ := C42_parses_partial (e := 0xff) hp (by rw [hl]; exact hsize) hok h
  rw [hl] at e4 g3
  obtain ⟨m', f1, f2, f3⟩ := runOps_save hS (hdr := Mflt.Coredump.header n) e1 rfl (by omega) m
    ((save plat (read m start size) info).2.length)
  rw [← e4, List.take_length] at f1 f3
  refine ⟨m', _, d, f1, f2, ?_, f3 ▸ g1, g2, hS.size_eq.symm ▸ g3, g4⟩
  rw [hS.size_eq, hS.read_eq _ _ _ (by omega), Nat.add_zero]

/-- **C74.** Power lost after any number of operations but the last: there is no coredump, and nothing else
has changed. -/
theorem C74_crash {start size lo len : Nat} {p : Port} (hS : Storage start size lo len p) {plat : Plat}
    (hp : ∀ i, plat.answer i = true) {m : Flash} {info : SaveInfo} {n : Nat}
    (hold : hasValid true (read m start size) = none)
    (h : (save plat (read m start size) info).1 = some n) (k : Nat)
    (hk : k < (save plat (read m start size) info).2.length) :
    ∃ m' mem, runOps p m ((save plat (read m start size) info).2.take k) = some m' ∧ Only lo len m m' ∧
      p.read m' 0 p.size = some mem ∧ hasValid true mem = none := by
  have hl := read_length m start size
  obtain ⟨ds, e1, e2, e3, e4⟩ := save_seq hp h
  rw [hl] at e4
  have hn : n ≤ size := by
    rcases coredump_ops plat (read m start size) info with h' | ⟨h', -⟩ | ⟨-, -, ws, -, h' | ⟨n', r, h', h28, hn, hr⟩⟩
    · rw [h'] at h; cases h
    · rw [h'] at h; cases h
    · rw [h'] at h; cases h
    · rw [h'] at h
      rcases hr with ⟨hr, -⟩ | hr
      · rw [hr] at h; injection h with h; omega
      · rw [hr] at h; cases h
  obtain ⟨m', f1, f2, f3⟩ := runOps_save hS (hdr := Mflt.Coredump.header n) e1 rfl (by omega) m k
  rw [← e4] at f1 f3
  refine ⟨m', read m' start size, f1, f2, by rw [hS.size_eq, hS.read_eq _ _ _ (by omega), Nat.add_zero], ?_⟩
  have := C41_crash_partial (e := 0xff) (by decide) hold plat info (fun _ => 0) k 0
    ((save plat (read m start size) info).2[k]) (List.getElem?_eq_getElem hk) (by intros; omega)
  rw [torn_all hp, List.foldl_append, List.foldl_cons, List.foldl_nil, apply_cut_zero] at this
  rw [f3]
  exact this

/-- **C74.** After a clear there is no coredump, and nothing outside of the part of the flash meant for
coredumps has changed. -/
theorem C74_cleared {start size lo len : Nat} {p : Port} (hS : Medium start size lo len p) (m : Flash) :
    ∃ m' mem, p.clear m = some m' ∧ Only lo len m m' ∧ p.read m' 0 p.size = some mem ∧
      hasValid true mem = none := by
  obtain ⟨m', e1, e2, e3⟩ := hS.clear_eq m
  refine ⟨m', _, e1, e2, by rw [hS.size_eq, hS.read_eq _ _ _ (by omega), Nat.add_zero], ?_⟩
  rw [hasValid_none_iff]
  by_cases hl : size = 0
  · left; rw [read_length]; omega
  · right
    intro hM
    have h0 := congrArg (·[0]?) hM
    simp only [List.getElem?_take_of_lt (show 0 < 4 by omega), read_get] at h0
    rw [if_pos (by omega), Nat.add_zero] at h0
    rcases e3 with e3 | e3 <;> rw [e3] at h0 <;> revert h0 <;> decide

/-- **C74.** Whatever is asked for, the sectors erased by the nrf5_sdk, da145xx and da1469x ports lie in the
storage. -/
theorem C74_erase_inside {c : Area} (h : AreaOk c) (m : Flash) (o n : Nat) (hw : o + n < 2 ^ 32) :
    ∃ b m', sectorErase c m o n = some (b, m') ∧ Only c.start (c.stop - c.start) m m' := by
  obtain ⟨h1, h2, h3, h4⟩ := id h
  by_cases hin : o + n ≤ c.stop - c.start
  · unfold sectorErase
    rw [areaOk_size h, (within_iff hw).2 hin]
    simp only [Bool.not_true, Bool.false_eq_true, if_false]
    by_cases ha : o % c.page ≠ 0
    · rw [if_pos ha]; exact ⟨_, _, rfl, Only.refl _ _ _⟩
    · rw [if_neg ha]
      obtain ⟨m', e1, e2⟩ := sectorLoop_only (n := n) (size := c.stop - c.start) h3 (by omega) (by omega) h4 (n + 1) o m
        (by omega) (by omega)
      rw [e1]
      exact ⟨_, _, rfl, e2⟩
  · rw [sectorErase_out h m o n (by omega) hw]
    exact ⟨_, _, rfl, Only.refl _ _ _⟩

/-! ## What is false -/

/-- **C74 is false for erasing a part of the storage with the nrf5_sdk, da145xx and da1469x ports**: the size is
taken for the end. A part that starts at or behind its own size is not erased, with success. -/
theorem C74_false_sector_erase {c : Area} (h : AreaOk c) (m : Flash) {o n : Nat} (ho : o % c.page = 0)
    (hin : o + n ≤ c.stop - c.start) (hno : n ≤ o) : sectorErase c m o n = some (true, m) := by
  obtain ⟨h1, h2, h3, h4⟩ := id h
  unfold sectorErase
  rw [areaOk_size h, (within_iff (by omega)).2 hin]
  simp only [Bool.not_true, Bool.false_eq_true, if_false]
  rw [if_neg (by omega)]
  unfold sectorLoop
  rw [if_neg (by omega)]
  rfl

/-- **C74 is false for erasing a part of the storage with the stm32cube/f4 port**: always all of the sector is
erased. -/
theorem C74_false_f4_erase {c : Area} (h : AreaOk c) {sector sectorSize : Nat} (m : Flash) {o n : Nat}
    (hin : o + n ≤ c.stop - c.start) : f4Erase c sector sectorSize m o n = some (true, erase m sector sectorSize) := by
  obtain ⟨h1, h2, -⟩ := id h
  unfold f4Erase
  rw [areaOk_size h, (within_iff (by omega)).2 hin]
  rfl

/-- **C74 is false for requests outside of the storage with the esp8266_sdk port**: 4096 bytes of a write that
does not fit are written before it is refused, and anything can be erased. -/
theorem C74_false_esp8266 {c : Part} (h : PartOk c) (m : Flash) {o : Nat} {d : Bytes} (h1 : o + 4096 = c.size)
    (h2 : 4096 < d.length) (h3 : d.length ≤ 8192) (hw : c.size + 8192 < 2 ^ 32) (o' n : Nat) (hw' : c.address + o' < 2 ^ 32) :
    (esp8266 c).write m o d = some (false, program m (c.address + o) (d.take 4096)) ∧
    (esp8266 c).erase m o' n = some (true, erase m (c.address + o') n) := by
  obtain ⟨g1, g0, g2, g3⟩ := id h
  constructor
  · show esp8266Loop c (d.length + 1) m o d = _
    unfold esp8266Loop
    rw [if_pos (by omega)]
    simp only
    rw [Nat.min_eq_left (by omega), mynewtWrite_in h m o (d.take 4096) (by rw [List.length_take]; omega)]
    simp only
    rw [add32_eq (by omega)]
    obtain ⟨f, hf⟩ : ∃ f, d.length = f + 1 := ⟨d.length - 1, by omega⟩
    rw [hf]
    unfold esp8266Loop
    rw [if_pos (by rw [List.length_drop]; omega)]
    simp only
    rw [Nat.min_eq_right (by rw [List.length_drop]; omega)]
    have hx : ((d.drop 4096).take (d.drop 4096).length).length = d.length - 4096 := by
      rw [List.take_length, List.length_drop]
    have : ∀ m, mynewtWrite c m (o + 4096) ((d.drop 4096).take (d.drop 4096).length) = some (false, m) := by
      intro m
      unfold mynewtWrite
      rw [g1, show within c.size (o + 4096) ((d.drop 4096).take (d.drop 4096).length).length = false from by
        rw [Bool.eq_false_iff, ne_eq, within_iff (by omega)]; omega]
      rfl
    rw [this]
  · show esp8266Erase c m o' n = _
    unfold esp8266Erase
    rw [g1, add32_eq hw']
    rfl

/-- **C74 is false for requests outside of the storage with the esp_idf port**: everything is written and
erased, also behind the partition, and behind it as much as is left free before it can be read. -/
theorem C74_false_esp_idf {k : EspCfg} {verify : Bool} {c : Part} (h : PartOk c) (m : Flash) {o n : Nat} {d : Bytes}
    (hw : c.address + o + k.writeOffset + d.length + n < 2 ^ 32) :
    (espIdf k verify c).write m o d = some (true, program m (c.address + o + k.writeOffset) d) ∧
    (espIdf k verify c).erase m o n = some (true, erase m (c.address + o) (n + k.writeOffset)) ∧
    (o + n ≤ c.size → (espIdf k verify c).read m o n = some (read m (c.address + o + k.writeOffset) n)) := by
  obtain ⟨g1, g0, g2, g3⟩ := id h
  refine ⟨?_, ?_, fun hn => ?_⟩
  · show espWrite k verify c m o d = _
    unfold espWrite
    rw [g1, add32_eq (a := c.address) (by omega), add32_eq (by omega), espFlashWrite_eq (by omega)]
    rfl
  · show espErase k c m o n = _
    unfold espErase
    rw [g1, add32_eq (a := c.address) (by omega), add32_eq (by omega)]
    rfl
  · show espRead k c m o n = _
    unfold espRead
    rw [g1, (within_iff (by omega)).2 hn, add32_eq (a := c.address) (by omega), add32_eq (by omega)]
    rfl

/-! ## Examples -/

/-- 64 kB of an nRF52 and a partition of 256 kB on an ESP32, of which 4 kB are left free. -/
example : AreaOk ⟨0xe0000, 0xf0000, 0x1000⟩ ∧ PartOk ⟨true, true, 0x110000, 0x40000⟩ ∧
    espUsed ⟨0x1000, 0⟩ ⟨true, true, 0x110000, 0x40000⟩ = 0x40000 := by
  refine ⟨⟨?_, ?_, ?_, ?_⟩, ⟨?_, ?_, ?_, ?_⟩, ?_⟩ <;> decide +kernel

/-- A flash full of data, and a coredump in it. -/
example : (save coreWorks (read (fun a => UInt8.ofNat a) 0x1020 160) coreInfo).1 = some 160 ∧
    ((runOps (nrf5 ⟨0x1020, 0x10c0, 0x20⟩ 1) (fun a => UInt8.ofNat a)
      (save coreWorks (read (fun a => UInt8.ofNat a) 0x1020 160) coreInfo).2).bind fun m' =>
    (nrf5 ⟨0x1020, 0x10c0, 0x20⟩ 1).read m' 0 160).bind (hasValid true) = some 160 := by
  decide +kernel

end Mflt.Props
