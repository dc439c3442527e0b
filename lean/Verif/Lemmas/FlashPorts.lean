import Verif.Model.FlashPorts
import Verif.Lemmas.Flash

/-! # Lemmas: the coredump storages in flash of the ports -/

namespace Mflt.FlashPorts

open Spec.Flash

theorem within_iff {size o n : Nat} (h : o + n < 2 ^ 32) : within size o n = true ↔ o + n ≤ size := by
  unfold within; rw [add32_eq h]; simp

theorem area_size {c : Area} (h1 : c.start ≤ c.stop) (h2 : c.stop < 2 ^ 32) : c.size = c.stop - c.start := by
  unfold Area.size; exact sub32_eq h1 h2

theorem drop_split (d : Bytes) (i n : Nat) : (d.drop i).take n ++ d.drop (i + n) = d.drop i := by
  rw [← List.drop_drop, List.take_append_drop]

/-- The part that is done and the part that remains. -/
theorem program_drop (m : Flash) (a i n : Nat) (d : Bytes) (h : i + n ≤ d.length) :
    program (program m (a + i) ((d.drop i).take n)) (a + (i + n)) (d.drop (i + n)) = program m (a + i) (d.drop i) := by
  have hl : ((d.drop i).take n).length = n := by rw [List.length_take, List.length_drop]; omega
  have := program_append m (a + i) ((d.drop i).take n) (d.drop (i + n))
  rw [hl, Nat.add_assoc, drop_split] at this
  exact this

theorem sectorLoop_eq {c : Area} {n : Nat} (hp : 0 < c.page) (hn : c.start + n < 2 ^ 32) : ∀ (k fuel sector : Nat) (m : Flash),
    sector + k * c.page = n → k < fuel → sectorLoop c n fuel m sector = some (erase m (c.start + sector) (k * c.page)) := by
  intro k
  induction k with
  | zero =>
    intro fuel sector m h hf
    unfold sectorLoop
    rw [if_neg (by omega), Nat.zero_mul, erase_zero]
  | succ k ih =>
    intro fuel sector m h hf
    rw [Nat.add_mul, Nat.one_mul] at h
    cases fuel with
    | zero => omega
    | succ fuel =>
      unfold sectorLoop
      rw [if_pos (by omega)]
      simp only
      rw [add32_eq (by omega), add32_eq (by omega), ih fuel (sector + c.page) _ (by omega) (by omega),
        ← Nat.add_assoc, erase_append, Nat.add_mul, Nat.one_mul, Nat.add_comm c.page]

/-- Whatever is asked for, only whole sectors of the storage are erased. -/
theorem sectorLoop_only {c : Area} {n size : Nat} (hp : 0 < c.page) (hs : c.start + size + c.page < 2 ^ 32) (hn : n ≤ size)
    (hd : size % c.page = 0) : ∀ (fuel sector : Nat) (m : Flash), sector % c.page = 0 → n < fuel + sector →
    ∃ m', sectorLoop c n fuel m sector = some m' ∧ Only c.start size m m' := by
  intro fuel
  induction fuel with
  | zero =>
    intro sector m _ hf
    unfold sectorLoop
    rw [if_neg (by omega)]
    exact ⟨m, rfl, Only.refl _ _ _⟩
  | succ fuel ih =>
    intro sector m h0 hf
    unfold sectorLoop
    by_cases h : sector < n
    · rw [if_pos h]
      simp only
      have h1 : sector + c.page ≤ size := by
        obtain ⟨a, ha⟩ := Nat.dvd_of_mod_eq_zero h0
        obtain ⟨b, hb⟩ := Nat.dvd_of_mod_eq_zero hd
        have : a < b := by
          apply Nat.lt_of_mul_lt_mul_left (a := c.page); omega
        have := Nat.mul_le_mul_left c.page (show a + 1 ≤ b from this)
        rw [Nat.mul_add, Nat.mul_one] at this
        omega
      rw [add32_eq (by omega), add32_eq (by omega)]
      obtain ⟨m', e1, e2⟩ := ih (sector + c.page) (erase m (c.start + sector) c.page) (by
        rw [Nat.add_mod_right]; exact h0) (by omega)
      exact ⟨m', e1, (only_erase.widen (by omega) (by omega)).trans e2⟩
    · rw [if_neg h]; exact ⟨m, rfl, Only.refl _ _ _⟩

theorem pageLoop_eq {address : Nat} {data : Bytes} (h : address + data.length < 2 ^ 32) : ∀ (fuel : Nat) (m : Flash) (done : Nat),
    done ≤ data.length → data.length < fuel + done →
    pageLoop address data fuel m done = some (program m (address + done) (data.drop done)) := by
  intro fuel
  induction fuel with
  | zero =>
    intro m done h1 h2
    omega
  | succ fuel ih =>
    intro m done h1 h2
    unfold pageLoop
    by_cases h3 : done < data.length
    · rw [if_pos h3]
      simp only
      have hm := Nat.mod_lt (add32 address done) (show 256 > 0 by omega)
      generalize add32 address done % 256 = r at hm
      have e1 : add32 address done = address + done := add32_eq (by omega)
      rw [add32_eq (a := done) (by omega), ih _ _ (by omega) (by omega), e1, program_drop _ _ _ _ _ (by omega)]
    · rw [if_neg h3, List.drop_eq_nil_of_le (by omega), program_nil]

theorem byteLoop_eq (d : Bytes) : ∀ (m : Flash) (a : Nat), a + d.length < 2 ^ 32 → byteLoop m a d = program m a d := by
  induction d with
  | nil => intro m a _; rw [byteLoop, program_nil]
  | cons b d ih =>
    intro m a h
    rw [List.length_cons] at h
    rw [byteLoop, add32_eq (by omega), ih _ _ (by omega)]
    exact program_append m a [b] d

theorem espChunkLoop_eq {dest : Nat} {data : Bytes} (h : dest + data.length < 2 ^ 32) : ∀ (fuel : Nat) (m : Flash) (done : Nat),
    data.length < fuel + done →
    espChunkLoop dest data fuel m done = some (program m (dest + done) (data.drop done)) := by
  intro fuel
  induction fuel with
  | zero =>
    intro m done h2
    unfold espChunkLoop
    rw [if_neg (by omega), List.drop_eq_nil_of_le (by omega), program_nil]
  | succ fuel ih =>
    intro m done h2
    unfold espChunkLoop
    by_cases h3 : done < data.length
    · rw [if_pos h3]
      simp only
      rw [add32_eq (by omega), ih _ _ (by omega)]
      by_cases h4 : 128 ≤ data.length - done
      · rw [Nat.min_eq_left h4, program_drop _ _ _ _ _ (by omega)]
      · rw [Nat.min_eq_right (by omega), List.drop_eq_nil_of_le (i := done + 128) (by omega), program_nil,
          List.take_of_length_le (by rw [List.length_drop]; omega)]
    · rw [if_neg h3, List.drop_eq_nil_of_le (by omega), program_nil]

theorem espFlashWrite_eq {verify : Bool} {dest : Nat} {data : Bytes} (h : dest + data.length < 2 ^ 32) (m : Flash) :
    espFlashWrite verify m dest data = some (program m dest data) := by
  unfold espFlashWrite
  cases verify
  · rfl
  · rw [if_pos rfl, espChunkLoop_eq h _ _ _ (by omega), Nat.add_zero, List.drop_zero]

theorem esp8266Loop_eq {c : Part} (hm : c.magicOk = true) (hs : c.address + c.size < 2 ^ 32) : ∀ (fuel : Nat) (m : Flash)
    (o : Nat) (d : Bytes), o + d.length ≤ c.size → d.length < fuel →
    esp8266Loop c fuel m o d = some (true, program m (c.address + o) d) := by
  intro fuel
  induction fuel with
  | zero => intro m o d _ h; omega
  | succ fuel ih =>
    intro m o d h1 h2
    unfold esp8266Loop
    by_cases h3 : d.length > 0
    · rw [if_pos h3]
      simp only
      have hl : (d.take (min 4096 d.length)).length = min 4096 d.length := by rw [List.length_take]; omega
      have hw : mynewtWrite c m o (d.take (min 4096 d.length)) =
          some (true, program m (c.address + o) (d.take (min 4096 d.length))) := by
        unfold mynewtWrite
        rw [hm, (within_iff (by omega)).2 (by omega), add32_eq (by omega)]
        rfl
      rw [hw]
      simp only
      rw [add32_eq (by omega), ih _ _ _ (by rw [List.length_drop]; omega) (by rw [List.length_drop]; omega)]
      have := program_append m (c.address + o) (d.take (min 4096 d.length)) (d.drop (min 4096 d.length))
      rw [hl, List.take_append_drop, Nat.add_assoc] at this
      rw [this]
    · rw [if_neg h3, show d = [] from List.eq_nil_of_length_eq_zero (by omega), program_nil]

theorem clear_zero {m : Flash} {a : Nat} {d : Bytes} (h0 : 0 < d.length) (hd : d.getD 0 0xff = 0) : program m a d a = 0 := by
  have := program_in (m := m) (a := a) (i := 0) h0
  rw [Nat.add_zero, hd] at this
  rw [this]
  apply UInt8.toBitVec_inj.1
  exact BitVec.and_zero

end Mflt.FlashPorts
