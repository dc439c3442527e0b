import Verif.Spec.PartitionInfo
import Verif.Model.PartitionInfo
import Verif.Props.Crc16
import Verif.Lemmas.Coredump

/-!
# C121: a damaged description of the coredump partition is noticed before flash is touched
-/

namespace Mflt.Props

open Spec.Flash Spec.PartitionInfo PartitionInfo FlashPorts

namespace PartitionInfoAux

/-- The storages of the three ports, for any description. -/
def ports (sector : Nat) (k : EspCfg) (verify : Bool) (c : Part) : List Port :=
  [da1468x c sector, esp8266 c, espIdf k verify c]

theorem crc_lt (n : Nat) (ram : Bytes) : crc n ram < 2 ^ 16 := by
  unfold crc; exact BitVec.isLt _

theorem crc_inj {x y : Bytes}
    (h : ((Crc16.computeTable 0 x).getD 0).toNat = ((Crc16.computeTable 0 y).getD 0).toNat) :
    Crc16.computeTable 0 x = Crc16.computeTable 0 y := by
  have h' := BitVec.eq_of_toNat_eq h
  rw [(C03_crc_variants_agree _ _).1, (C03_crc_variants_agree _ _).1] at h' ⊢
  simpa using h'

theorem len4 (n : Nat) : (Coredump.le32 n).length = 4 := rfl

theorem ofLe32_inj {x y : Bytes} (hx : x.length = 4) (hy : y.length = 4)
    (h : Coredump.ofLe32 x = Coredump.ofLe32 y) : x = y := by
  match x, hx, y, hy with
  | [a, b, c, d], _, [e, f, g, i], _ =>
    simp only [Coredump.ofLe32] at h
    have ha := a.toNat_lt; have hb := b.toNat_lt; have hc := c.toNat_lt; have hd := d.toNat_lt
    have he := e.toNat_lt; have hf := f.toNat_lt; have hg := g.toNat_lt; have hi := i.toNat_lt
    have h1 : a = e := UInt8.toNat_inj.mp (by omega)
    have h2 : b = f := UInt8.toNat_inj.mp (by omega)
    have h3 : c = g := UInt8.toNat_inj.mp (by omega)
    have h4 : d = i := UInt8.toNat_inj.mp (by omega)
    rw [h1, h2, h3, h4]

theorem ofLe32_word {b : Bytes} {i : Nat} (h : i + 4 ≤ b.length) :
    Coredump.ofLe32 ((b.drop i).take 4) = word b i := by
  unfold word
  have g : ∀ j, j < 4 → b.getD (i + j) 0 = (b.drop i).getD j 0 := by
    intro j _
    simp [List.getD_eq_getElem?_getD, List.getElem?_drop]
  rw [g 1 (by omega), g 2 (by omega), g 3 (by omega), show b.getD i 0 = (b.drop i).getD 0 0 from g 0 (by omega)]
  match hd : b.drop i with
  | [] | [_] | [_, _] | [_, _, _] => have := congrArg List.length hd; simp at this; omega
  | a :: b :: c :: d :: r => simp [Coredump.ofLe32]

/-- Without a matching checksum nothing is asked of the storage. -/
theorem refused {sector : Nat} {k : EspCfg} {verify : Bool} {c : Part} (h : c.crcOk = false ∨ c.magicOk = false)
    (m : Flash) : ∀ p ∈ ports sector k verify c, saveErases p m = none ∧ hasValid p m = none := by
  intro p hp
  have hs : p.size = 0 := by
    simp only [ports, List.mem_cons, List.not_mem_nil, or_false] at hp
    rcases hp with rfl | rfl | rfl <;> rcases h with h | h <;>
      simp [da1468x, esp8266, espIdf, Part.validSize, h]
  simp [saveErases, hasValid, infoAndHeader, hs]

/-- The parts of what a boot leaves. -/
theorem boot_parts (p ram : Bytes) :
    boot (some p) ram = (Coredump.le32 0x45524f43 ++ p) ++
      Coredump.le32 (((Crc16.computeTable 0 (Coredump.le32 0x45524f43 ++ p)).getD 0).toNat) := by
  unfold boot crc
  simp only [List.take_length]

end PartitionInfoAux

open PartitionInfoAux

/-- **C121 (intact).** After a boot that found a partition, as long as nothing overwrites its description:
the da1468x and esp8266_sdk storages have the partition's size, and that of esp_idf its size less the
offset (and the limit) that are configured; all of them use the partition's address. -/
theorem C121_intact (L : Layout) (p ram : Bytes) (hl : p.length = L.len) (ha : L.addressAt + 4 ≤ L.len)
    (hz : L.sizeAt + 4 ≤ L.len) (sector : Nat) (k : EspCfg) (verify : Bool) :
    let c := partOf L (boot (some p) ram)
    (da1468x c sector).size = word p L.sizeAt ∧ (esp8266 c).size = word p L.sizeAt ∧
    (k.writeOffset ≤ word p L.sizeAt → k.maxSize = 0 →
      (espIdf k verify c).size = word p L.sizeAt - k.writeOffset) ∧
    (k.writeOffset ≤ word p L.sizeAt → k.writeOffset ≤ k.maxSize → 0 < k.maxSize →
      (espIdf k verify c).size = min (word p L.sizeAt) k.maxSize - k.writeOffset) ∧
    (∀ m, esp8266Clear c m = if word p L.sizeAt < 4 then some m
      else some (program m (word p L.addressAt) [0, 0, 0, 0])) := by
  have hm : (partOf L (boot (some p) ram)).magicOk = true := by
    show getCore _ = true
    rw [boot_parts]
    unfold getCore
    rw [List.append_assoc, List.take_append_of_le_length (by rw [len4]; omega)]
    decide
  have hc : (partOf L (boot (some p) ram)).crcOk = true := by
    show crcMatches L _ = true
    rw [boot_parts]
    unfold crcMatches crc
    have hlen : (Coredump.le32 0x45524f43 ++ p).length = 4 + L.len := by rw [List.length_append, len4, hl]
    rw [← hlen, List.take_left, List.drop_left, List.take_of_length_le (by rw [len4]; omega),
      Coredump.ofLe32_le32 (Nat.lt_of_lt_of_le (BitVec.isLt _) (by decide))]
    simp
  have at_ : ∀ i, i + 4 ≤ L.len →
      Coredump.ofLe32 (((boot (some p) ram).drop (4 + i)).take 4) = word p i := by
    intro i hi
    rw [boot_parts, List.append_assoc, ← List.drop_drop, List.drop_left' (len4 _),
      List.drop_append_of_le_length (by omega), List.take_append_of_le_length (by rw [List.length_drop]; omega),
      ofLe32_word (by omega)]
  have hs : (partOf L (boot (some p) ram)).size = word p L.sizeAt := at_ _ hz
  have hA : (partOf L (boot (some p) ram)).address = word p L.addressAt := at_ _ ha
  have hw : word p L.sizeAt < 2 ^ 32 := by
    unfold word
    have h0 := (p.getD L.sizeAt 0).toNat_lt; have h1 := (p.getD (L.sizeAt + 1) 0).toNat_lt
    have h2 := (p.getD (L.sizeAt + 2) 0).toNat_lt; have h3 := (p.getD (L.sizeAt + 3) 0).toNat_lt
    omega
  intro c
  refine ⟨?_, ?_, fun hk h0 => ?_, fun hk h0 hp => ?_, fun m => ?_⟩
  · show Part.validSize c = _
    simp [Part.validSize, c, hm, hc, hs]
  · show Part.validSize c = _
    simp [Part.validSize, c, hm, hc, hs]
  · show (if c.crcOk ∧ c.magicOk then espAdjustedSize k c else 0) = _
    rw [if_pos ⟨hc, hm⟩]
    unfold espAdjustedSize
    rw [h0, if_neg (by omega), hs, sub32_eq hk hw]
  · show (if c.crcOk ∧ c.magicOk then espAdjustedSize k c else 0) = _
    rw [if_pos ⟨hc, hm⟩]
    unfold espAdjustedSize
    rw [if_pos hp, hs, sub32_eq (by omega) (by omega)]
  · unfold esp8266Clear
    rw [hm, hs, hA]
    simp

/-- **C121 (never set).** Before a boot, or if there is no partition, the description is zero. Then no
coredump is saved or found, and none of the functions of the storages changes the flash. -/
theorem C121_unset (L : Layout) (n sector : Nat) (k : EspCfg) (verify : Bool) (m : Flash) :
    ∀ p ∈ [da1468x (partOf L (boot none (List.replicate n 0))) sector,
        esp8266 (partOf L (boot none (List.replicate n 0))),
        espIdf k verify (partOf L (boot none (List.replicate n 0)))],
      saveErases p m = none ∧ hasValid p m = none ∧ p.clear m = some m ∧
      (∀ o s, p.erase m o s = some (false, m)) ∧ (∀ o s, p.read m o s = none) ∧
      (∀ o d, d ≠ [] → p.write m o d = some (false, m)) := by
  have h0 : (partOf L (boot none (List.replicate n 0))).magicOk = false := by
    show getCore (List.replicate n 0) = false
    unfold getCore
    rw [List.take_replicate]
    match hn : min 4 n with
    | 0 | 1 | 2 | 3 | 4 => decide
    | m + 5 => omega
  generalize partOf L (boot none (List.replicate n 0)) = c at h0
  intro p hp
  obtain ⟨r1, r2⟩ := refused (sector := sector) (k := k) (verify := verify) (.inr h0) m p hp
  refine ⟨r1, r2, ?_⟩
  simp only [List.mem_cons, List.not_mem_nil, or_false] at hp
  have hd : ∀ d : Bytes, d ≠ [] → d.length ≠ 0 := fun d h h' => h (List.length_eq_zero_iff.1 h')
  rcases hp with rfl | rfl | rfl
  · refine ⟨by simp [da1468x, da1468xClear, partErase, h0], fun o s => by simp [da1468x, partErase, h0],
      fun o s => by simp [da1468x, partRead, h0], fun o d hd' => ?_⟩
    show da1468xWrite c m o d = _
    unfold da1468xWrite
    rw [if_neg (hd d hd'), h0]
    rfl
  · refine ⟨by simp [esp8266, esp8266Clear, h0], fun o s => by simp [esp8266, esp8266Erase, h0],
      fun o s => by simp [esp8266, partRead, h0], fun o d hd' => ?_⟩
    show esp8266Write c m o d = _
    unfold esp8266Write esp8266Loop
    rw [if_pos (Nat.pos_of_ne_zero (hd d hd'))]
    simp [mynewtWrite, h0]
  · exact ⟨by simp [espIdf, espClear, h0], fun o s => by simp [espIdf, espErase, h0],
      fun o s => by simp [espIdf, espRead, h0], fun o d _ => by simp [espIdf, espWrite, h0]⟩

/-- **C121 (damage).** After a boot that found a partition, one byte or two adjacent bytes of its
description, or any bytes of the checksum, are overwritten. Then a crash makes no request of the flash but
the read of a header, and no coredump is found. Missing: other damage (`C121_false_damage`), and what is done
without a look at the checksum (`C121_false_clear`). -/
theorem C121_damage_partial (L : Layout) (p ram new : Bytes) (hl : p.length = L.len)
    (sector : Nat) (k : EspCfg) (verify : Bool) (m : Flash)
    (hd : (∃ info sum, boot (some p) ram = info ++ sum ∧ sum.length = 4 ∧
      ((∃ info', Hit info info' ∧ new = info' ++ sum) ∨
       (∃ sum', sum' ≠ sum ∧ sum'.length = 4 ∧ new = info ++ sum')))) :
    ∀ q ∈ [da1468x (partOf L new) sector, esp8266 (partOf L new), espIdf k verify (partOf L new)],
      saveErases q m = none ∧ hasValid q m = none := by
  obtain ⟨info, sum, hb, h4, hd⟩ := hd
  rw [boot_parts] at hb
  obtain ⟨hi, hs⟩ := List.append_inj' hb (by rw [len4, h4])
  have hlen : info.length = 4 + L.len := by rw [← hi, List.length_append, len4, hl]
  rw [hi] at hs
  refine refused (.inl ?_) m
  show crcMatches L new = false
  unfold crcMatches crc
  have hsum : Coredump.ofLe32 sum = ((Crc16.computeTable 0 info).getD 0).toNat := by
    rw [← hs, Coredump.ofLe32_le32 (Nat.lt_of_lt_of_le (BitVec.isLt _) (by decide))]
  rcases hd with ⟨info', ⟨hne, pre, a, b, a', b', post, rfl, rfl⟩, rfl⟩ | ⟨sum', hne, h4', rfl⟩
  · have hl' : (pre ++ [a', b'] ++ post).length = 4 + L.len := by simpa using hlen
    rw [← hl', List.take_left, List.drop_left, List.take_of_length_le (by omega), hsum]
    rw [beq_eq_false_iff_ne]
    intro h
    refine (C04_crc_detects_two_byte_change 0 pre post a' b' a b ?_).1 (crc_inj h)
    intro h; rw [h] at hne; exact hne rfl
  · rw [← hlen, List.take_left, List.drop_left, List.take_of_length_le (by omega), ← hsum]
    rw [beq_eq_false_iff_ne]
    intro h
    exact hne (ofLe32_inj h4' h4 h.symm)

/-- **C121 (image).** What `esp_core_dump_image_get` reports is a coredump the storage has: `size` is the one
in the header of the coredump, and the bytes of flash at the address are those the storage reads. -/
theorem C121_image (L : Layout) (k : EspCfg) (verify : Bool) (ram : Bytes) (m : Flash) (pointers : Bool)
    (address size : Nat) (h : imageGet L k verify ram m pointers = .ok address size) :
    pointers = true ∧ hasValid (espIdf k verify (partOf L ram)) m = some size ∧
    (read m address 4 = [0x43, 0x4f, 0x52, 0x45]) ∧ word (read m address 12) 8 = size ∧
    ∀ n data, (espIdf k verify (partOf L ram)).read m 0 n = some data → data = read m address n := by
  unfold imageGet at h
  cases pointers with
  | false => simp at h
  | true =>
  simp only [Bool.not_true, Bool.false_eq_true, if_false] at h
  split at h
  · cases h
  cases hv : hasValid (espIdf k verify (partOf L ram)) m with
  | none => rw [hv] at h; cases h
  | some n' =>
  rw [hv] at h
  injection h with h1 h2
  subst h2
  have hread : ∀ n data, (espIdf k verify (partOf L ram)).read m 0 n = some data → data = read m address n := by
    intro n data hr
    change espRead k (partOf L ram) m 0 n = some data at hr
    unfold espRead at hr
    split at hr
    · cases hr
    split at hr
    · cases hr
    injection hr with hr
    rw [← hr, ← h1]
    congr 1
    unfold add32
    omega
  have hv' := hv
  unfold hasValid infoAndHeader at hv
  by_cases hz : (espIdf k verify (partOf L ram)).size = 0
  · rw [if_pos hz] at hv; cases hv
  rw [if_neg hz] at hv
  cases hr : (espIdf k verify (partOf L ram)).read m 0 12 with
  | none => rw [hr] at hv; cases hv
  | some hdr =>
  rw [hr] at hv
  simp only [Option.map_some] at hv
  have he := hread 12 hdr hr
  split at hv
  · rename_i hval
    injection hv with hv
    unfold Coredump.headerValid at hval
    have h12 : hdr.length = 12 := by rw [he]; simp [Spec.Flash.read]
    refine ⟨rfl, rfl, ?_, ?_, hread⟩
    · have ht : read m address 4 = hdr.take 4 := by rw [he]; rfl
      rw [ht]
      exact ofLe32_inj (by rw [List.length_take]; omega) rfl (eq_of_beq hval)
    · rw [← he, ← ofLe32_word (by omega), hv]
  · cases hv

/-! ## Examples -/

private def exL : Layout := ⟨8, 0, 4⟩
private def exPart : Bytes := [0, 0, 0x20, 0, 0, 0, 1, 0]
private def exRam : Bytes := boot (some exPart) []
private def exErased : Flash := fun _ => 0xff

/-- A boot finds 64 kB at 0x200000; a crash erases them; with one byte of the address wrong it does not. -/
example : exRam.length = 16 ∧ saveErases (esp8266 (partOf exL exRam)) exErased = some 0x10000 ∧
    saveErases (da1468x (partOf exL exRam) 4096) exErased = some 0x10000 ∧
    saveErases (espIdf ⟨4096, 0⟩ true (partOf exL exRam)) exErased = some 0xf000 := by decide +kernel

example : Hit (exRam.take 12) ((exRam.take 12).set 6 0x21) ∧ (exRam.drop 12).length = 4 ∧
    saveErases (esp8266 (partOf exL ((exRam.take 12).set 6 0x21 ++ exRam.drop 12))) exErased = none :=
  ⟨⟨by decide +kernel, exRam.take 6, 0x20, 0, 0x21, 0, (exRam.take 12).drop 8, by decide +kernel, by decide +kernel⟩,
    by decide +kernel, by decide +kernel⟩

private def exHeader : Flash := fun i =>
  if 0x201000 ≤ i then (Coredump.header 5000).getD (i - 0x201000) 0xff else 0xff

example : imageGet exL ⟨4096, 0⟩ true exRam exHeader true = .ok 0x201000 5000 := by decide +kernel

/-! ## What is false -/

/-- **C121 is false for other damage.** Three bytes of the address are overwritten and the checksum still
matches: a crash erases (and writes) 64 kB of flash that are not the partition. -/
theorem C121_false_damage : ∃ (L : Layout) (p new : Bytes), p.length = L.len ∧
    new.length = (boot (some p) []).length ∧ word p L.addressAt = 0x200000 ∧
    saveErases (esp8266 (partOf L new)) (fun _ => 0xff) = some 0x10000 ∧
    (∃ m', (esp8266 (partOf L new)).erase (fun _ => 0) 0 0x10000 = some (true, m') ∧ m' 0x11001 = 0xff) := by
  refine ⟨exL, exPart, exRam.take 4 ++ [0x01, 0x10, 0x01] ++ exRam.drop 7, by decide +kernel, by decide +kernel,
    by decide +kernel, by decide +kernel, _, rfl, by decide +kernel⟩

/-- **C121 is false for a clear.** A byte of the address is overwritten, the checksum tells, and nothing
looks at it: a clear programs zeros outside of the partition. -/
theorem C121_false_clear : ∃ (L : Layout) (p new : Bytes), p.length = L.len ∧
    Hit (boot (some p) []) new ∧ word p L.addressAt = 0x200000 ∧ word p L.sizeAt = 0x10000 ∧
    saveErases (esp8266 (partOf L new)) (fun _ => 0xff) = none ∧
    (∃ m', (esp8266 (partOf L new)).clear (fun _ => 0xff) = some m' ∧ m' 0x100000 = 0) ∧
    (∃ m', (espIdf ⟨0, 0⟩ true (partOf L new)).clear (fun _ => 0xff) = some m' ∧ m' 0x100000 = 0) := by
  refine ⟨exL, exPart, exRam.set 6 0x10, by decide +kernel, ⟨by decide +kernel, exRam.take 6, 0x20, 0, 0x10, 0, exRam.drop 8,
    by decide +kernel, by decide +kernel⟩, by decide +kernel, by decide +kernel, by decide +kernel, ?_, ?_⟩
  · have hv : (partOf exL (exRam.set 6 0x10)) = ⟨true, false, 0x100000, 0x10000⟩ := by decide +kernel
    rw [hv]
    exact ⟨_, rfl, by decide +kernel⟩
  · have hv : (partOf exL (exRam.set 6 0x10)) = ⟨true, false, 0x100000, 0x10000⟩ := by decide +kernel
    have : ((espIdf ⟨0, 0⟩ true ⟨true, false, 0x100000, 0x10000⟩).clear (fun _ => 0xff)).map (· 0x100000) = some 0 := by
      decide +kernel
    rw [hv]
    exact Option.map_eq_some_iff.1 this

end Mflt.Props
