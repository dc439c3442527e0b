import Verif.Model.GdbXtensa

/-!
# C134: registers of an ESP32 taken with GDB
-/

namespace Mflt.Props

open Mflt.Spec.GdbXtensa Mflt.GdbXtensa

namespace GdbXtensaAux

theorem digits : ∀ c ∈ "0123456789abcdef".toList, c ≠ 'r' ∧ c ≠ '"' := by decide +kernel

theorem nibble : ∀ n < 16, ("0123456789abcdef".toList.getD n '0').isWhitespace = false ∧
    digit ("0123456789abcdef".toList.getD n '0') = some n ∧
    "0123456789abcdef".toList.getD n '0' ∈ "0123456789abcdef".toList := by decide +kernel

theorem fromHex_hex (b : UInt8) (s : Text) : fromHex (hex b ++ s) = (fromHex s).map fun r => b :: r := by
  have hb := b.toNat_lt
  obtain ⟨h1, h2, _⟩ := nibble (b.toNat / 16) (by omega)
  obtain ⟨_, h3, _⟩ := nibble (b.toNat % 16) (by omega)
  unfold hex
  generalize "0123456789abcdef".toList.getD (b.toNat / 16) '0' = c at *
  generalize "0123456789abcdef".toList.getD (b.toNat % 16) '0' = d at *
  show fromHex (c :: d :: s) = _
  have e : UInt8.ofNat (16 * (b.toNat / 16) + b.toNat % 16) = b := by
    rw [Nat.div_add_mod]
    exact UInt8.ofNat_toNat
  rw [fromHex, if_neg (by simp [h1]), h2, h3]
  simp only [Option.bind_some, e]

theorem fromHex_bytes : ∀ l : Bytes, fromHex (l.flatMap hex) = some l := by
  intro l
  induction l with
  | nil => rfl
  | cons b l ih => rw [List.flatMap_cons, fromHex_hex, ih]; rfl

theorem hex_digits (l : Bytes) : ∀ c ∈ l.flatMap hex, c ∈ "0123456789abcdef".toList := by
  intro c hc
  obtain ⟨b, _, hc⟩ := List.mem_flatMap.1 hc
  have hb := b.toNat_lt
  unfold hex at hc
  rcases List.mem_cons.1 hc with h | h
  · rw [h]
    exact (nibble _ (by omega)).2.2
  · rw [List.mem_singleton.1 h]
    exact (nibble _ (by omega)).2.2

theorem word_length (w : BitVec 32) : ((bytes w).flatMap hex).length = 8 := rfl

theorem vals_eq (rest : Text) : ∀ (ws : List (BitVec 32)) (pre : Text) (i : Nat), pre.length = i * 8 →
    vals (pre ++ ((ws.flatMap bytes).flatMap hex ++ rest)) i ws.length = some (ws.map bytes) := by
  intro ws
  induction ws with
  | nil => intros; rfl
  | cons w ws ih =>
    intro pre i hp
    rw [List.length_cons, vals]
    have e1 : ((pre ++ (((w :: ws).flatMap bytes).flatMap hex ++ rest)).drop (i * 8)).take 8 = (bytes w).flatMap hex := by
      rw [List.drop_left' hp, List.flatMap_cons, List.flatMap_append, List.append_assoc]
      exact List.take_left' (word_length w)
    have e2 : pre ++ (((w :: ws).flatMap bytes).flatMap hex ++ rest) =
        (pre ++ (bytes w).flatMap hex) ++ ((ws.flatMap bytes).flatMap hex ++ rest) := by
      rw [List.flatMap_cons, List.flatMap_append]
      simp only [List.append_assoc]
    rw [e1, fromHex_bytes, e2, ih _ (i + 1) (by rw [List.length_append, hp, word_length]; omega)]
    rfl

theorem before_id (w : Text) : ∀ s : Text, (∀ c ∈ s, c ≠ 'r') → before ('r' :: w) s = s := by
  intro s
  induction s with
  | nil => intro _; rfl
  | cons c s ih =>
    intro h
    rw [before, if_neg, ih fun d hd => h d (List.mem_cons_of_mem _ hd)]
    have := h c (List.mem_cons_self ..)
    simp [List.isPrefixOf, Ne.symm this]

theorem literal : "received: ".toList = ['r', 'e', 'c', 'e', 'i', 'v', 'e', 'd', ':', ' '] := by decide +kernel

theorem received_printed (ws : List (BitVec 32)) (extra : Text) (he : ∀ c ∈ extra, c ∈ "0123456789abcdef".toList) :
    received (printed ws extra) = some ((ws.flatMap bytes).flatMap hex ++ (extra ++ ['\n'])) := by
  have hx := hex_digits (ws.flatMap bytes)
  have e : printed ws extra = ['s', 'e', 'n', 'd', 'i', 'n', 'g', ':', ' ', '"', 'g', '"', '\n', 'r', 'e', 'c', 'e', 'i', 'v', 'e',
      'd', ':', ' ', '"'] ++ ((ws.flatMap bytes).flatMap hex ++ (extra ++ ['"', '\n'])) := by
    have h1 : "sending: \"g\"\nreceived: \"".toList = ['s', 'e', 'n', 'd', 'i', 'n', 'g', ':', ' ', '"', 'g', '"', '\n', 'r', 'e',
      'c', 'e', 'i', 'v', 'e', 'd', ':', ' ', '"'] := by decide +kernel
    have h2 : "\"\n".toList = ['"', '\n'] := by decide +kernel
    unfold printed
    rw [h1, h2]
    simp only [List.append_assoc]
  have hn : ∀ c ∈ (ws.flatMap bytes).flatMap hex ++ extra, c ≠ 'r' ∧ c ≠ '"' := fun c hc =>
    (List.mem_append.1 hc).elim (fun h => digits c (hx c h)) fun h => digits c (he c h)
  unfold received
  rw [e, literal]
  generalize (ws.flatMap bytes).flatMap hex = X at *
  have ha : after ['r', 'e', 'c', 'e', 'i', 'v', 'e', 'd', ':', ' '] (['s', 'e', 'n', 'd', 'i', 'n', 'g', ':', ' ', '"', 'g', '"',
      '\n', 'r', 'e', 'c', 'e', 'i', 'v', 'e', 'd', ':', ' ', '"'] ++ (X ++ (extra ++ ['"', '\n']))) =
      some ('"' :: (X ++ (extra ++ ['"', '\n']))) := by
    simp [after, List.isPrefixOf]
  rw [ha, Option.map_some, before_id]
  · congr 1
    have hf : ∀ l : Text, (∀ c ∈ l, c ≠ '"') → l.filter (fun c => c != '"') = l := fun l h =>
      List.filter_eq_self.2 fun c hc => by simp [h c hc]
    rw [← List.append_assoc, ← List.append_assoc, List.filter_cons, if_neg (by decide), List.filter_append,
      hf _ fun c hc => (hn c hc).2]
    rfl
  · intro c hc
    rw [← List.append_assoc] at hc
    rcases List.mem_cons.1 hc with h | h
    · rw [h]; decide
    · rcases List.mem_append.1 h with h | h
      · exact (hn c h).1
      · rcases List.mem_cons.1 h with h | h
        · rw [h]; decide
        · rw [List.mem_singleton.1 h]; decide

theorem registerList_map (vs : List Bytes) (f : String → Bytes) : ∀ l : List String, (∀ n ∈ l, value vs n = some (f n)) →
    registerList vs l = some (l.map fun n => (n, f n)) := by
  intro l
  induction l with
  | nil => intro _; rfl
  | cons n l ih =>
    intro h
    rw [registerList, h n (List.mem_cons_self ..), ih fun m hm => h m (List.mem_cons_of_mem _ hm)]
    rfl

theorem lookup_map (f : String → Bytes) : ∀ (l : List String) (n : String), n ∈ l → (l.map fun n => (n, f n)).lookup n = some (f n) := by
  intro l
  induction l with
  | nil => intro n h; exact nomatch h
  | cons m l ih =>
    intro n h
    rw [List.map_cons, List.lookup_cons]
    by_cases e : n = m
    · rw [e]; simp
    · rw [show (n == m) = false by simp [e]]
      exact ih n ((List.mem_cons.1 h).resolve_left e)

theorem indices : collectionList.tail.map (fun n => gdbIdxRegs.idxOf? n) =
    some 0 :: some 73 :: ((List.range 64).map (fun i => some (i + 1)) ++
      [some 68, some 65, some 66, some 67, some 69, some 70]) := by decide +kernel

theorem names : "collection_type" ∉ collectionList.tail := by decide +kernel

theorem zero : fromHex "00000000".toList = some [0, 0, 0, 0] := by decide +kernel

theorem values (c : Core) :
    collectionList.map (value (c.sent.map bytes)) = c.dumped.map fun w => some (bytes w) := by
  have e : collectionList = "collection_type" :: collectionList.tail := rfl
  rw [e, List.map_cons]
  have h0 : value (c.sent.map bytes) "collection_type" = some (bytes 0#32) := by
    unfold value
    rw [if_pos rfl, zero]
    rfl
  have ht : collectionList.tail.map (value (c.sent.map bytes)) =
      (collectionList.tail.map fun n => gdbIdxRegs.idxOf? n).map fun i => i.bind fun i => (c.sent.map bytes)[i]? := by
    rw [List.map_map]
    refine List.map_congr_left fun n hn => ?_
    unfold value
    rw [if_neg (fun h : n = "collection_type" => names (h ▸ hn))]
    rfl
  rw [h0, ht, indices]
  rfl

theorem block (c : Core) (h : c.others.length = 31) (extra : Text) (he : ∀ c ∈ extra, c ∈ "0123456789abcdef".toList) :
    (readRegisters (some (printed c.sent extra))).map concatRegisters = some (c.dumped.flatMap bytes) := by
  have hl : gdbIdxRegs.length = c.sent.length := by
    simp [Core.sent, h]
    rfl
  unfold readRegisters
  rw [Option.bind_some, received_printed _ _ he, Option.bind_some, hl]
  have hv := vals_eq (extra ++ ['\n']) c.sent [] 0 rfl
  rw [List.nil_append] at hv
  rw [hv, Option.bind_some]
  have hs := values c
  generalize c.sent.map bytes = vs at hs
  have hf : ∀ n ∈ collectionList, value vs n = some ((value vs n).getD []) := by
    intro n hn
    have : value vs n ∈ collectionList.map (value vs) := List.mem_map.2 ⟨n, hn, rfl⟩
    rw [hs] at this
    obtain ⟨w, _, hw⟩ := List.mem_map.1 this
    rw [← hw]
    rfl
  rw [registerList_map vs (fun n => (value vs n).getD []) _ hf, Option.map_some]
  congr 1
  unfold concatRegisters
  have e1 : (collectionList.flatMap fun n => ((collectionList.map fun n => (n, (value vs n).getD [])).lookup n).getD [0, 0, 0, 0]) =
      collectionList.flatMap fun n => (value vs n).getD [] := by
    rw [List.flatMap_def, List.flatMap_def]
    exact congrArg List.flatten (List.map_congr_left fun n hn => by rw [lookup_map _ _ _ hn, Option.getD_some])
  have e2 : (collectionList.map fun n => (value vs n).getD []) = (collectionList.map (value vs)).map fun v => v.getD [] := by
    rw [List.map_map]
    rfl
  rw [e1, List.flatMap_def, e2, hs, List.map_map, List.flatMap_def]
  rfl

end GdbXtensaAux

open GdbXtensaAux

/-- C134. Whatever the registers of the two cores are: if the server sends all registers, and maybe more, the coredump has one block
for each core, in order, with each register in its place. Missing: a server that does not send all (`C134_false_short`) or for which
a register that a coredump does not have is unavailable (`C134_false_unavailable`). -/
theorem C134_cores_partial (core : Nat → Option Text) (c d : Core) (hc : c.others.length = 31) (hd : d.others.length = 31)
    (extra extra' : Text) (he : ∀ x ∈ extra, x ∈ "0123456789abcdef".toList) (he' : ∀ x ∈ extra', x ∈ "0123456789abcdef".toList)
    (h0 : core 0 = some (printed c.sent extra)) (h1 : core 1 = some (printed d.sent extra')) :
    blocks core = [c.dumped.flatMap bytes, d.dumped.flatMap bytes] := by
  have b0 := block c hc extra he
  have b1 := block d hd extra' he'
  obtain ⟨r0, hr0, e0⟩ := Option.map_eq_some_iff.1 b0
  obtain ⟨r1, hr1, e1⟩ := Option.map_eq_some_iff.1 b1
  unfold blocks
  simp only [currentRegisters, h0, h1, hr0, hr1, List.map_cons, List.map_nil, e0, e1]

/-- C134. If the second core cannot be read, the first is in the coredump all the same. -/
theorem C134_first_core (core : Nat → Option Text) (c : Core) (hc : c.others.length = 31) (extra : Text)
    (he : ∀ x ∈ extra, x ∈ "0123456789abcdef".toList) (h0 : core 0 = some (printed c.sent extra)) (h1 : core 1 = none) :
    blocks core = [c.dumped.flatMap bytes] := by
  obtain ⟨r0, hr0, e0⟩ := Option.map_eq_some_iff.1 (block c hc extra he)
  have hn : readRegisters none = none := rfl
  unfold blocks
  simp only [currentRegisters, h0, h1, hr0, hn, List.map_cons, List.map_nil, e0]

/-- C134. If the first core cannot be read, there is no block that could be taken for it. -/
theorem C134_no_core (core : Nat → Option Text) (h0 : core 0 = none) : blocks core = [] := by
  have hn : readRegisters none = none := rfl
  unfold blocks
  simp only [currentRegisters, h0, hn, List.map_nil]

namespace GdbXtensaAux

/-- A core for the examples. -/
def sample : Core :=
  ⟨0x400D1234, fun i => BitVec.ofNat 32 (0x3FFB0000 + i), 1, 2, 3, 4, 5, 6, 7, 8, 0x60630, List.replicate 31 0xA5#32⟩

end GdbXtensaAux

example : sample.others.length = 31 ∧ (sample.dumped.flatMap bytes).take 12 = [0, 0, 0, 0, 0x34, 0x12, 0x0D, 0x40, 0x30, 6, 6, 0] ∧
    (blocks fun _ => some (printed sample.sent "00ff".toList)).length = 2 := by decide +kernel

/-- C134 is false for a server that sends fewer registers: those that are missing have no bytes, so that the ones after them are in
the wrong places. -/
theorem C134_false_short : ∃ (c : Core) (b : Bytes), (blocks fun _ => some (printed (c.sent.take 70) [])) = [b, b] ∧
    b.length = 284 ∧ (c.dumped.flatMap bytes).length = 292 ∧ (b.drop 8).take 4 = bytes (c.ar 0) :=
  ⟨sample, (blocks fun _ => some (printed (sample.sent.take 70) [])).headD [], by decide +kernel⟩

/-- C134 is false if a register that a coredump does not have is unavailable: the core is not in the coredump at all. -/
theorem C134_false_unavailable : ∃ c : Core, c.others.length = 31 ∧
    (blocks fun _ => some (printed (c.sent.take 104) "xxxxxxxx".toList)) = [] :=
  ⟨sample, by decide +kernel, by decide +kernel⟩

end Mflt.Props
