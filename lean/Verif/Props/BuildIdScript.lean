import Verif.Spec.BuildIdScript
import Verif.Props.BuildId

/-!
# C122: the script's build id is the one the firmware reports, and it does not change
-/

namespace Mflt.Props

open Spec.BuildIdScript BuildIdScript
open Spec.BuildId (hex)

namespace BuildIdScriptAux

def slice (f : Bytes) (o n : Nat) : Bytes := (f.drop o).take n

theorem slice_get (f : Bytes) (o n i : Nat) : (slice f o n)[i]? = if i < n then f[o + i]? else none := by
  unfold slice
  rw [List.getElem?_take]
  simp [List.getElem?_drop]

theorem patch_file {e : Elf} {o : Nat} {d : Bytes} (h : o + d.length ≤ e.file.length) :
    (patch e o d).file = e.file.take o ++ d ++ e.file.drop (o + d.length) := by
  unfold patch
  simp only [show o - e.file.length = 0 by omega, List.replicate_zero, List.append_nil]

theorem patch_get {e : Elf} {o : Nat} {d : Bytes} (h : o + d.length ≤ e.file.length) (i : Nat) :
    (patch e o d).file[i]? = if o ≤ i ∧ i < o + d.length then d[i - o]? else e.file[i]? := by
  rw [patch_file h, List.append_assoc]
  have ht : (e.file.take o).length = o := by rw [List.length_take]; omega
  rcases Nat.lt_or_ge i o with h1 | h1
  · rw [List.getElem?_append_left (by omega), if_neg (by omega), List.getElem?_take, if_pos h1]
  rw [List.getElem?_append_right (by omega), ht]
  rcases Nat.lt_or_ge (i - o) d.length with h2 | h2
  · rw [List.getElem?_append_left h2, if_pos (by omega)]
  · rw [List.getElem?_append_right h2, if_neg (by omega), List.getElem?_drop]
    congr 1
    omega

theorem patch_length {e : Elf} {o : Nat} {d : Bytes} (h : o + d.length ≤ e.file.length) :
    (patch e o d).file.length = e.file.length := by
  rw [patch_file h]
  simp only [List.length_append, List.length_take, List.length_drop]
  omega

/-- A slice that the patch does not touch. -/
theorem slice_apart {e : Elf} {o : Nat} {d : Bytes} (h : o + d.length ≤ e.file.length) {p n : Nat}
    (ha : ∀ i, p ≤ i → i < p + n → o ≤ i → i < o + d.length → False) :
    slice (patch e o d).file p n = slice e.file p n := by
  apply List.ext_getElem?
  intro i
  rw [slice_get, slice_get]
  split
  · rw [patch_get h, if_neg]
    intro hi
    exact ha (p + i) (by omega) (by omega) hi.1 hi.2
  · rfl

theorem slice_self {e : Elf} {o : Nat} {d : Bytes} (h : o + d.length ≤ e.file.length) :
    slice (patch e o d).file o d.length = d := by
  apply List.ext_getElem?
  intro i
  rw [slice_get]
  split
  · rw [patch_get h, if_pos (by omega)]
    congr 1; omega
  · rw [List.getElem?_eq_none (by omega)]

theorem slice_slice (f : Bytes) (o n p m : Nat) (h : p + m ≤ n) :
    ((slice f o n).drop p).take m = slice f (o + p) m := by
  apply List.ext_getElem?
  intro i
  rw [List.getElem?_take, slice_get, List.getElem?_drop, slice_get]
  by_cases hi : i < m
  · rw [if_pos hi, if_pos hi, if_pos (by omega)]
    congr 1; omega
  · rw [if_neg hi, if_neg hi]

theorem data_eq {e : Elf} {s : Section} (h : s.nobits = false) : sectionData e s = slice e.file s.offset s.size := by
  unfold sectionData slice
  rw [h]
  rfl

/-- The section with some loaded bytes is found. -/
theorem found {e : Elf} (hs : Sane e) {name : String} {a : Nat} {d : Bytes} (hn : Named e name a d.length)
    (hl : Loaded e a d) : ∃ s ∈ e.sections, s.alloc = true ∧ s.nobits = false ∧ s.addr ≤ a ∧
      a + d.length ≤ s.addr + s.size ∧ slice e.file (s.offset + (a - s.addr)) d.length = d ∧
      findSymbol e (some name) = some (⟨some name, a, d.length⟩, s) := by
  obtain ⟨hd, s, h1, h2, h3, h4, h5, h6⟩ := hl
  have hpos : 0 < d.length := List.length_pos_iff.2 hd
  refine ⟨s, h1, h2, h3, h4, h5, h6, ?_⟩
  unfold findSymbol
  have hf : e.symbols.find? (fun y => decide (y.name = some name)) = some ⟨some name, a, d.length⟩ := by
    cases hq : e.symbols.find? (fun y => decide (y.name = some name)) with
    | none =>
      have := List.find?_eq_none.1 hq _ hn.1
      simp at this
    | some y =>
      have hy := List.find?_some hq
      have hm := List.mem_of_find?_eq_some hq
      rw [hn.2 y hm (by simpa using hy)]
  rw [hf]
  simp only
  have hg : findSection e a (a + d.length) = some s := by
    unfold findSection
    cases hq : e.sections.find? (fun s => s.alloc && decide (s.addr ≤ a ∧ a < s.addr + s.size) &&
        decide (s.addr ≤ a + d.length ∧ a + d.length ≤ s.addr + s.size)) with
    | none =>
      have := List.find?_eq_none.1 hq s h1
      simp [h2] at this
      omega
    | some t =>
      have ht := List.find?_some hq
      have hm := List.mem_of_find?_eq_some hq
      simp only [Bool.and_eq_true, decide_eq_true_eq] at ht
      rw [hs.placed s h1 t hm h2 ht.1.1 a h4 (by omega) ht.1.2.1 ht.1.2.2]
  rw [hg]
  rfl

theorem symbol_data {e : Elf} {s : Section} {y : Symbol} (h : s.nobits = false) (h1 : s.addr ≤ y.value)
    (h2 : y.value + y.size ≤ s.addr + s.size) :
    symbolData e y s = slice e.file (s.offset + (y.value - s.addr)) y.size := by
  unfold symbolData
  rw [data_eq h, slice_slice _ _ _ _ _ (by omega)]

theorem packLe_eq {n : Nat} (h : n < 2 ^ 32) : packLe n = some (word n) := by
  unfold packLe word
  rw [if_pos h]

/-- The input of the hash without a symbol. -/
theorem input_image {e : Elf} (hs : Sane e) : sha1Input e none = some (image e) := by
  unfold sha1Input image
  suffices ∀ l : List Section, (∀ s ∈ l, s ∈ e.sections) →
      inputLoop e none (1 :: List.replicate 19 0) 20 l = some (l.flatMap fun s =>
        if s.alloc then word s.addr ++ if s.nobits && s.write && !s.exec then word s.size else bytesOf e s else []) from
    this _ fun _ h => h
  intro l
  induction l with
  | nil => intro _; rfl
  | cons s l ih =>
    intro hl
    have ih := ih fun t h => hl t (List.mem_cons_of_mem _ h)
    rw [inputLoop, List.flatMap_cons]
    cases ha : s.alloc with
    | false => simpa using ih
    | true =>
      obtain ⟨hsm, hsz⟩ := hs.small s (hl s (List.mem_cons_self ..)) ha
      have : sectionInput e none (1 :: List.replicate 19 0) 20 s = some (word s.addr ++
          if s.nobits && s.write && !s.exec then word s.size else bytesOf e s) := by
        unfold sectionInput
        rw [packLe_eq hsm, packLe_eq hsz]
        unfold sectionType bytesOf sectionData
        cases s.exec <;> cases s.write <;> cases s.nobits <;> simp [ha]
      rw [this, ih]
      simp

theorem loaded_iff {e : Elf} (hs : Sane e) {s : Section} (h1 : s ∈ e.sections) (h2 : s.alloc = true)
    (h3 : s.nobits = false) {a : Nat} {c : Bytes} (h4 : s.addr ≤ a) (h5 : a < s.addr + s.size) (hl : Loaded e a c) :
    c ≠ [] ∧ a + c.length ≤ s.addr + s.size ∧ slice e.file (s.offset + (a - s.addr)) c.length = c := by
  obtain ⟨hd, t, g1, g2, g3, g4, g5, g6⟩ := hl
  have hpos : 0 < c.length := List.length_pos_iff.2 hd
  obtain rfl := hs.placed s h1 t g1 h2 g2 a h4 h5 g4 (by omega)
  exact ⟨hd, g5, g6⟩

/-- What is loaded at an address is determined. -/
theorem loaded_unique {e : Elf} (hs : Sane e) {a : Nat} {c d : Bytes} (hc : Loaded e a c) (hd : Loaded e a d)
    (h : c.length ≤ d.length) : c = d.take c.length := by
  obtain ⟨h0, s, h1, h2, h3, h4, h5, h6⟩ := hc
  have hpos : 0 < c.length := List.length_pos_iff.2 h0
  obtain ⟨_, _, g⟩ := loaded_iff hs h1 h2 h3 h4 (by omega) hd
  change slice _ _ _ = _ at h6
  rw [← h6]
  conv => rhs; rw [← g]
  unfold slice
  rw [List.take_take, List.length_take]
  congr 1
  have : (slice e.file (s.offset + (a - s.addr)) d.length).length = d.length := by rw [g]
  unfold slice at this
  rw [List.length_take] at this
  have : (slice e.file (s.offset + (a - s.addr)) c.length).length = c.length := by rw [h6]
  unfold slice at this
  rw [List.length_take] at this
  omega

/-- A patch of loaded bytes. -/
theorem patched {e : Elf} (hs : Sane e) {s : Section} (h1 : s ∈ e.sections) (h2 : s.alloc = true)
    (h3 : s.nobits = false) {a : Nat} {d : Bytes} (h4 : s.addr ≤ a) (h5 : a + d.length ≤ s.addr + s.size)
    (hd : d ≠ []) :
    Sane (patch e (s.offset + (a - s.addr)) d) ∧
    OnlyAt (fun x => a ≤ x ∧ x < a + d.length) e (patch e (s.offset + (a - s.addr)) d) ∧
    (∀ c, Loaded e a c → d.length ≤ c.length →
      Loaded (patch e (s.offset + (a - s.addr)) d) a (d ++ c.drop d.length)) ∧
    (∀ b c, Loaded e b c → b + c.length ≤ a ∨ a + d.length ≤ b →
      Loaded (patch e (s.offset + (a - s.addr)) d) b c) := by
  have hpos : 0 < d.length := List.length_pos_iff.2 hd
  have hin := hs.inFile s h1 h2 h3
  have hlen : s.offset + (a - s.addr) + d.length ≤ e.file.length := by omega
  refine ⟨⟨hs.small, ?_, hs.apart, hs.placed⟩, ⟨rfl, patch_length hlen, ?_⟩, ?_, ?_⟩
  · intro t ht ha hn
    rw [patch_length hlen]
    exact hs.inFile t ht ha hn
  · intro i hi
    rw [patch_get hlen] at hi
    split at hi
    · next h => exact ⟨s, h1, h2, h3, a + (i - (s.offset + (a - s.addr))), by omega, by omega, by omega, by omega⟩
    · exact absurd rfl hi
  · intro c hc hcl
    obtain ⟨_, g1, g2⟩ := loaded_iff hs h1 h2 h3 h4 (by omega) hc
    have hl : (d ++ c.drop d.length).length = c.length := by simp; omega
    refine ⟨by simp [hd], s, h1, h2, h3, h4, by omega, ?_⟩
    change slice _ _ _ = _
    apply List.ext_getElem?
    intro i
    rw [slice_get, hl, patch_get hlen]
    have gi : c[i]? = if i < c.length then e.file[s.offset + (a - s.addr) + i]? else none := by
      rw [← slice_get, g2]
    rcases Nat.lt_or_ge i d.length with hi | hi
    · rw [if_pos (by omega), if_pos (by omega), List.getElem?_append_left hi]
      congr 1; omega
    · rw [List.getElem?_append_right hi, List.getElem?_drop, show d.length + (i - d.length) = i by omega, gi]
      by_cases hic : i < c.length
      · rw [if_pos hic, if_pos hic, if_neg (by omega)]
      · rw [if_neg hic, if_neg hic]
  · rintro b c ⟨g0, t, g1, g2, g3, g4, g5, g6⟩ hap
    have hcpos : 0 < c.length := List.length_pos_iff.2 g0
    refine ⟨g0, t, g1, g2, g3, g4, g5, ?_⟩
    change slice _ _ _ = _
    rw [slice_apart hlen, show slice e.file _ _ = _ from g6]
    intro i hi1 hi2 hi3 hi4
    have : s = t := hs.apart s h1 t g1 h2 g2 h3 g3 i (by omega) (by omega) (by omega) (by omega)
    subst this
    omega

theorem only_mono {p q : Nat → Prop} {e f : Elf} (h : OnlyAt p e f) (hpq : ∀ x, p x → q x) : OnlyAt q e f := by
  obtain ⟨h1, h2, h3⟩ := h
  refine ⟨h1, h2, fun i hi => ?_⟩
  obtain ⟨s, g1, g2, g3, x, g4, g5⟩ := h3 i hi
  exact ⟨s, g1, g2, g3, x, hpq x g4, g5⟩

theorem only_trans {p : Nat → Prop} {e f g : Elf} (h : OnlyAt p e f) (h' : OnlyAt p f g) : OnlyAt p e g := by
  obtain ⟨h1, h2, h3⟩ := h
  obtain ⟨g1, g2, g3⟩ := h'
  have hsec : f.sections = e.sections := by rw [h1]
  refine ⟨?_, by omega, fun i hi => ?_⟩
  · conv => lhs; rw [g1, h1]
  · by_cases hfe : f.file[i]? = e.file[i]?
    · have := g3 i (by rw [hfe]; exact hi)
      rw [hsec] at this
      exact this
    · exact h3 i hfe

theorem only_refl (p : Nat → Prop) (e : Elf) : OnlyAt p e e := ⟨rfl, rfl, fun _ h => absurd rfl h⟩

theorem named_only {p : Nat → Prop} {e f : Elf} (h : OnlyAt p e f) {name : String} {a n : Nat}
    (hn : Named e name a n) : Named f name a n := by
  rw [h.1]; exact hn

/-- The record and the id that the script finds. -/
theorem info_memfault {e : Elf} (hs : Sane e) (sha1 : Bytes → Bytes) {a d : Nat} {record id : Bytes} (b : Bool)
    (hr : Loaded e a (3 :: record)) (h2 : 2 ≤ record.length) (hn : Named e "g_memfault_build_id" a (record.length + 1))
    (hi : Loaded e d id) (hid : id.length = 20) (hm : Named e "g_memfault_sdk_derived_build_id" d 20) :
    ∃ n, writeInfo sha1 b e = some (e, ⟨.memfault, some (hex id), n⟩) ∧
      n = if record[1]? = some 0 then none else record[1]?.map (·.toNat) := by
  obtain ⟨s, h1, h2', h3, h4, h5, h6, h7⟩ := found hs (by simpa using hn) hr
  obtain ⟨t, g1, g2, g3, g4, g5, g6, g7⟩ := found hs (by rw [hid]; exact hm) hi
  unfold writeInfo
  rw [h7]
  simp only
  rw [symbol_data h3 h4 h5, h6]
  obtain ⟨x, y, r, rfl⟩ : ∃ x y r, record = x :: y :: r := by
    match record, h2 with
    | x :: y :: r, _ => exact ⟨x, y, r, rfl⟩
  simp only [List.getElem?_cons_succ, List.getElem?_cons_zero]
  rw [g7]
  simp only
  rw [symbol_data g3 g4 g5, g6]
  exact ⟨_, rfl, by simp⟩

end BuildIdScriptAux

open BuildIdScriptAux

/-- **C122.** A program that waits for its build id gets one: the script changes the type of its record to 3 and
puts the hash of what is loaded into the storage, and no other byte of the file changes. The script run again
changes nothing; asked for the id, it gives the hexadecimal text of the hash; and this is what the program,
when it runs, reads as its build id. The length for events that is reported is the third byte of the record. -/
theorem C122_adds (sha1 : Bytes → Bytes) (crc32 : Bytes → BitVec 32) (hsha : ∀ x, (sha1 x).length = 20) (e : Elf)
    (a d : Nat) (record : Bytes) (h : Ready e a d record) :
    ∃ e', main sha1 crc32 {} e = some e' ∧
      Loaded e' a (3 :: record) ∧ Loaded e' d (sha1 (image e)) ∧
      OnlyAt (fun x => x = a ∨ d ≤ x ∧ x < d + 20) e e' ∧
      main sha1 crc32 {} e' = some e' ∧
      (∀ n, dumpInfo sha1 n e' = some ((hex (sha1 (image e))).take n)) ∧
      (∀ short, record[1]? = some short → buildInfo sha1 e' =
        some ⟨.memfault, some (hex (sha1 (image e))), if short = 0 then none else some short.toNat⟩) ∧
      (∀ g, Runs e' a d g → BuildId.infoRead g = some (some (sha1 (image e))) ∧
        ∀ buf : Bytes, buf.length = 41 → BuildId.getString g buf 0 41 = some (true, hex (sha1 (image e)) ++ [0])) := by
  obtain ⟨hs, ⟨hr, h2⟩, hn, ⟨old, ho, hol⟩, hm, hap⟩ := h
  obtain ⟨s, h1, h2', h3, h4, h5, h6, h7⟩ := found hs (by simpa using hn) hr
  obtain ⟨t, g1, g2, g3, g4, g5, g6, g7⟩ := found hs (by rw [hol]; exact hm) ho
  simp only [List.length_cons] at h5 h6 h7
  have hne : sha1 (image e) ≠ [] := by
    intro hc
    have := hsha (image e)
    rw [hc] at this
    simp at this
  obtain ⟨p1, p2, p3, p4⟩ := patched hs h1 h2' h3 (a := a) (d := [3]) h4 (by simp; omega) (by simp)
  have p5 := p3 _ hr (by simp)
  simp only [List.length_singleton, List.drop_succ_cons, List.drop_zero, List.singleton_append] at p5 p2 p4
  obtain ⟨q1, q2, q3, q4⟩ := patched p1 (s := t) g1 g2 g3 (a := d) (d := sha1 (image e)) g4 (by rw [hsha]; omega) hne
  have q5 := q3 _ (p4 d old ho (by omega)) (by rw [hsha]; omega)
  have q6 := q4 a _ p5 (by rw [hsha]; simp only [List.length_cons]; omega)
  rw [List.drop_eq_nil_of_le (by rw [hsha]; omega), List.append_nil] at q5
  rw [hsha] at q2
  have hfirst : writeInfo sha1 false e = some (patch (patch e (s.offset + (a - s.addr)) [3])
      (t.offset + (d - t.addr)) (sha1 (image e)),
      ⟨.memfault, some (hex (sha1 (image e))), if record[1]? = some 0 then none else record[1]?.map (·.toNat)⟩) := by
    unfold writeInfo
    rw [h7]
    simp only
    rw [symbol_data h3 h4 h5, h6]
    obtain ⟨x, y, r, rfl⟩ : ∃ x y r, record = x :: y :: r := by
      match record, h2 with
      | x :: y :: r, _ => exact ⟨x, y, r, rfl⟩
    simp only [List.getElem?_cons_succ, List.getElem?_cons_zero]
    rw [g7]
    simp only
    rw [input_image hs]
    simp
  have hon := only_trans (only_mono p2 (q := fun x => x = a ∨ d ≤ x ∧ x < d + 20) (by intro x hx; omega))
    (only_mono q2 (by intro x hx; omega))
  have hnn := named_only hon hn
  have hmm := named_only hon hm
  refine ⟨_, ?_, q6, q5, hon, ?_, ?_, ?_, ?_⟩
  · unfold main
    simp [hfirst]
  · obtain ⟨n, hw, hn'⟩ := info_memfault q1 sha1 false q6 h2 hnn q5 (hsha _) hmm
    unfold main
    simp [hw]
  · intro k
    obtain ⟨n, hw, hn'⟩ := info_memfault q1 sha1 true q6 h2 hnn q5 (hsha _) hmm
    unfold dumpInfo
    rw [hw]
  · intro short hshort
    obtain ⟨n, hw, hn'⟩ := info_memfault q1 sha1 true q6 h2 hnn q5 (hsha _) hmm
    unfold buildInfo
    rw [hw, hn', hshort]
    simp
  · rintro ⟨ty, st⟩ ⟨t', hl1, hty, hl2, hl3⟩
    change st.length = 20 at hl3
    change Loaded _ d st at hl2
    have e1 := loaded_unique q1 hl1 q6 (by simp)
    have e2 := loaded_unique q1 hl2 q5 (by rw [hsha]; omega)
    simp only at hty
    rw [hl3, List.take_of_length_le (by rw [hsha]; omega)] at e2
    simp at e1
    subst e1 e2
    have hid : Spec.BuildId.HasId ⟨ty, sha1 (image e)⟩ (sha1 (image e)) := by
      rw [hty]
      simpa using Spec.BuildId.HasId.memfault (sha1 (image e)) [] (hsha _)
    refine ⟨infoRead_hasId hid, fun buf hb => ?_⟩
    have := (C64_build_id_string _ buf).1 _ hid (by omega)
    rw [hb] at this
    rw [this, List.take_of_length_le (by rw [hex_length, hsha]; omega)]
    rw [List.drop_eq_nil_of_le (by rw [hex_length, hsha]; omega), List.append_nil]

/-- A program with the record at 0x1000 and the storage at 0x1010, and a section that is not loaded. -/
example : Ready ⟨List.replicate 4 9 ++ [1, 20, 5, 0] ++ List.replicate 12 7 ++ (1 :: List.replicate 19 0) ++ [8],
    [⟨false, false, false, false, 0, 0, 4⟩, ⟨true, false, false, false, 0x1000, 4, 36⟩,
      ⟨true, false, true, true, 0x2000, 4, 100⟩],
    [⟨some "main", 0x1000, 4⟩, ⟨some "g_memfault_build_id", 0x1000, 4⟩,
      ⟨some "g_memfault_sdk_derived_build_id", 0x1010, 20⟩], none, true⟩ 0x1000 0x1010 [20, 5, 0] := by
  refine ⟨⟨?_, ?_, ?_, ?_⟩, ⟨⟨by simp, ⟨true, false, false, false, 0x1000, 4, 36⟩, by simp, rfl, rfl, by simp, by simp,
    by decide⟩, by simp⟩, ⟨by simp, ?_⟩, ⟨1 :: List.replicate 19 0, ⟨by simp, ⟨true, false, false, false, 0x1000, 4, 36⟩,
    by simp, rfl, rfl, by simp, by simp, by decide⟩, by simp⟩, ⟨by simp, ?_⟩, by simp⟩ <;> simp
  constructor <;> intros <;> omega

namespace BuildIdScriptAux

theorem sane_only {p : Nat → Prop} {e f : Elf} (hs : Sane e) (h : OnlyAt p e f) : Sane f := by
  obtain ⟨h1, h2, _⟩ := h
  have hsec : f.sections = e.sections := by rw [h1]
  refine ⟨?_, ?_, ?_, ?_⟩ <;> rw [hsec]
  · exact hs.small
  · rw [h2]; exact hs.inFile
  · exact hs.apart
  · exact hs.placed

/-- Where bytes differ. -/
theorem diff_in {e f : Elf} (hs : Sane e) {s : Section} (h1 : s ∈ e.sections) (h2 : s.alloc = true)
    {a n : Nat} (h4 : s.addr ≤ a) (h5 : a + n ≤ s.addr + s.size)
    (h : OnlyAt (fun x => a ≤ x ∧ x < a + n) e f) (i : Nat) (hi : f.file[i]? ≠ e.file[i]?) :
    s.offset + (a - s.addr) ≤ i ∧ i < s.offset + (a - s.addr) + n := by
  obtain ⟨t, g1, g2, g3, x, g4, g5, g6, g7⟩ := h.2.2 i hi
  obtain rfl := hs.placed s h1 t g1 h2 g2 x (by omega) (by omega) g5 g6
  omega

theorem slice_diff {e f : Elf} {o n p m : Nat} (h : ∀ i, f.file[i]? ≠ e.file[i]? → o ≤ i ∧ i < o + n)
    (hd : ∀ i, p ≤ i → i < p + m → o ≤ i → i < o + n → False) : slice f.file p m = slice e.file p m := by
  apply List.ext_getElem?
  intro i
  rw [slice_get, slice_get]
  split
  · by_cases hq : f.file[p + i]? = e.file[p + i]?
    · exact hq
    · have := h _ hq
      exact (hd (p + i) (by omega) (by omega) this.1 this.2).elim
  · rfl

theorem data_other {e f : Elf} (hs : Sane e) {s t : Section} (h1 : s ∈ e.sections) (h2 : s.alloc = true)
    (h3 : s.nobits = false) {a n : Nat} (h4 : s.addr ≤ a) (h5 : a + n ≤ s.addr + s.size)
    (h : OnlyAt (fun x => a ≤ x ∧ x < a + n) e f) (ht : t ∈ e.sections) (hta : t.alloc = true) (hne : s ≠ t) :
    sectionData f t = sectionData e t := by
  cases hn : t.nobits with
  | true => unfold sectionData; rw [hn]; rfl
  | false =>
    rw [data_eq hn, data_eq hn]
    refine slice_diff (diff_in hs h1 h2 h4 h5 h) fun i i1 i2 i3 i4 => hne ?_
    exact hs.apart s h1 t ht h2 hta h3 hn i (by omega) (by omega) i1 i2

theorem take_slice (f : Bytes) (o n k : Nat) (h : k ≤ n) : (slice f o n).take k = slice f o k := by
  unfold slice
  rw [List.take_take]
  congr 1; omega

theorem drop_slice (f : Bytes) (o n k : Nat) : (slice f o n).drop k = slice f (o + k) (n - k) := by
  unfold slice
  rw [List.drop_take, List.drop_drop]

theorem data_self {e f : Elf} (hs : Sane e) {s : Section} (h1 : s ∈ e.sections) (h2 : s.alloc = true)
    (h3 : s.nobits = false) {a n : Nat} (h4 : s.addr ≤ a) (h5 : a + n ≤ s.addr + s.size)
    (h : OnlyAt (fun x => a ≤ x ∧ x < a + n) e f) :
    (sectionData f s).take (a - s.addr) = (sectionData e s).take (a - s.addr) ∧
    (sectionData f s).drop (a - s.addr + n) = (sectionData e s).drop (a - s.addr + n) := by
  have hd := diff_in hs h1 h2 h4 h5 h
  rw [data_eq h3, data_eq h3, take_slice _ _ _ _ (by omega), take_slice _ _ _ _ (by omega), drop_slice, drop_slice]
  exact ⟨slice_diff hd (by intro i; omega), slice_diff hd (by intro i; omega)⟩

/-- The bytes of the symbol are not part of the input. -/
theorem input_indep {e f : Elf} (hs : Sane e) {s : Section} (h1 : s ∈ e.sections) (h2 : s.alloc = true)
    (h3 : s.nobits = false) {a n : Nat} (h4 : s.addr ≤ a) (h5 : a + n ≤ s.addr + s.size)
    (h : OnlyAt (fun x => a ≤ x ∧ x < a + n) e f) (inst : Bytes) (l : List Section) (hl : ∀ t ∈ l, t ∈ e.sections) :
    inputLoop f (some (s, a - s.addr)) inst n l = inputLoop e (some (s, a - s.addr)) inst n l := by
  induction l with
  | nil => rfl
  | cons t l ih =>
    have ih := ih fun x hx => hl x (List.mem_cons_of_mem _ hx)
    rw [inputLoop, inputLoop, ih]
    cases ha : t.alloc with
    | false => rfl
    | true =>
      have : sectionInput f (some (s, a - s.addr)) inst n t = sectionInput e (some (s, a - s.addr)) inst n t := by
        unfold sectionInput
        by_cases hst : s = t
        · subst hst
          obtain ⟨d1, d2⟩ := data_self hs h1 h2 h3 h4 h5 h
          simp only [if_true]
          rw [d1, d2]
        · rw [data_other hs h1 h2 h3 h4 h5 h (hl t (List.mem_cons_self ..)) ha hst]
      rw [this]

/-- A file is determined by what it is outside and inside of a range. -/
theorem only_unique {e f g : Elf} (hs : Sane e) {a : Nat} {d : Bytes}
    (hf : OnlyAt (fun x => a ≤ x ∧ x < a + d.length) e f) (hg : OnlyAt (fun x => a ≤ x ∧ x < a + d.length) e g)
    (hlf : Loaded f a d) (hlg : Loaded g a d) : f = g := by
  obtain ⟨h0, s, h1, h2, h3, h4, h5, h6⟩ := hlf
  have hpos : 0 < d.length := List.length_pos_iff.2 h0
  have hsf : f.sections = e.sections := by rw [hf.1]
  have hsg : g.sections = e.sections := by rw [hg.1]
  rw [hsf] at h1
  obtain ⟨_, _, g6⟩ := loaded_iff (sane_only hs hg) (by rw [hsg]; exact h1) h2 h3 h4 (by omega) hlg
  have df := diff_in hs h1 h2 h4 h5 hf
  have dg := diff_in hs h1 h2 h4 h5 hg
  have hfile : f.file = g.file := by
    apply List.ext_getElem?
    intro i
    by_cases hi : s.offset + (a - s.addr) ≤ i ∧ i < s.offset + (a - s.addr) + d.length
    · have e1 := slice_get f.file (s.offset + (a - s.addr)) d.length (i - (s.offset + (a - s.addr)))
      have e2 := slice_get g.file (s.offset + (a - s.addr)) d.length (i - (s.offset + (a - s.addr)))
      rw [show slice f.file _ _ = d from h6, if_pos (by omega),
        show s.offset + (a - s.addr) + (i - (s.offset + (a - s.addr))) = i by omega] at e1
      rw [g6, if_pos (by omega),
        show s.offset + (a - s.addr) + (i - (s.offset + (a - s.addr))) = i by omega] at e2
      rw [← e1, ← e2]
    · have e1 : f.file[i]? = e.file[i]? := by
        by_cases hq : f.file[i]? = e.file[i]?
        · exact hq
        · exact absurd (df i hq) hi
      have e2 : g.file[i]? = e.file[i]? := by
        by_cases hq : g.file[i]? = e.file[i]?
        · exact hq
        · exact absurd (dg i hq) hi
      rw [e1, e2]
  rw [hf.1, hg.1, hfile]

theorem replaced {e : Elf} (hs : Sane e) {s : Section} (h1 : s ∈ e.sections) (h2 : s.alloc = true)
    (h3 : s.nobits = false) {a : Nat} {d : Bytes} (h4 : s.addr ≤ a) (h5 : a + d.length ≤ s.addr + s.size)
    (hd : d ≠ []) :
    OnlyAt (fun x => a ≤ x ∧ x < a + d.length) e (patch e (s.offset + (a - s.addr)) d) ∧
    Loaded (patch e (s.offset + (a - s.addr)) d) a d := by
  have hpos : 0 < d.length := List.length_pos_iff.2 hd
  obtain ⟨_, p2, p3, _⟩ := patched hs h1 h2 h3 h4 h5 hd
  have hlen : (slice e.file (s.offset + (a - s.addr)) d.length).length = d.length := by
    unfold slice
    have := hs.inFile s h1 h2 h3
    rw [List.length_take, List.length_drop]
    omega
  have hl : Loaded e a (slice e.file (s.offset + (a - s.addr)) d.length) := by
    refine ⟨fun hc => ?_, s, h1, h2, h3, h4, by rw [hlen]; exact h5, ?_⟩
    · rw [hc] at hlen; simp at hlen; omega
    · rw [hlen]; rfl
  have p4 := p3 _ hl (by omega)
  rw [List.drop_eq_nil_of_le (by omega), List.append_nil] at p4
  exact ⟨p2, p4⟩

theorem replace_same {e f : Elf} (hs : Sane e) {s : Section} (h1 : s ∈ e.sections) (h2 : s.alloc = true)
    (h3 : s.nobits = false) {a : Nat} {d : Bytes} (h4 : s.addr ≤ a) (h5 : a + d.length ≤ s.addr + s.size)
    (hd : d ≠ []) (hf : OnlyAt (fun x => a ≤ x ∧ x < a + d.length) e f) :
    (slice f.file (s.offset + (a - s.addr)) d.length = d → f = patch e (s.offset + (a - s.addr)) d) ∧
    patch f (s.offset + (a - s.addr)) d = patch e (s.offset + (a - s.addr)) d := by
  obtain ⟨p1, p2⟩ := replaced hs h1 h2 h3 h4 h5 hd
  have hs1 : s ∈ f.sections := by rw [hf.1]; exact h1
  obtain ⟨r1, r2⟩ := replaced (sane_only hs hf) hs1 h2 h3 h4 h5 hd
  exact ⟨fun h => only_unique hs hf p1 ⟨hd, s, hs1, h2, h3, h4, h5, h⟩ p2, only_unique hs (only_trans hf r1) p1 r2 p2⟩

/-- The first use of a symbol's own contents. -/
theorem input_cleared {e : Elf} (hs : Sane e) {s : Section} (h1 : s ∈ e.sections) (h2 : s.alloc = true)
    (h3 : s.nobits = false) {a : Nat} {inst : Bytes} (h4 : s.addr ≤ a) (h5 : a + inst.length ≤ s.addr + s.size)
    (hi : slice e.file (s.offset + (a - s.addr)) inst.length = inst)
    (hz : ∀ t ∈ e.sections, t.alloc = true → 0 < t.size) (l : List Section) (hl : ∀ t ∈ l, t ∈ e.sections) :
    inputLoop e (some (s, a - s.addr)) inst inst.length l = inputLoop e none inst inst.length l := by
  induction l with
  | nil => rfl
  | cons t l ih =>
    have ih := ih fun x hx => hl x (List.mem_cons_of_mem _ hx)
    rw [inputLoop, inputLoop, ih]
    cases ha : t.alloc with
    | false => rfl
    | true =>
      have : sectionInput e (some (s, a - s.addr)) inst inst.length t = sectionInput e none inst inst.length t := by
        unfold sectionInput
        by_cases hst : s.addr = t.addr
        · have ht := hl t (List.mem_cons_self ..)
          obtain rfl := hs.placed s h1 t ht h2 ha s.addr (by omega) (by have := hz s h1 h2; omega) (by omega)
            (by have := hz t ht ha; omega)
          simp only [if_true]
          have : (sectionData e s).take (a - s.addr) ++ inst ++ (sectionData e s).drop (a - s.addr + inst.length) =
              sectionData e s := by
            have h6 : ((sectionData e s).drop (a - s.addr)).take inst.length = inst := by
              rw [data_eq h3, slice_slice _ _ _ _ _ (by omega), hi]
            have h7 : (sectionData e s).drop (a - s.addr) =
                inst ++ (sectionData e s).drop (a - s.addr + inst.length) := by
              conv => lhs; rw [← List.take_append_drop inst.length ((sectionData e s).drop (a - s.addr)), h6]
              rw [List.drop_drop]
            rw [List.append_assoc, ← h7, List.take_append_drop]
          rw [this]
        · simp only [if_neg hst]
      rw [this]

theorem input_without {e : Elf} (hs : Sane e) {s : Section} (h1 : s ∈ e.sections) (h2 : s.alloc = true)
    (h3 : s.nobits = false) {a n : Nat} (hn : 0 < n) (h4 : s.addr ≤ a) (h5 : a + n ≤ s.addr + s.size) :
    crcInput e s (a - s.addr) = some (imageWithout e a 4) := by
  unfold crcInput imageWithout
  suffices ∀ l : List Section, (∀ t ∈ l, t ∈ e.sections) →
      inputLoop e (some (s, a - s.addr)) [] 4 l = some (l.flatMap fun s => if s.alloc then word s.addr ++
        if s.nobits && s.write && !s.exec then word s.size
        else if s.addr ≤ a ∧ a < s.addr + s.size then
          (bytesOf e s).take (a - s.addr) ++ (bytesOf e s).drop (a - s.addr + 4)
        else bytesOf e s else []) from this _ fun _ h => h
  intro l
  induction l with
  | nil => intro _; rfl
  | cons t l ih =>
    intro hl
    have ih := ih fun x h => hl x (List.mem_cons_of_mem _ h)
    have ht := hl t (List.mem_cons_self ..)
    rw [inputLoop, List.flatMap_cons]
    cases ha : t.alloc with
    | false => simpa using ih
    | true =>
      obtain ⟨hsm, hsz⟩ := hs.small t ht ha
      have : sectionInput e (some (s, a - s.addr)) [] 4 t = some (word t.addr ++
          if t.nobits && t.write && !t.exec then word t.size
          else if t.addr ≤ a ∧ a < t.addr + t.size then
            (bytesOf e t).take (a - t.addr) ++ (bytesOf e t).drop (a - t.addr + 4)
          else bytesOf e t) := by
        unfold sectionInput
        rw [packLe_eq hsm, packLe_eq hsz]
        have hb : sectionData e t = bytesOf e t := rfl
        have hty : (sectionType t = .bss) ↔ (t.nobits && t.write && !t.exec) = true := by
          unfold sectionType
          cases t.exec <;> cases t.write <;> cases t.nobits <;> simp [ha]
        simp only [hb]
        by_cases hbss : (t.nobits && t.write && !t.exec) = true
        · rw [if_pos (hty.2 hbss), if_pos hbss]; rfl
        · rw [if_neg (fun hc => hbss (hty.1 hc)), if_neg hbss]
          by_cases hst : s = t
          · subst hst
            rw [if_pos rfl, if_pos (by omega), List.append_nil]
          · rw [if_neg (show ¬ (t.addr ≤ a ∧ a < t.addr + t.size) from fun hc =>
              hst (hs.placed s h1 t ht h2 ha a h4 (by omega) hc.1 hc.2))]
            split
            · next heq =>
              have hz : t.size = 0 := by
                rcases Nat.eq_zero_or_pos t.size with h0 | h0
                · exact h0
                · exact (hst (hs.placed s h1 t ht h2 ha s.addr (by omega) (by omega) (by omega) (by omega))).elim
              have : bytesOf e t = [] := by
                unfold bytesOf
                rw [hz]
                split <;> simp
              rw [this]
              simp
            · rfl
      rw [this, ih]
      simp

end BuildIdScriptAux

/-- **C122.** With `--sha1 name` the 20 bytes of the symbol get an id and no other byte changes. The id does not
depend on what the symbol was: every file that differs only there becomes the same file, so that running the
script again changes nothing. If no loaded section is empty, the id is the hash of what is loaded with a one and
zeros in the place of the symbol. -/
theorem C122_sha1 (sha1 : Bytes → Bytes) (crc32 : Bytes → BitVec 32) (hsha : ∀ x, (sha1 x).length = 20) (e : Elf)
    (name : String) (a : Nat) (hname : name ≠ "") (hs : Sane e) (hn : Named e name a 20)
    (hl : ∃ old, Loaded e a old ∧ old.length = 20) :
    ∃ e' id, main sha1 crc32 { sha1 := some name } e = some e' ∧ id.length = 20 ∧ Loaded e' a id ∧
      OnlyAt (fun x => a ≤ x ∧ x < a + 20) e e' ∧
      (∀ f, OnlyAt (fun x => a ≤ x ∧ x < a + 20) e f → main sha1 crc32 { sha1 := some name } f = some e') ∧
      ((∀ s ∈ e.sections, s.alloc = true → 0 < s.size) →
        ∀ f, OnlyAt (fun x => a ≤ x ∧ x < a + 20) e f → Loaded f a (1 :: List.replicate 19 0) →
          id = sha1 (image f)) := by
  obtain ⟨old, ho, hol⟩ := hl
  obtain ⟨s, h1, h2, h3, h4, h5, h6, h7⟩ := found hs (by rw [hol]; exact hn) ho
  rw [hol] at h5 h6 h7
  obtain ⟨input, hin⟩ : ∃ input, sha1Input e (some (s, a - s.addr)) = some input := by
    unfold sha1Input
    suffices ∀ l : List Section, (∀ t ∈ l, t ∈ e.sections) →
        ∃ x, inputLoop e (some (s, a - s.addr)) (1 :: List.replicate 19 0) 20 l = some x from this _ fun _ h => h
    intro l
    induction l with
    | nil => intro _; exact ⟨_, rfl⟩
    | cons t l ih =>
      intro hl
      obtain ⟨x, hx⟩ := ih fun y hy => hl y (List.mem_cons_of_mem _ hy)
      rw [inputLoop, hx]
      cases ha : t.alloc with
      | false => exact ⟨_, rfl⟩
      | true =>
        obtain ⟨hsm, hsz⟩ := hs.small t (hl t (List.mem_cons_self ..)) ha
        have : ∃ b, sectionInput e (some (s, a - s.addr)) (1 :: List.replicate 19 0) 20 t = some b := by
          unfold sectionInput
          rw [packLe_eq hsm, packLe_eq hsz]
          simp only
          split
          · exact ⟨_, rfl⟩
          · split <;> exact ⟨_, rfl⟩
        obtain ⟨b, hb⟩ := this
        rw [hb]
        exact ⟨_, rfl⟩
  have hne : sha1 input ≠ [] := by
    intro hc
    have := hsha input
    rw [hc] at this
    simp at this
  obtain ⟨p2, p4⟩ := replaced hs h1 h2 h3 (d := sha1 input) h4 (by rw [hsha]; omega) hne
  have hall : ∀ f, OnlyAt (fun x => a ≤ x ∧ x < a + 20) e f → main sha1 crc32 { sha1 := some name } f =
      some (patch e (s.offset + (a - s.addr)) (sha1 input)) := by
    intro f hf
    have hsec : f.sections = e.sections := by rw [hf.1]
    have hsf := sane_only hs hf
    have h7f : findSymbol f (some name) = some (⟨some name, a, 20⟩, s) := by
      rw [hf.1]
      exact h7
    have hinf : sha1Input f (some (s, a - s.addr)) = some input := by
      rw [← hin]
      unfold sha1Input
      rw [hsec]
      exact input_indep hs h1 h2 h3 h4 h5 hf _ _ fun _ h => h
    have hup : updateSha1 sha1 (some name) false f =
        some (patch e (s.offset + (a - s.addr)) (sha1 input), sha1 input) := by
      unfold updateSha1
      rw [h7f]
      simp only [ne_eq, not_true, if_false]
      rw [hinf]
      simp only
      rw [symbol_data h3 h4 (by exact h5)]
      simp only
      split
      · next heq =>
        congr 2
        exact (replace_same hs h1 h2 h3 (d := sha1 input) h4 (by rw [hsha]; omega) hne
          (by rw [hsha]; exact hf)).1 (by rw [hsha]; exact heq)
      · simp only [Bool.false_eq_true, if_false]
        congr 2
        exact (replace_same hs h1 h2 h3 (d := sha1 input) h4 (by rw [hsha]; omega) hne
          (by rw [hsha]; exact hf)).2
    unfold main
    simp [hname, hup]
  rw [hsha] at p2
  refine ⟨_, sha1 input, hall e (only_refl _ e), hsha _, p4, p2, hall, ?_⟩
  intro hz f hf hlf
  congr 1
  have hsec : f.sections = e.sections := by rw [hf.1]
  have hsf := sane_only hs hf
  have hs1 : s ∈ f.sections := by rw [hsec]; exact h1
  have hinf : sha1Input f (some (s, a - s.addr)) = some input := by
    rw [← hin]
    unfold sha1Input
    rw [hsec]
    exact input_indep hs h1 h2 h3 h4 h5 hf _ _ fun _ h => h
  obtain ⟨_, _, hg⟩ := loaded_iff hsf hs1 h2 h3 h4 (by omega) hlf
  have hc := input_cleared hsf hs1 h2 h3 (inst := 1 :: List.replicate 19 0) h4 (by simpa using h5) hg
    (by rw [hsec]; exact hz) f.sections fun _ h => h
  have hi := input_image hsf
  unfold sha1Input at hi hinf
  simp only [List.length_cons, List.length_replicate] at hc
  rw [hc, hi] at hinf
  exact (Option.some.inj hinf).symm

/-- **C122.** The four bytes of a symbol for a CRC get the CRC of what is loaded without them, in the byte order
of the file, and no other byte changes. Every file that differs only there becomes the same file. -/
theorem C122_crc (crc32 : Bytes → BitVec 32) (e : Elf) (name : String) (a : Nat) (hs : Sane e)
    (hn : Named e name a 4) (hl : ∃ old, Loaded e a old ∧ old.length = 4) :
    ∃ e', updateCrc crc32 (some name) false e = some e' ∧
      Loaded e' a (if e.littleEndian then word (crc32 (imageWithout e a 4)).toNat
        else (word (crc32 (imageWithout e a 4)).toNat).reverse) ∧
      OnlyAt (fun x => a ≤ x ∧ x < a + 4) e e' ∧
      (∀ f, OnlyAt (fun x => a ≤ x ∧ x < a + 4) e f → updateCrc crc32 (some name) false f = some e') := by
  obtain ⟨old, ho, hol⟩ := hl
  obtain ⟨s, h1, h2, h3, h4, h5, h6, h7⟩ := found hs (by rw [hol]; exact hn) ho
  rw [hol] at h5 h6 h7
  have hin := input_without hs h1 h2 h3 (n := 4) (by omega) h4 h5
  generalize hd : (if e.littleEndian then word (crc32 (imageWithout e a 4)).toNat
        else (word (crc32 (imageWithout e a 4)).toNat).reverse) = d
  have hdl : d.length = 4 := by
    rw [← hd]
    split <;> simp [word]
  have hne : d ≠ [] := by
    intro hc
    rw [hc] at hdl
    simp at hdl
  obtain ⟨p2, p4⟩ := replaced hs h1 h2 h3 (d := d) h4 (by omega) hne
  have hall : ∀ f, OnlyAt (fun x => a ≤ x ∧ x < a + 4) e f → updateCrc crc32 (some name) false f =
      some (patch e (s.offset + (a - s.addr)) d) := by
    intro f hf
    have hsec : f.sections = e.sections := by rw [hf.1]
    have hle : f.littleEndian = e.littleEndian := by rw [hf.1]
    have h7f : findSymbol f (some name) = some (⟨some name, a, 4⟩, s) := by
      rw [hf.1]
      exact h7
    have hinf : crcInput f s (a - s.addr) = some (imageWithout e a 4) := by
      rw [← hin]
      unfold crcInput
      rw [hsec]
      exact input_indep hs h1 h2 h3 h4 h5 hf _ _ fun _ h => h
    have hpk : packCrc f (crc32 (imageWithout e a 4)) = d := by
      rw [← hd]
      unfold packCrc
      rw [hle]
      rfl
    have hty : ¬ (sectionType s ≠ .text ∧ sectionType s ≠ .data) := by
      unfold sectionType
      cases s.exec <;> cases s.write <;> simp [h2, h3]
    have hcur : ((sectionData f s).drop (a - s.addr)).take 4 = slice f.file (s.offset + (a - s.addr)) 4 := by
      rw [data_eq h3, slice_slice _ _ _ _ _ (by omega)]
    have hlen : (slice f.file (s.offset + (a - s.addr)) 4).length = 4 := by
      unfold slice
      have := (sane_only hs hf).inFile s (by rw [hsec]; exact h1) h2 h3
      rw [List.length_take, List.length_drop]
      omega
    obtain ⟨r1, r2⟩ := replace_same hs h1 h2 h3 (d := d) h4 (by omega) hne (by rw [hdl]; exact hf)
    unfold updateCrc
    rw [h7f]
    simp only
    rw [if_neg hty, hinf]
    simp only
    rw [hcur, hpk, if_neg (by omega)]
    split
    · next heq => rw [r1 (by rw [hdl]; exact heq)]
    · simp [r2]
  rw [hdl] at p2
  exact ⟨_, hall e (only_refl _ e), p4, p2, hall⟩

/-- A program with a GNU build id keeps it: the script does not change the file, and its text is the id. -/
theorem C122_gnu (sha1 : Bytes → Bytes) (crc32 : Bytes → BitVec 32) (e : Elf) (a : Nat) (record gnu : Bytes)
    (hs : Sane e) (hr : Loaded e a (2 :: record)) (h2 : 2 ≤ record.length)
    (hn : Named e "g_memfault_build_id" a (record.length + 1)) (hg : e.gnu = some gnu) :
    main sha1 crc32 {} e = some e ∧ ∀ n, dumpInfo sha1 n e = some (gnu.take n) := by
  obtain ⟨s, h1, h2', h3, h4, h5, h6, h7⟩ := found hs (by simpa using hn) hr
  have hw : ∀ b, ∃ n, writeInfo sha1 b e = some (e, ⟨.gnu, some gnu, n⟩) := by
    intro b
    unfold writeInfo
    rw [h7]
    simp only
    rw [symbol_data h3 h4 h5, h6]
    obtain ⟨x, y, r, rfl⟩ : ∃ x y r, record = x :: y :: r := by
      match record, h2 with
      | x :: y :: r, _ => exact ⟨x, y, r, rfl⟩
    simp only [List.getElem?_cons_succ, List.getElem?_cons_zero]
    rw [hg]
    exact ⟨_, rfl⟩
  constructor
  · obtain ⟨n, hw⟩ := hw false
    unfold main
    simp [hw]
  · intro k
    obtain ⟨n, hw⟩ := hw true
    unfold dumpInfo
    rw [hw]

/-- Without a record, with a record of an unknown type, or with both `--sha1` and `--crc`, the script fails. -/
theorem C122_unknown (sha1 : Bytes → Bytes) (crc32 : Bytes → BitVec 32) (e : Elf) :
    ((∀ y ∈ e.symbols, y.name ≠ some "g_memfault_build_id") →
      main sha1 crc32 {} e = none ∧ ∀ n, main sha1 crc32 { dump := some n } e = none) ∧
    (∀ a t record, Sane e → Loaded e a (t :: record) → Named e "g_memfault_build_id" a (record.length + 1) →
      t ≠ 1 → t ≠ 2 → t ≠ 3 → main sha1 crc32 {} e = none ∧ ∀ n, main sha1 crc32 { dump := some n } e = none) ∧
    ∀ (name name' : String) (dump : Option Nat), name ≠ "" → name' ≠ "" →
      main sha1 crc32 { sha1 := some name, crc := some name', dump := dump } e = none := by
  have key : (∀ b, writeInfo sha1 b e = none) →
      main sha1 crc32 {} e = none ∧ ∀ n, main sha1 crc32 { dump := some n } e = none := by
    intro h
    constructor
    · unfold main
      simp [h]
    · intro n
      unfold main dumpInfo
      simp [h]
  refine ⟨?_, ?_, ?_⟩
  · intro h
    apply key
    intro b
    unfold writeInfo findSymbol
    rw [List.find?_eq_none.2 (by simpa using h)]
  · intro a t record hs hl hn h1 h2 h3
    apply key
    intro b
    obtain ⟨s, g1, g2, g3, g4, g5, g6, g7⟩ := found hs (by simpa using hn) hl
    unfold writeInfo
    rw [g7]
    simp only
    rw [symbol_data g3 g4 g5, g6]
    match record with
    | [] => simp
    | [x] => simp
    | x :: y :: r =>
      simp only [List.getElem?_cons_succ, List.getElem?_cons_zero]
      rw [if_neg h2]
      split
      · rfl
      · rw [if_neg h3, if_pos h1]
  · intro name name' dump h1 h2
    unfold main
    simp [h1, h2]

/-- **C122, part.** To be asked for the id does not change the file. Missing: `--dump 0` together with `--sha1` or
`--crc`, which does, see `C122_false_dump`. -/
theorem C122_dump_partial (sha1 : Bytes → Bytes) (crc32 : Bytes → BitVec 32) (e e' : Elf) (args : Args) (n : Nat)
    (hd : args.dump = some n) (h0 : n ≠ 0 ∨ args.sha1 = none ∧ args.crc = none)
    (h : main sha1 crc32 args e = some e') : e' = e := by
  obtain ⟨du, c, sh⟩ := args
  simp only at hd h0
  subst hd
  have hs : ∀ (m : Option String) (r : Elf × Bytes), updateSha1 sha1 m true e = some r → r.1 = e := by
    intro m r hr
    unfold updateSha1 at hr
    split at hr
    · exact nomatch hr
    · split at hr
      · exact nomatch hr
      · split at hr
        · exact nomatch hr
        · split at hr
          · obtain rfl := Option.some.inj hr; rfl
          · simp only [if_true] at hr
            obtain rfl := Option.some.inj hr; rfl
  have hc : ∀ (m : Option String) (r : Elf), updateCrc crc32 m true e = some r → r = e := by
    intro m r hr
    unfold updateCrc at hr
    split at hr
    · exact nomatch hr
    · split at hr
      · exact nomatch hr
      · split at hr
        · exact nomatch hr
        · simp only at hr
          split at hr
          · exact nomatch hr
          · split at hr
            · exact (Option.some.inj hr).symm
            · exact (Option.some.inj hr).symm
  unfold main at h
  rcases h0 with h0 | ⟨rfl, rfl⟩
  · have hb : ((some n).isSome && (some n) != some 0) = true := by simp [h0]
    simp only [hb] at h
    split at h
    · exact nomatch h
    · split at h
      · obtain ⟨r, hr, rfl⟩ := Option.map_eq_some_iff.1 h
        exact hs _ _ hr
      · split at h
        · exact hc _ _ h
        · obtain ⟨r, hr, rfl⟩ := Option.map_eq_some_iff.1 h
          rfl
  · simp at h
    exact h.2.symm

namespace BuildIdScriptAux

theorem flatMap_inj {l : List Section} {f g : Section → Bytes} (hl : ∀ s ∈ l, (f s).length = (g s).length)
    (h : l.flatMap f = l.flatMap g) : ∀ s ∈ l, f s = g s := by
  induction l with
  | nil => simp
  | cons t l ih =>
    rw [List.flatMap_cons, List.flatMap_cons] at h
    obtain ⟨h1, h2⟩ := List.append_inj h (hl t (List.mem_cons_self ..))
    intro s hs
    rcases List.mem_cons.1 hs with rfl | hs
    · exact h1
    · exact ih (fun x hx => hl x (List.mem_cons_of_mem _ hx)) h2 s hs

theorem bytes_length {e : Elf} (hs : Sane e) {s : Section} (h1 : s ∈ e.sections) (h2 : s.alloc = true) :
    (bytesOf e s).length = s.size := by
  unfold bytesOf
  cases h3 : s.nobits with
  | true => simp
  | false =>
    have := hs.inFile s h1 h2 h3
    simp only [Bool.false_eq_true, if_false, List.length_take, List.length_drop]
    omega

theorem hex_inj {x y : Bytes} (h : hex x = hex y) : x = y := by
  have := unhex_hex x
  rw [h, unhex_hex y] at this
  exact (Option.some.inj this).symm

end BuildIdScriptAux

/-- **C122.** Two programs with the same sections and a loaded byte that differs have different build ids, if the
two hashes do not collide. -/
theorem C122_distinct (sha1 : Bytes → Bytes) (crc32 : Bytes → BitVec 32) (hsha : ∀ x, (sha1 x).length = 20)
    (e f e' f' : Elf) (a b c d : Nat) (re rf : Bytes) (he : Ready e a b re) (hf : Ready f c d rf)
    (hsec : f.sections = e.sections)
    (hdiff : ∃ s ∈ e.sections, s.alloc = true ∧ bytesOf e s ≠ bytesOf f s)
    (hcol : sha1 (image e) = sha1 (image f) → image e = image f)
    (hm : main sha1 crc32 {} e = some e') (hm' : main sha1 crc32 {} f = some f') :
    dumpInfo sha1 40 e' ≠ dumpInfo sha1 40 f' := by
  obtain ⟨e1, g1, _, _, _, _, g2, _, _⟩ := C122_adds sha1 crc32 hsha e a b re he
  obtain ⟨f1, k1, _, _, _, _, k2, _⟩ := C122_adds sha1 crc32 hsha f c d rf hf
  rw [hm] at g1
  rw [hm'] at k1
  obtain rfl := Option.some.inj g1
  obtain rfl := Option.some.inj k1
  intro h
  rw [g2, k2, List.take_of_length_le (by rw [hex_length, hsha]; omega),
    List.take_of_length_le (by rw [hex_length, hsha]; omega)] at h
  have himg := hcol (hex_inj (Option.some.inj h))
  obtain ⟨s, hs, ha, hd⟩ := hdiff
  apply hd
  unfold image at himg
  rw [hsec] at himg
  have := flatMap_inj (by
    intro t ht
    cases hta : t.alloc with
    | false => simp
    | true =>
      have q1 := bytes_length he.sane ht hta
      have q2 := bytes_length hf.sane (by rw [hsec]; exact ht) hta
      simp only [if_true, List.length_append]
      split
      · rfl
      · rw [q1, q2]) himg s hs
  simp only [ha, if_true] at this
  have := List.append_cancel_left this
  split at this
  · next hb =>
    simp only [Bool.and_eq_true] at hb
    unfold bytesOf
    simp [hb.1.1]
  · exact this

namespace BuildIdScriptAux

/-- Symbols of the examples. -/
def symbols : List Symbol :=
  [⟨some "g_memfault_build_id", 0, 4⟩, ⟨some "g_memfault_sdk_derived_build_id", 4, 20⟩, ⟨some "id", 24, 4⟩]

/-- One section of 32 bytes, whose last eight look like another section. -/
def one (x : UInt8) : Elf :=
  ⟨[1, 20, 5, 0] ++ (1 :: List.replicate 19 0) ++ [100, 0, 0, 0] ++ [x, 0, 0, 0],
    [⟨true, false, false, false, 0, 0, 32⟩], symbols, none, true⟩

/-- Two sections, of 24 and 4 bytes. -/
def two : Elf :=
  ⟨[1, 20, 5, 0] ++ (1 :: List.replicate 19 0) ++ [7, 0, 0, 0],
    [⟨true, false, false, false, 0, 0, 24⟩, ⟨true, false, false, false, 100, 24, 4⟩],
    symbols.take 2, none, true⟩

theorem one_ready (x : UInt8) : Ready (one x) 0 4 [20, 5, 0] := by
  refine ⟨⟨?_, ?_, ?_, ?_⟩, ⟨⟨by simp, ⟨true, false, false, false, 0, 0, 32⟩, by simp [one], rfl, rfl, by simp, by simp,
    by simp [one]⟩, by simp⟩, ⟨by simp [one, symbols], ?_⟩,
    ⟨1 :: List.replicate 19 0, ⟨by simp, ⟨true, false, false, false, 0, 0, 32⟩,
    by simp [one], rfl, rfl, by simp, by simp, by simp [one]⟩, by simp⟩, ⟨by simp [one, symbols], ?_⟩, by simp⟩ <;>
    simp [one, symbols]

theorem two_ready : Ready two 0 4 [20, 5, 0] := by
  refine ⟨⟨?_, ?_, ?_, ?_⟩, ⟨⟨by simp, ⟨true, false, false, false, 0, 0, 24⟩, by simp [two], rfl, rfl, by simp, by simp,
    by simp [two]⟩, by simp⟩, ⟨by simp [two, symbols], ?_⟩,
    ⟨1 :: List.replicate 19 0, ⟨by simp, ⟨true, false, false, false, 0, 0, 24⟩,
    by simp [two], rfl, rfl, by simp, by simp, by simp [two]⟩, by simp⟩, ⟨by simp [two, symbols], ?_⟩, by simp⟩ <;>
    simp [two, symbols]
  all_goals constructor <;> intros <;> omega

end BuildIdScriptAux

/-- Two such programs. -/
example : Ready (one 1) 0 4 [20, 5, 0] ∧ Ready (one 2) 0 4 [20, 5, 0] ∧ (one 2).sections = (one 1).sections ∧
    ∃ s ∈ (one 1).sections, s.alloc = true ∧ bytesOf (one 1) s ≠ bytesOf (one 2) s :=
  ⟨one_ready 1, one_ready 2, rfl, ⟨true, false, false, false, 0, 0, 32⟩, by simp [one], rfl, by decide⟩

/-- A symbol for a CRC in such a program. -/
example : Sane (one 1) ∧ Named (one 1) "id" 24 4 ∧ Loaded (one 1) 24 [100, 0, 0, 0] :=
  ⟨(one_ready 1).sane, ⟨by simp [one, symbols], by simp [one, symbols]⟩,
    by simp, ⟨true, false, false, false, 0, 0, 32⟩, by simp [one], rfl, rfl, by simp, by simp, by decide⟩

/-- **C122 is false** of programs whose sections differ: the hash does not have the length of the contents, so
that two programs, one with a section more, have the same build id whatever the hash is. -/
theorem C122_false_layout (sha1 : Bytes → Bytes) (crc32 : Bytes → BitVec 32) (hsha : ∀ x, (sha1 x).length = 20) :
    ∃ e f e' f' a b c d re rf, Ready e a b re ∧ Ready f c d rf ∧ e.sections.length ≠ f.sections.length ∧
      main sha1 crc32 {} e = some e' ∧ main sha1 crc32 {} f = some f' ∧
      dumpInfo sha1 40 e' = dumpInfo sha1 40 f' := by
  obtain ⟨e1, g1, _, _, _, _, g2, _, _⟩ := C122_adds sha1 crc32 hsha (one 7) _ _ _ (one_ready 7)
  obtain ⟨f1, k1, _, _, _, _, k2, _⟩ := C122_adds sha1 crc32 hsha two _ _ _ two_ready
  refine ⟨one 7, two, e1, f1, _, _, _, _, _, _, one_ready 7, two_ready, by decide, g1, k1, ?_⟩
  rw [g2, k2, show image (one 7) = image two by decide]

/-- A symbol of 20 bytes in such a program. -/
example : Sane (one 1) ∧ Named (one 1) "g_memfault_sdk_derived_build_id" 4 20 ∧
    ∃ old, Loaded (one 1) 4 old ∧ old.length = 20 :=
  ⟨(one_ready 1).sane, (one_ready 1).namedStorage, (one_ready 1).storage⟩

/-- **C122 is false** of `--crc`: the option never works, because the name that is looked for is the one of
`--sha1`, which is not given. -/
theorem C122_false_crc (sha1 : Bytes → Bytes) (crc32 : Bytes → BitVec 32) (e : Elf) (name : String)
    (hname : name ≠ "") (dump : Option Nat) (hsym : ∀ y ∈ e.symbols, y.name.isSome = true) :
    main sha1 crc32 { crc := some name, dump := dump } e = none := by
  unfold main updateCrc findSymbol
  have : e.symbols.find? (fun y => decide (y.name = none)) = none := by
    apply List.find?_eq_none.2
    intro y hy
    have := hsym y hy
    cases hq : y.name <;> simp_all
  simp [hname, this]

/-- The example has such symbols. -/
example : ∀ y ∈ (one 1).symbols, y.name.isSome = true := by simp [one, symbols]

/-- **C122.** A program that still waits for its build id has none: to be asked for it, the script fails or says that
there is none. Whatever the program, asking for the id leaves the file as it is. -/
theorem C122_asking (sha1 : Bytes → Bytes) (crc32 : Bytes → BitVec 32) (e : Elf) :
    (∀ r, writeInfo sha1 true e = some r → r.1 = e) ∧
    (∀ a d record, Ready e a d record → buildInfo sha1 e = some ⟨.none, none, none⟩ ∧
      ∀ n, dumpInfo sha1 n e = none ∧ main sha1 crc32 { dump := some n } e = none) := by
  constructor
  · intro r h
    unfold writeInfo at h
    split at h
    · exact nomatch h
    · split at h
      · dsimp only at h
        split at h
        · obtain ⟨g, _, rfl⟩ := Option.map_eq_some_iff.1 h; rfl
        · split at h
          · exact nomatch h
          · split at h
            · obtain rfl := Option.some.inj h; rfl
            · split at h
              · exact nomatch h
              · simp only [if_true] at h
                obtain rfl := Option.some.inj h; rfl
      · exact nomatch h
  · intro a d record h
    obtain ⟨hs, ⟨hr, h2⟩, hn, ⟨old, ho, hol⟩, hm, hap⟩ := h
    obtain ⟨s, h1, h2', h3, h4, h5, h6, h7⟩ := found hs (by simpa using hn) hr
    obtain ⟨t, g1, g2, g3, g4, g5, g6, g7⟩ := found hs (by rw [hol]; exact hm) ho
    have hw : writeInfo sha1 true e = some (e, ⟨.none, none, none⟩) := by
      unfold writeInfo
      rw [h7]
      simp only
      rw [symbol_data h3 h4 h5, h6]
      obtain ⟨x, y, r, rfl⟩ : ∃ x y r, record = x :: y :: r := by
        match record, h2 with
        | x :: y :: r, _ => exact ⟨x, y, r, rfl⟩
      simp only [List.getElem?_cons_succ, List.getElem?_cons_zero]
      rw [g7]
      simp
    have hd : ∀ n, dumpInfo sha1 n e = none := by intro n; unfold dumpInfo; rw [hw]
    refine ⟨by unfold buildInfo; rw [hw]; rfl, fun n => ⟨hd n, ?_⟩⟩
    unfold main
    simp [hd]

/-- The hypothesis is met. -/
example : Ready (one 1) 0 4 [20, 5, 0] := one_ready 1

/-- **C122 is false** of `--dump 0` with `--sha1`: for every hash there is a program whose file is changed. -/
theorem C122_false_dump (sha1 : Bytes → Bytes) (crc32 : Bytes → BitVec 32) (hsha : ∀ x, (sha1 x).length = 20) :
    ∃ e e' name, Sane e ∧ main sha1 crc32 { sha1 := some name, dump := some 0 } e = some e' ∧ e' ≠ e := by
  have h0 : ∀ e, main sha1 crc32 { sha1 := some "g_memfault_sdk_derived_build_id", dump := some 0 } e =
      main sha1 crc32 { sha1 := some "g_memfault_sdk_derived_build_id" } e := by
    intro e
    unfold main
    simp
  have hr := one_ready 1
  obtain ⟨e', _, h1, _, _, _, h2, _⟩ := C122_sha1 sha1 crc32 hsha (one 1) "g_memfault_sdk_derived_build_id" 4
    (by simp) hr.sane hr.namedStorage hr.storage
  obtain ⟨p1, _⟩ := replaced hr.sane (s := ⟨true, false, false, false, 0, 0, 32⟩) (by simp [one]) rfl rfl (a := 4)
    (d := 2 :: List.replicate 19 0) (by simp) (by simp) (by simp)
  have h3 := h2 _ p1
  rw [← h0] at h1 h3
  by_cases he : e' = one 1
  · refine ⟨_, e', _, sane_only hr.sane p1, h3, ?_⟩
    rw [he]
    decide
  · exact ⟨one 1, e', _, hr.sane, h1, he⟩

end Mflt.Props
