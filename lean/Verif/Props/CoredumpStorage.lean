import Verif.Spec.CoredumpStorage

/-! # C65 and C66: coredump storage in RAM, and the self test of a coredump storage -/

namespace Mflt.Props

open Mflt.CoredumpStorage Mflt.Spec.CoredumpStorage

theorem testImage_length (n : Nat) : (testImage n).length = n := by simp [testImage]

theorem slice_length {m : Bytes} {o l : Nat} (h : o + l ≤ m.length) : (slice m o l).length = l := by
  simp only [slice, List.length_take, List.length_drop]; omega

theorem update_length {m d : Bytes} {o : Nat} (h : o + d.length ≤ m.length) :
    (update m o d).length = m.length := by
  simp only [update, List.length_append, List.length_take, List.length_drop]; omega

theorem slice_testImage {n o l : Nat} (h : o + l ≤ n) :
    slice (testImage n) o l = (List.range l).map fun j => testByte (o + j) := by
  apply List.ext_getElem
  · rw [slice_length (by rw [testImage_length]; exact h)]; simp
  · intro i h1 h2
    simp [slice, testImage]

theorem testByte_add (o j : Nat) : testByte (o + j) = testByte (o % 19 + j) := by
  unfold testByte; rw [show (o + j) % 19 = (o % 19 + j) % 19 by omega]

theorem pattern1_eq : pattern1 = (List.range 12).map fun j => testByte (0 + j) := by decide

theorem pattern2_eq : pattern2 = (List.range 7).map fun j => testByte (12 + j) := by decide

/-- Where the loops are after `k` patterns. -/
def Phase (size offset k : Nat) : Prop :=
  offset = size ∨ (k % 2 = 0 ∧ offset % 19 = 0) ∨ (k % 2 = 1 ∧ offset % 19 = 12)

theorem patternAt_spec {size offset k : Nat} (h : offset < size) (hp : Phase size offset k) :
    ∃ l, 0 < l ∧ offset + l ≤ size ∧ l ≤ 12 ∧ (patternAt size offset k).length = l ∧
      patternAt size offset k = slice (testImage size) offset l ∧ Phase size (offset + l) (k + 1) := by
  rcases hp with hp | ⟨h1, h2⟩ | ⟨h1, h2⟩
  · omega
  · refine ⟨min (size - offset) 12, by omega, by omega, by omega, ?_, ?_, ?_⟩
    · rw [patternAt, if_pos h1, pattern1_eq, ← List.map_take, List.take_range]; simp
    · rw [patternAt, if_pos h1, pattern1_eq, ← List.map_take, List.take_range, slice_testImage (by omega)]
      apply List.map_congr_left
      intro j _
      rw [testByte_add offset j, h2]
    · unfold Phase; omega
  · refine ⟨min (size - offset) 7, by omega, by omega, by omega, ?_, ?_, ?_⟩
    · rw [patternAt, if_neg (by omega), pattern2_eq, ← List.map_take, List.take_range]; simp
    · rw [patternAt, if_neg (by omega), pattern2_eq, ← List.map_take, List.take_range,
        slice_testImage (by omega)]
      apply List.map_congr_left
      intro j _
      rw [testByte_add offset j, h2]
    · unfold Phase; omega

theorem readBuf_take {d : Bytes} {l : Nat} (h : d.length = l) : (readBuf d l).take l = d := by
  subst h
  rw [readBuf, List.take_of_length_le (Nat.le_refl d.length), List.take_left]

theorem drop_slice (m : Bytes) (o l : Nat) : m.drop o = slice m o l ++ m.drop (o + l) := by
  rw [slice, ← List.drop_drop, List.take_append_drop]

/-- Reading back succeeds exactly when the storage holds the image from `offset` on. -/
theorem checkLoop_spec {p : Platform Bytes} {m : Bytes} (hlen : m.length = p.size)
    (hread : ∀ offset len, offset + len ≤ p.size → p.read m offset len = some (some (slice m offset len), m))
    (fuel offset k : Nat) (hf : p.size < offset + fuel) (ho : offset ≤ p.size)
    (hp : Phase p.size offset k) :
    ∃ r, checkLoop p fuel m offset k = some (r, m) ∧
      (r = .success ↔ m.drop offset = (testImage p.size).drop offset) := by
  induction fuel generalizing offset k with
  | zero => omega
  | succ fuel ih =>
    unfold checkLoop
    by_cases h : offset < p.size
    · rw [if_pos h]
      obtain ⟨l, h1, h2, h3, h4, h5, h6⟩ := patternAt_spec h hp
      simp only [h4, hread offset l h2]
      rw [readBuf_take (slice_length (by omega)), h5, drop_slice m offset l,
        drop_slice (testImage p.size) offset l]
      by_cases he : slice m offset l = slice (testImage p.size) offset l
      · rw [if_neg (by simp [he])]
        obtain ⟨r, r1, r2⟩ := ih (offset + l) (k + 1) (by omega) h2 h6
        refine ⟨r, r1, r2.trans ?_⟩
        rw [he]
        exact (List.append_cancel_left_eq _ _ _).symm ▸ Iff.rfl
      · rw [if_pos he]
        refine ⟨_, rfl, ?_⟩
        constructor
        · intro hh; cases hh
        · intro hh
          exact absurd (List.append_inj hh (by
            rw [slice_length (by omega), slice_length (by rw [testImage_length]; omega)])).1 he
    · rw [if_neg h]
      have : offset = p.size := by omega
      subst this
      refine ⟨_, rfl, ?_⟩
      rw [List.drop_eq_nil_of_le (by omega), List.drop_eq_nil_of_le (by rw [testImage_length]; omega)]
      simp

theorem findNotErased_none (bs : Bytes) :
    findNotErased bs = none ↔ ∀ b ∈ bs, b = 0x00 ∨ b = 0xff := by
  induction bs with
  | nil => simp [findNotErased]
  | cons b bs ih =>
    rw [findNotErased]
    have hv : verifyErased b = true ↔ b = 0x00 ∨ b = 0xff := by simp [verifyErased]
    by_cases h : verifyErased b = true
    · rw [h]
      simp only [Bool.not_true, Bool.false_eq_true, if_false, Option.map_eq_none_iff, ih,
        List.mem_cons, forall_eq_or_imp, hv.mp h, true_and]
    · rw [Bool.not_eq_true] at h
      rw [h]
      simp only [Bool.not_false, if_true, reduceCtorEq, List.mem_cons, forall_eq_or_imp, false_iff]
      rintro ⟨h1, -⟩
      rw [hv.mpr h1] at h
      exact absurd h (by simp)

theorem erasedLoop_spec {p : Platform Bytes} {m : Bytes} (hlen : m.length = p.size)
    (hmax : p.size ≤ 4294967280)
    (hread : ∀ offset len, offset + len ≤ p.size → p.read m offset len = some (some (slice m offset len), m))
    (fuel i : Nat) (hf : p.size < i + fuel) :
    ∃ r, erasedLoop p fuel m i = some (r, m) ∧
      (r = .success ↔ ∀ b ∈ m.drop i, b = 0x00 ∨ b = 0xff) := by
  induction fuel generalizing i with
  | zero =>
    unfold erasedLoop
    rw [if_neg (by omega), List.drop_eq_nil_of_le (by omega)]
    exact ⟨_, rfl, by simp⟩
  | succ fuel ih =>
    unfold erasedLoop
    by_cases h : i < p.size
    · rw [if_pos h]
      simp only [hread i (min 16 (p.size - i)) (by omega)]
      rw [readBuf_take (slice_length (by omega)), add32_eq (by omega)]
      have hs := findNotErased_none (slice m i (min 16 (p.size - i)))
      have hd := drop_slice m i (min 16 (p.size - i))
      have hd2 : m.drop (i + min 16 (p.size - i)) = m.drop (i + 16) := by
        rcases Nat.le_total 16 (p.size - i) with hc | hc
        · rw [Nat.min_eq_left hc]
        · rw [List.drop_eq_nil_of_le (by omega), List.drop_eq_nil_of_le (by omega)]
      rw [hd2] at hd
      cases hfn : findNotErased (slice m i (min 16 (p.size - i))) with
      | none =>
        obtain ⟨r, r1, r2⟩ := ih (i + 16) (by omega)
        refine ⟨r, r1, r2.trans ?_⟩
        rw [hd]
        simp only [List.mem_append]
        constructor
        · rintro h' b (hb | hb)
          · exact hs.mp hfn b hb
          · exact h' b hb
        · exact fun h' b hb => h' b (Or.inr hb)
      | some j =>
        refine ⟨_, rfl, ?_⟩
        constructor
        · intro hh; cases hh
        · intro hh
          have := hs.mpr fun b hb => hh b (by rw [hd]; exact List.mem_append_left _ hb)
          rw [hfn] at this
          cases this
    · rw [if_neg h, List.drop_eq_nil_of_le (by omega)]
      exact ⟨_, rfl, by simp⟩

theorem writeLoop_length {p : Platform Bytes} (hw : ∀ m o d b m', m.length = p.size →
      p.write m o d = some (b, m') → m'.length = p.size)
    (fuel : Nat) (m : Bytes) (offset k : Nat) (hlen : m.length = p.size) {r : TestResult} {m' : Bytes}
    (h : writeLoop p fuel m offset k = some (r, m')) : m'.length = p.size := by
  induction fuel generalizing m offset k with
  | zero =>
    unfold writeLoop at h
    split at h
    · cases h
    · simp only [Option.some.injEq, Prod.mk.injEq] at h; rw [← h.2]; exact hlen
  | succ fuel ih =>
    unfold writeLoop at h
    split at h
    · simp only at h
      split at h
      · cases h
      · rename_i heq
        simp only [Option.some.injEq, Prod.mk.injEq] at h
        rw [← h.2]
        exact hw _ _ _ _ _ hlen heq
      · rename_i heq
        exact ih _ _ _ (hw _ _ _ _ _ hlen heq) h
    · simp only [Option.some.injEq, Prod.mk.injEq] at h; rw [← h.2]; exact hlen

/-- Every list of the length of an image is cut into what is before and behind an offset. -/
theorem writeLoop_works {p : Platform Bytes}
    (hw : ∀ m offset data, m.length = p.size → offset + data.length ≤ p.size →
      p.write m offset data = some (true, update m offset data))
    (fuel : Nat) (m : Bytes) (offset k : Nat) (hlen : m.length = p.size) (hf : p.size < offset + fuel)
    (ho : offset ≤ p.size) (hp : Phase p.size offset k) :
    writeLoop p fuel m offset k = some (.success, m.take offset ++ (testImage p.size).drop offset) := by
  induction fuel generalizing m offset k with
  | zero => omega
  | succ fuel ih =>
    unfold writeLoop
    by_cases h : offset < p.size
    · rw [if_pos h]
      obtain ⟨l, h1, h2, h3, h4, h5, h6⟩ := patternAt_spec h hp
      simp only [hw m offset _ hlen (show offset + (patternAt p.size offset k).length ≤ p.size by omega)]
      have hul : (update m offset (patternAt p.size offset k)).length = p.size := by
        rw [update_length (by omega), hlen]
      rw [h4, ih _ (offset + l) (k + 1) hul (by omega) h2 h6]
      congr 2
      rw [drop_slice (testImage p.size) offset l, ← h5, ← List.append_assoc]
      congr 1
      rw [update]
      have : (m.take offset ++ patternAt p.size offset k).length = offset + l := by
        rw [List.length_append, List.length_take, h4]; omega
      rw [← this, List.take_left]
    · rw [if_neg h]
      have : offset = p.size := by omega
      subst this
      rw [List.take_of_length_le (by omega), List.drop_eq_nil_of_le (by rw [testImage_length]; omega),
        List.append_nil]

/-- **C65 (soundness).** Let the storage be readable, while erasing and writing may do anything. If the
test passes, the storage has been erased, with every byte `0x00` or `0xff`, and afterwards every single
byte of it holds the value that was written last. -/
theorem C65_storage_test_sound (p : Platform Bytes) (h : Readable p) (hmax : p.size ≤ 4294967280)
    (m m' : Bytes) (hlen : m.length = p.size) (ht : testBegin p m = some (.success, m')) :
    0 < p.size ∧ m' = testImage p.size ∧
    ∃ m0 m1, p.saveBegin m = some (true, m0) ∧ p.erase m0 0 p.size = some (true, m1) ∧
      ∀ b ∈ m1, b = 0x00 ∨ b = 0xff := by
  unfold testBegin at ht
  split at ht
  · cases ht
  rename_i hs
  refine ⟨by omega, ?_⟩
  split at ht
  · cases ht
  · cases ht
  rename_i m0 h0
  have l0 := h.saveBegin _ _ _ hlen h0
  split at ht
  · cases ht
  · cases ht
  rename_i m1 h1
  have l1 := h.erase _ _ _ _ _ l0 h1
  obtain ⟨r, r1, r2⟩ := erasedLoop_spec l1 hmax (fun o l hl => h.read m1 o l l1 hl) (p.size + 1) 0
    (by omega)
  rw [r1] at ht
  split at ht
  · rename_i e
    simp only [Option.some.injEq, Prod.mk.injEq] at e
    obtain ⟨rfl, rfl⟩ := e
    have herased := r2.mp rfl
    rw [List.drop_zero] at herased
    split at ht
    · rename_i m2 hw
      have l2 := writeLoop_length h.write _ _ _ _ l1 hw
      split at ht
      · cases ht
      · cases ht
      · rename_i m3 hw3
        have l3 := h.write _ _ _ _ _ l2 hw3
        obtain ⟨q, q1, q2⟩ := checkLoop_spec l3 (fun o l hl => h.read m3 o l l3 hl) (p.size + 1) 0 0
          (by omega) (by omega) (Or.inr (Or.inl ⟨rfl, rfl⟩))
        rw [q1] at ht
        simp only [Option.some.injEq, Prod.mk.injEq] at ht
        obtain ⟨rfl, rfl⟩ := ht
        have := q2.mp rfl
        rw [List.drop_zero, List.drop_zero] at this
        exact ⟨this, m0, m1, h0, h1, herased⟩
    · rename_i hne
      exact absurd ht (hne _)
  · rename_i hne
    simp only [Option.some.injEq, Prod.mk.injEq] at ht
    obtain ⟨rfl, rfl⟩ := ht
    exact absurd rfl (hne _)

/-- **C65 (no failure hidden).** If the test passes then none of the operations it used reported a failure:
whatever is kept by operations that succeed, holds at the end. (Take for `P` that a flag, which the
platform sets whenever it reports a failure, is not set.) -/
theorem C65_no_failure_hidden {σ : Type} (p : Platform σ) (P : σ → Prop)
    (h0 : ∀ s s', P s → p.saveBegin s = some (true, s') → P s')
    (h1 : ∀ s o l s', P s → p.erase s o l = some (true, s') → P s')
    (h2 : ∀ s o d s', P s → p.write s o d = some (true, s') → P s')
    (h3 : ∀ s o l d s', P s → p.read s o l = some (some d, s') → P s')
    (s s' : σ) (hs : P s) (ht : testBegin p s = some (.success, s')) : P s' := by
  have he : ∀ fuel s i s', P s → erasedLoop p fuel s i = some (.success, s') → P s' := by
    intro fuel
    induction fuel with
    | zero =>
      intro s i s' hs h
      unfold erasedLoop at h
      split at h
      · cases h
      · cases h; exact hs
    | succ fuel ih =>
      intro s i s' hs h
      unfold erasedLoop at h
      split at h
      · simp only at h
        split at h
        · cases h
        · cases h
        · rename_i d s1 hr
          split at h
          · cases h
          · exact ih _ _ _ (h3 _ _ _ _ _ hs hr) h
      · cases h; exact hs
  have hw : ∀ fuel s i n s', P s → writeLoop p fuel s i n = some (.success, s') → P s' := by
    intro fuel
    induction fuel with
    | zero =>
      intro s i n s' hs h
      unfold writeLoop at h
      split at h
      · cases h
      · cases h; exact hs
    | succ fuel ih =>
      intro s i n s' hs h
      unfold writeLoop at h
      split at h
      · simp only at h
        split at h
        · cases h
        · cases h
        · rename_i s1 hr
          exact ih _ _ _ _ (h2 _ _ _ _ hs hr) h
      · cases h; exact hs
  have hc : ∀ fuel s i n s', P s → checkLoop p fuel s i n = some (.success, s') → P s' := by
    intro fuel
    induction fuel with
    | zero =>
      intro s i n s' hs h
      unfold checkLoop at h
      split at h
      · cases h
      · cases h; exact hs
    | succ fuel ih =>
      intro s i n s' hs h
      unfold checkLoop at h
      split at h
      · simp only at h
        split at h
        · cases h
        · cases h
        · rename_i d s1 hr
          split at h
          · cases h
          · exact ih _ _ _ _ (h3 _ _ _ _ _ hs hr) h
      · cases h; exact hs
  unfold testBegin at ht
  split at ht
  · cases ht
  split at ht
  · cases ht
  · cases ht
  rename_i s0 g0
  split at ht
  · cases ht
  · cases ht
  rename_i s1 g1
  have p1 := h1 _ _ _ _ (h0 _ _ hs g0) g1
  split at ht
  · rename_i s2 g2
    have p2 := he _ _ _ _ p1 g2
    split at ht
    · rename_i s3 g3
      have p3 := hw _ _ _ _ _ p2 g3
      split at ht
      · cases ht
      · cases ht
      · rename_i s4 g4
        exact hc _ _ _ _ _ (h2 _ _ _ _ p3 g4) ht
    · rename_i g3
      rw [ht] at g3
      exact absurd rfl (g3 _)
  · rename_i g2
    rw [ht] at g2
    exact absurd rfl (g2 _)

/-- The storage in RAM with a flag that is set by every failure passes, with the flag not set. -/
def flagged : Platform (Bytes × Bool) where
  size := 40
  saveBegin s := some (true, s)
  erase s o l := (ramErase s.1 o l).map fun r => (r.1, (r.2, s.2 || !r.1))
  write s o d := (ramWrite s.1 o d).map fun r => (r.1, (r.2, s.2 || !r.1))
  read s o l := (ramRead s.1 o l).map fun r => (r.1, (r.2, s.2 || r.1.isNone))
  clear s := (ramClear s.1).map fun m => (m, s.2)

example : testBegin flagged (List.replicate 40 7, false) =
    some (.success, (Spec.CoredumpStorage.testImage 40, false)) := by decide +kernel

/-- No byte of the image looks erased. -/
theorem testByte_not_erased (i : Nat) : testByte i ≠ 0x00 ∧ testByte i ≠ 0xff := by
  have h : ∀ j : Fin 19, testByte j.val ≠ 0x00 ∧ testByte j.val ≠ 0xff := by decide
  have := h ⟨i % 19, by omega⟩
  have e : testByte (i % 19) = testByte i := by unfold testByte; rw [Nat.mod_mod]
  rwa [e] at this

/-- **C65 (broken byte).** A storage in which one byte, whichever, never changes fails the test,
whatever its erase and write functions answer. -/
theorem C65_broken_byte_detected (p : Platform Bytes) (h : Readable p) (hmax : p.size ≤ 4294967280)
    (k : Nat) (hk : k < p.size) (b : UInt8)
    (he : ∀ m o l ok m', p.erase m o l = some (ok, m') → m'[k]? = some b)
    (hw : ∀ m o d ok m', m[k]? = some b → p.write m o d = some (ok, m') → m'[k]? = some b)
    (m m' : Bytes) (hlen : m.length = p.size) : testBegin p m ≠ some (.success, m') := by
  intro ht
  obtain ⟨-, himg, m0, m1, -, h1, h2⟩ := C65_storage_test_sound p h hmax m m' hlen ht
  have hb1 := he _ _ _ _ _ h1
  have hbe : b = 0x00 ∨ b = 0xff := h2 b (List.mem_of_getElem? hb1)
  -- the byte is still `b` at the end
  have key : m'[k]? = some b := by
    unfold testBegin at ht
    split at ht
    · cases ht
    split at ht
    · cases ht
    · cases ht
    rename_i n0 g0
    split at ht
    · cases ht
    · cases ht
    rename_i n1 g1
    have l0 := h.saveBegin _ _ _ hlen g0
    have l1 := h.erase _ _ _ _ _ l0 g1
    have hn1 := he _ _ _ _ _ g1
    obtain ⟨r, r1, r2⟩ := erasedLoop_spec l1 hmax (fun o l hl => h.read n1 o l l1 hl) (p.size + 1) 0
      (by omega)
    rw [r1] at ht
    have hloop : ∀ (fuel : Nat) (s : Bytes) (o j : Nat) (r : TestResult) (s' : Bytes), s[k]? = some b →
        writeLoop p fuel s o j = some (r, s') → s'[k]? = some b := by
      intro fuel
      induction fuel with
      | zero =>
        intro s o j r s' hs hh
        unfold writeLoop at hh
        split at hh
        · cases hh
        · simp only [Option.some.injEq, Prod.mk.injEq] at hh; rw [← hh.2]; exact hs
      | succ fuel ih =>
        intro s o j r s' hs hh
        unfold writeLoop at hh
        split at hh
        · simp only at hh
          split at hh
          · cases hh
          · rename_i heq
            simp only [Option.some.injEq, Prod.mk.injEq] at hh
            rw [← hh.2]; exact hw _ _ _ _ _ hs heq
          · rename_i heq
            exact ih _ _ _ _ _ (hw _ _ _ _ _ hs heq) hh
        · simp only [Option.some.injEq, Prod.mk.injEq] at hh; rw [← hh.2]; exact hs
    split at ht
    · rename_i e
      simp only [Option.some.injEq, Prod.mk.injEq] at e
      obtain ⟨rfl, rfl⟩ := e
      split at ht
      · rename_i n2 g2
        have hn2 := hloop _ _ _ _ _ _ hn1 g2
        have l2 := writeLoop_length h.write _ _ _ _ l1 g2
        split at ht
        · cases ht
        · cases ht
        · rename_i n3 g3
          have l3 := h.write _ _ _ _ _ l2 g3
          obtain ⟨q, q1, q2⟩ := checkLoop_spec l3 (fun o l hl => h.read n3 o l l3 hl) (p.size + 1) 0 0
            (by omega) (by omega) (Or.inr (Or.inl ⟨rfl, rfl⟩))
          rw [q1] at ht
          simp only [Option.some.injEq, Prod.mk.injEq] at ht
          rw [← ht.2]
          exact hw _ _ _ _ _ hn2 g3
      · rename_i hne
        exact absurd ht (hne _)
    · rename_i hne
      simp only [Option.some.injEq, Prod.mk.injEq] at ht
      obtain ⟨rfl, rfl⟩ := ht
      exact absurd rfl (hne _)
  rw [himg, testImage, List.getElem?_map, List.getElem?_range hk, Option.map_some,
    Option.some.injEq] at key
  have := testByte_not_erased k
  rw [key] at this
  rcases hbe with e | e
  · exact this.1 e
  · exact this.2 e

/-- **C65 (completeness).** Every storage that works and can hold a coredump header passes both parts of
the test. -/
theorem C65_storage_test_complete (p : Platform Bytes) (h : Works p) (hmin : 12 ≤ p.size)
    (hmax : p.size ≤ 4294967280) (m : Bytes) (hlen : m.length = p.size) :
    testBegin p m = some (.success, testImage p.size) ∧
    ∃ m', testFinish p .success (testImage p.size) = some (true, .success, m') := by
  obtain ⟨e, he, herase⟩ := h.erase
  constructor
  · unfold testBegin
    rw [if_neg (by omega), h.saveBegin m hlen]
    simp only [herase m hlen]
    have l1 : (List.replicate p.size e).length = p.size := by simp
    obtain ⟨r, r1, r2⟩ := erasedLoop_spec l1 hmax (fun o l hl => h.read _ o l l1 hl) (p.size + 1) 0
      (by omega)
    have hr : r = .success := r2.mpr fun b hb => by
      rw [List.drop_zero] at hb
      rw [List.eq_of_mem_replicate hb]; exact he
    rw [r1, hr]
    simp only
    have hpl : pattern1.length = 12 := rfl
    rw [hpl, writeLoop_works h.write (p.size + 1) _ 12 1 l1 (by omega) hmin
      (Or.inr (Or.inr ⟨rfl, rfl⟩))]
    simp only
    have l2 : ((List.replicate p.size e).take 12 ++ (testImage p.size).drop 12).length = p.size := by
      simp only [List.length_append, List.length_take, List.length_drop, testImage_length, l1]; omega
    rw [h.write _ 0 pattern1 l2 (by rw [hpl]; omega)]
    simp only
    have hfin : update ((List.replicate p.size e).take 12 ++ (testImage p.size).drop 12) 0 pattern1 =
        testImage p.size := by
      have ht : ((List.replicate p.size e).take 12).length = 12 := by
        rw [List.length_take, l1]; omega
      have hd : ((List.replicate p.size e).take 12 ++ (testImage p.size).drop 12).drop 12 =
          (testImage p.size).drop 12 := by
        conv => lhs; arg 1; rw [← ht]
        rw [List.drop_left]
      rw [update, List.take_zero, List.nil_append, hpl, Nat.zero_add, hd]
      have h1 : pattern1 = slice (testImage p.size) 0 12 := by
        rw [slice_testImage (by omega), pattern1_eq]
      rw [h1, slice, List.drop_zero, List.take_append_drop]
    rw [hfin]
    have l3 := testImage_length p.size
    obtain ⟨q, q1, q2⟩ := checkLoop_spec l3 (fun o l hl => h.read _ o l l3 hl) (p.size + 1) 0 0
      (by omega) (by omega) (Or.inr (Or.inl ⟨rfl, rfl⟩))
    rw [q1, q2.mpr rfl]
  · obtain ⟨m', c1, c2, c3⟩ := h.clear (testImage p.size) (testImage_length _) (by omega)
    refine ⟨m', ?_⟩
    unfold testFinish verifyClear
    simp only [c1, h.read m' 0 1 c2 (by omega)]
    cases m' with
    | nil => simp only [List.length_nil] at c2; omega
    | cons a t =>
      simp only [List.getD_cons_zero] at c3
      have : verifyErased ((readBuf (slice (a :: t) 0 1) 1).getD 0 0) = true := by
        simp only [slice, List.drop_zero, List.take_succ_cons, List.take_zero, readBuf,
          List.singleton_append, List.getD_cons_zero, verifyErased]
        rcases c3 with rfl | rfl <;> decide
      rw [this]
      simp

/-- **C65 (verdict).** The second part passes only if the first one did, and only if the first byte is
erased after clearing: then no coredump is found. -/
theorem C65_verdict (p : Platform Bytes) (h : Readable p)
    (hclear : ∀ m m', m.length = p.size → p.clear m = some m' → m'.length = p.size)
    (hs : 0 < p.size) (result r : TestResult) (m m' : Bytes) (hlen : m.length = p.size)
    (ht : testFinish p result m = some (true, r, m')) :
    result = .success ∧ p.clear m = some m' ∧ (m'.head? = some 0x00 ∨ m'.head? = some 0xff) := by
  unfold testFinish at ht
  split at ht
  · refine ⟨rfl, ?_⟩
    unfold verifyClear at ht
    cases hc : p.clear m with
    | none => rw [hc] at ht; simp at ht
    | some mc =>
      have lc := hclear _ _ hlen hc
      rw [hc] at ht
      simp only [h.read mc 0 1 lc (by omega)] at ht
      cases mc with
      | nil => simp only [List.length_nil] at lc; omega
      | cons a t =>
        have e : (readBuf (slice (a :: t) 0 1) 1).getD 0 0 = a := by
          simp [slice, readBuf]
        rw [e] at ht
        by_cases hv : verifyErased a = true
        · rw [hv] at ht
          simp only [Bool.not_true, Bool.false_eq_true, if_false, Option.some.injEq, Prod.mk.injEq,
            true_and] at ht
          rw [← ht.2]
          refine ⟨rfl, ?_⟩
          simp only [verifyErased, Bool.or_eq_true, beq_iff_eq] at hv
          rcases hv with rfl | rfl
          · exact Or.inl rfl
          · exact Or.inr rfl
        · rw [Bool.not_eq_true] at hv
          rw [hv] at ht
          simp at ht
  · simp at ht

/-! ## Storage in RAM -/

theorem withinBounds_eq {size offset len : Nat} (h : offset + len < 2 ^ 32) :
    withinBounds size offset len = decide (offset + len ≤ size) := by
  rw [withinBounds, add32_eq h]

theorem ramRead_eq {m : Bytes} {o l : Nat} (h : o + l < 2 ^ 32) :
    ramRead m o l = some (if o + l ≤ m.length then some (slice m o l) else none, m) := by
  rw [ramRead, withinBounds_eq h]
  by_cases hc : o + l ≤ m.length
  · rw [decide_eq_true hc, if_pos hc, memcpyOut, if_pos hc]; rfl
  · rw [decide_eq_false hc, if_neg hc]; rfl

theorem ramWrite_eq {m d : Bytes} {o : Nat} (h : o + d.length < 2 ^ 32) :
    ramWrite m o d = some (decide (o + d.length ≤ m.length),
      if o + d.length ≤ m.length then update m o d else m) := by
  rw [ramWrite, withinBounds_eq h]
  by_cases hc : o + d.length ≤ m.length
  · rw [decide_eq_true hc, if_pos hc, memcpyIn, if_pos hc]; rfl
  · rw [decide_eq_false hc, if_neg hc]; rfl

theorem ramErase_eq {m : Bytes} {o l : Nat} (h : o + l < 2 ^ 32) :
    ramErase m o l = some (decide (o + l ≤ m.length),
      if o + l ≤ m.length then update m o (List.replicate l 0) else m) := by
  rw [ramErase, withinBounds_eq h]
  by_cases hc : o + l ≤ m.length
  · rw [decide_eq_true hc, if_pos hc]
    simp only [Bool.not_true, Bool.false_eq_true, if_false]
    rw [memcpyIn, if_pos (by rw [List.length_replicate]; exact hc)]; rfl
  · rw [decide_eq_false hc, if_neg hc]; rfl

/-- One operation on the storage in RAM, as it is seen from outside. -/
def ramStep (m : Bytes) : Op → Option (Out × Bytes)
  | .read o l => (ramRead m o l).map fun r => (match r.1 with | some b => .bytes b | none => .refused, r.2)
  | .write o d => (ramWrite m o d).map fun r => (if r.1 then .done else .refused, r.2)
  | .erase o l => (ramErase m o l).map fun r => (if r.1 then .done else .refused, r.2)
  | .clear => (ramClear m).map fun m => (.done, m)

def ramRun (m : Bytes) : List Op → Option (List Out × Bytes)
  | [] => some ([], m)
  | op :: ops => (ramStep m op).bind fun r => (ramRun r.2 ops).map fun q => (r.1 :: q.1, q.2)

theorem ramStep_eq (m : Bytes) (op : Op) (h : (range op).1 + (range op).2 < 2 ^ 32) :
    ramStep m op = some (step m op) := by
  cases op with
  | read o l =>
    have h : o + l < 2 ^ 32 := h
    rw [ramStep, ramRead_eq h, step]
    split <;> rfl
  | write o d =>
    have h : o + d.length < 2 ^ 32 := h
    rw [ramStep, ramWrite_eq h, step]
    by_cases hc : o + d.length ≤ m.length <;> simp [hc]
  | erase o l =>
    have h : o + l < 2 ^ 32 := h
    rw [ramStep, ramErase_eq h, step]
    by_cases hc : o + l ≤ m.length <;> simp [hc]
  | clear =>
    rw [ramStep, ramClear, ramWrite_eq (by simp), step]
    simp only [List.length_singleton, Option.map_some]
    by_cases hc : m.length = 0
    · rw [if_pos hc, if_neg (by omega)]
    · rw [if_neg hc, if_pos (by omega)]

/-- **C66.** For every history of operations whose ranges end within the 32-bit address space: the
storage answers like a plain array. Operations that are not inside are refused and change nothing,
reads give the last bytes written, erased bytes are zero, and no access leaves the array. Missing:
ranges that wrap around, see `C66_false_range_wraps`. -/
theorem C66_ram_storage_partial (m : Bytes) (ops : List Op)
    (h : ∀ op ∈ ops, (range op).1 + (range op).2 < 2 ^ 32) : ramRun m ops = some (run m ops) := by
  induction ops generalizing m with
  | nil => rfl
  | cons op ops ih =>
    rw [ramRun, ramStep_eq m op (h op (List.mem_cons_self ..)), Option.bind_some,
      ih _ fun o ho => h o (List.mem_cons_of_mem _ ho), run]
    rfl

/-- A history with every kind of operation. -/
example : run [1, 2, 3, 4] [.read 1 2, .write 2 [7, 8], .write 3 [7, 8], .read 0 4, .erase 1 2, .clear,
      .read 0 4] =
    ([.bytes [2, 3], .done, .refused, .bytes [1, 2, 7, 8], .done, .done, .bytes [0, 0, 0, 8]],
      [0, 0, 0, 8]) := by decide +kernel

/-- What a read returns is what was written last there, if nothing else was written or erased since. -/
theorem C66_read_after_write (m d : Bytes) (o : Nat) (h : o + d.length < 2 ^ 32)
    (hf : o + d.length ≤ m.length) :
    ∃ m', ramWrite m o d = some (true, m') ∧ ramRead m' o d.length = some (some d, m') ∧
      ∀ o' l', o' + l' < 2 ^ 32 → (o' + l' ≤ o ∨ o + d.length ≤ o') →
        (ramRead m' o' l').map Prod.fst = (ramRead m o' l').map Prod.fst := by
  refine ⟨update m o d, ?_, ?_, ?_⟩
  · rw [ramWrite_eq h, decide_eq_true hf, if_pos hf]
  · rw [ramRead_eq h, update_length hf, if_pos hf]
    congr 3
    have : (m.take o).length = o := by rw [List.length_take]; omega
    rw [slice, update, List.append_assoc]
    conv => lhs; arg 2; arg 1; rw [← this]
    rw [List.drop_left, List.take_left]
  · intro o' l' h' hd
    rw [ramRead_eq h', ramRead_eq h', update_length hf]
    simp only [Option.map_some]
    congr 1
    split
    · congr 1
      have hto : (m.take o).length = o := by rw [List.length_take]; omega
      have htd : (m.take o ++ d).length = o + d.length := by rw [List.length_append, hto]
      unfold slice update
      rcases hd with hd | hd
      · rw [List.append_assoc, List.drop_append_of_le_length (by omega),
          List.take_append_of_le_length (by rw [List.length_drop]; omega), List.drop_take,
          List.take_take, Nat.min_eq_left (by omega)]
      · rw [List.drop_append, List.drop_eq_nil_of_le (by omega), List.nil_append, List.drop_drop, htd]
        congr 2
        omega
    · rfl

/-- C66 is false for ranges that wrap around: reading two bytes at the last address is taken to be
inside of a storage of any size, and reads outside of it. -/
theorem C66_false_range_wraps (m : Bytes) (h1 : 1 ≤ m.length) (h2 : m.length < 2 ^ 32) :
    ramRead m 4294967295 2 = none ∧ ramWrite m 4294967295 [0, 0] = none := by
  have e : withinBounds m.length 4294967295 2 = true := by
    unfold withinBounds add32
    simpa using h1
  constructor
  · rw [ramRead, e]
    simp only [Bool.not_true, Bool.false_eq_true, if_false]
    rw [memcpyOut, if_neg (by omega)]; rfl
  · have e' : withinBounds m.length 4294967295 ([0, 0] : Bytes).length = true := e
    rw [ramWrite, e']
    simp only [Bool.not_true, Bool.false_eq_true, if_false]
    rw [memcpyIn, if_neg (show ¬(4294967295 + ([0, 0] : Bytes).length ≤ m.length) by
      rw [show ([0, 0] : Bytes).length = 2 from rfl]; omega)]; rfl

/-- The storage in RAM works in the sense of the self test. -/
theorem ram_works (size : Nat) (h : size < 2 ^ 32) : Works (ram size) where
  saveBegin := fun m _ => rfl
  erase := by
    refine ⟨0x00, Or.inl rfl, fun m hm => ?_⟩
    show ramErase m 0 size = _
    have hm' : m.length = size := hm
    rw [ramErase_eq (by omega), hm', if_pos (by omega), decide_eq_true (by omega), update,
      List.take_zero, List.nil_append, List.length_replicate, Nat.zero_add,
      List.drop_eq_nil_of_le (by omega), List.append_nil]
    rfl
  write := fun m o d hm hd => by
    have hm' : m.length = size := hm
    have hd' : o + d.length ≤ size := hd
    show ramWrite m o d = _
    rw [ramWrite_eq (by omega), hm', if_pos hd', decide_eq_true hd']
  read := fun m o l hm hl => by
    have hm' : m.length = size := hm
    have hl' : o + l ≤ size := hl
    show ramRead m o l = _
    rw [ramRead_eq (by omega), hm', if_pos hl']
  clear := fun m hm hs => by
    have hm' : m.length = size := hm
    have hs' : 0 < size := hs
    refine ⟨update m 0 [0], ?_, ?_, ?_⟩
    · show ramClear m = _
      rw [ramClear, ramWrite_eq (by simp), List.length_singleton, hm', if_pos (by omega)]; rfl
    · show (update m 0 [0]).length = size
      rw [update_length (by rw [List.length_singleton]; omega), hm']
    · exact Or.inl rfl

/-- **C65/C66.** The storage in RAM passes the self test, for every size from 12 bytes on. -/
theorem C65_ram_storage_passes (size : Nat) (h1 : 12 ≤ size) (h2 : size ≤ 4294967280) (m : Bytes)
    (hm : m.length = size) :
    ∃ m1 m2, testBegin (ram size) m = some (.success, m1) ∧
      testFinish (ram size) .success m1 = some (true, .success, m2) := by
  obtain ⟨a, m2, b⟩ := C65_storage_test_complete (ram size) (ram_works size (by omega)) h1 h2 m hm
  exact ⟨_, m2, a, b⟩

/-- A storage whose byte 5 is stuck, otherwise in RAM. -/
def stuck : Platform Bytes :=
  { ram 24 with
    erase := fun m o l => (ramErase m o l).map fun r => (r.1, r.2.set 5 0)
    write := fun m o d => (ramWrite m o d).map fun r => (r.1, r.2.set 5 0) }

/-- It meets the assumptions of `C65_storage_test_sound` and is found out; without the defect the same
storage passes. -/
example : (testBegin stuck (List.replicate 24 9)).map Prod.fst = some (.compareFailed .write 0 12 (some pattern1)) ∧
    (testBegin (ram 24) (List.replicate 24 9)).map Prod.fst = some .success := by decide +kernel

/-- A storage on which nothing can be written. -/
def readOnly : Platform Bytes :=
  { ram 24 with erase := fun m _ _ => some (false, m), write := fun m _ _ => some (false, m)
                clear := fun m => some m }

/-- The result the second part looks at starts out as success: without the first part, a storage that
refuses every erase and write passes, although the whole test finds it out. -/
theorem C65_false_finish_alone :
    testFinish readOnly .success (List.replicate 24 0xff) =
      some (true, .success, List.replicate 24 0xff) ∧
    testBegin readOnly (List.replicate 24 0xff) =
      some (.platformApiFail .erase 0 24, List.replicate 24 0xff) := by decide +kernel

theorem stuck_readable : Readable stuck where
  read := (ram_works 24 (by decide)).read
  saveBegin := fun m b m' hm h => by
    have : some (true, m) = some (b, m') := h
    simp only [Option.some.injEq, Prod.mk.injEq] at this
    rw [← this.2]; exact hm
  erase := fun m o l b m' hm h => by
    have hh : ((ramErase m o l).map fun r => (r.1, r.2.set 5 0)) = some (b, m') := h
    rw [Option.map_eq_some_iff] at hh
    obtain ⟨⟨a, m2⟩, h1, h2⟩ := hh
    simp only [Prod.mk.injEq] at h2
    rw [← h2.2, List.length_set]
    unfold ramErase at h1
    split at h1
    · simp only [Option.some.injEq, Prod.mk.injEq] at h1; rw [← h1.2]; exact hm
    · unfold memcpyIn at h1
      split at h1
      · rename_i hc
        simp only [Option.map_some, Option.some.injEq, Prod.mk.injEq] at h1
        rw [← h1.2]
        exact (update_length hc).trans hm
      · cases h1
  write := fun m o d b m' hm h => by
    have hh : ((ramWrite m o d).map fun r => (r.1, r.2.set 5 0)) = some (b, m') := h
    rw [Option.map_eq_some_iff] at hh
    obtain ⟨⟨a, m2⟩, h1, h2⟩ := hh
    simp only [Prod.mk.injEq] at h2
    rw [← h2.2, List.length_set]
    unfold ramWrite at h1
    split at h1
    · simp only [Option.some.injEq, Prod.mk.injEq] at h1; rw [← h1.2]; exact hm
    · unfold memcpyIn at h1
      split at h1
      · rename_i hc
        simp only [Option.map_some, Option.some.injEq, Prod.mk.injEq] at h1
        rw [← h1.2]
        exact (update_length hc).trans hm
      · cases h1

end Mflt.Props
