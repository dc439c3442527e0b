import Verif.Lemmas.StorageReport

/-! # C111: what the test of a coredump storage reports -/

namespace Mflt.Props

open CoredumpStorage StorageReport Spec.StorageReport
open Spec.CoredumpStorage (slice testImage Readable)

/-- How the test ends: the parts of `memfault_coredump_storage_debug_test_begin`. -/
private theorem begin_cases {σ : Type} (p : Platform σ) {s s' : σ} {r : TestResult} (h : testBegin p s = some (r, s')) :
    (p.size = 0 ∧ s' = s ∧ r = .platformApiFail .getInfo 0 0) ∨
    (p.saveBegin s = some (false, s') ∧ r = .platformApiFail .prepare 0 p.size) ∨
    ∃ s1, p.saveBegin s = some (true, s1) ∧ ((p.erase s1 0 p.size = some (false, s') ∧ r = .platformApiFail .erase 0 p.size) ∨
      ∃ s2, p.erase s1 0 p.size = some (true, s2) ∧ ((r ≠ .success ∧ erasedLoop p (p.size + 1) s2 0 = some (r, s')) ∨
        ∃ s3, erasedLoop p (p.size + 1) s2 0 = some (.success, s3) ∧
          ((r ≠ .success ∧ writeLoop p (p.size + 1) s3 12 1 = some (r, s')) ∨
          ∃ s4, writeLoop p (p.size + 1) s3 12 1 = some (.success, s4) ∧
            ((p.write s4 0 pattern1 = some (false, s') ∧ r = .platformApiFail .write (max 12 p.size) 12) ∨
            ∃ s5, p.write s4 0 pattern1 = some (true, s5) ∧ checkLoop p (p.size + 1) s5 0 0 = some (r, s'))))) := by
  unfold testBegin at h
  split at h
  · rename_i h0
    cases h
    exact .inl ⟨h0, rfl, by rw [h0]⟩
  · refine .inr ?_
    split at h
    · cases h
    · rename_i heq; cases h; exact .inl ⟨heq, rfl⟩
    · rename_i s1 heq
      refine .inr ⟨s1, heq, ?_⟩
      split at h
      · cases h
      · rename_i heq; cases h; exact .inl ⟨heq, rfl⟩
      · rename_i s2 heq
        refine .inr ⟨s2, heq, ?_⟩
        split at h
        · rename_i s3 heq
          refine .inr ⟨s3, heq, ?_⟩
          split at h
          · rename_i s4 heq
            refine .inr ⟨s4, heq, ?_⟩
            split at h
            · cases h
            · rename_i heq; cases h; exact .inl ⟨heq, rfl⟩
            · rename_i s5 heq; exact .inr ⟨s5, heq, h⟩
          · rename_i hne
            refine .inl ⟨fun hr => ?_, h⟩
            subst hr
            exact hne _ h
        · rename_i hne
          refine .inl ⟨fun hr => ?_, h⟩
          subst hr
          exact hne _ h

/-- What is kept of the storage by the operations on it and on the buffer. -/
private theorem tapped {p : Platform Bytes} (hr : Readable p) :
    (∀ s b s', s.1.length = p.size → (tap p).saveBegin s = some (b, s') → s'.1.length = p.size) ∧
    (∀ s o l b s', s.1.length = p.size → (tap p).erase s o l = some (b, s') → s'.1.length = p.size) ∧
    (∀ s o d b s', s.1.length = p.size → (tap p).write s o d = some (b, s') → s'.1.length = p.size) := by
  refine ⟨?_, ?_, ?_⟩
  · intro s b s' h h1
    simp only [tap, Option.map_eq_some_iff, Prod.mk.injEq] at h1
    obtain ⟨⟨x, y⟩, h1, rfl, rfl⟩ := h1
    exact hr.saveBegin _ _ _ h h1
  · intro s o l b s' h h1
    simp only [tap, Option.map_eq_some_iff, Prod.mk.injEq] at h1
    obtain ⟨⟨x, y⟩, h1, rfl, rfl⟩ := h1
    exact hr.erase _ _ _ _ _ h h1
  · intro s o d b s' h h1
    simp only [tap, Option.map_eq_some_iff, Prod.mk.injEq] at h1
    obtain ⟨⟨x, y⟩, h1, rfl, rfl⟩ := h1
    exact hr.write _ _ _ _ _ h h1

private theorem writeLoop_len {p : Platform Bytes} (hr : Readable p) (fuel : Nat) (s : Bytes × Bytes) (o k : Nat)
    (hs : s.1.length = p.size) {r : TestResult} {s' : Bytes × Bytes} (h : writeLoop (tap p) fuel s o k = some (r, s')) :
    s'.1.length = p.size := by
  induction fuel generalizing s o k with
  | zero =>
    unfold writeLoop at h
    split at h
    · cases h
    · cases h; exact hs
  | succ fuel ih =>
    unfold writeLoop at h
    split at h
    · simp only at h
      split at h
      · cases h
      · rename_i heq; cases h; exact (tapped hr).2.2 _ _ _ _ _ hs heq
      · rename_i heq; exact ih _ _ _ ((tapped hr).2.2 _ _ _ _ _ hs heq) h
    · cases h; exact hs

/-- The storage is readable at each point of the test. -/
private theorem begin_readable {p : Platform Bytes} (hr : Readable p) (hmax : p.size ≤ 4294967280) {m b : Bytes}
    (hlen : m.length = p.size) {r : TestResult} {m' b' : Bytes} (h : testBegin (tap p) (m, b) = some (r, m', b')) :
    m'.length = p.size ∧
    ((∃ op o n, r = .platformApiFail op o n) ∨
    (r = .success) ∨
    (∃ o c, r = .compareFailed .erase o 1 none ∧ o < p.size ∧ m'[o]? = some c ∧ ¬ Erased c ∧
      (∀ c ∈ m'.take o, Erased c) ∧ b'.length = 16 ∧ b'.take 1 = slice m' (o / 16 * 16) 1) ∨
    (∃ o n, r = .compareFailed .write o n (some (slice (testImage p.size) o n)) ∧ o + n ≤ p.size ∧ 0 < n ∧ n ≤ 12 ∧
      m'.take o = (testImage p.size).take o ∧ slice m' o n ≠ slice (testImage p.size) o n ∧ b'.length = 16 ∧
      b'.take n = slice m' o n)) := by
  obtain ⟨t1, t2, t3⟩ := tapped hr
  have hsz : (tap p).size = p.size := rfl
  rcases begin_cases _ h with ⟨-, e, rfl⟩ | ⟨e, rfl⟩ | ⟨s1, g1, h⟩
  · cases e; exact ⟨hlen, .inl ⟨_, _, _, rfl⟩⟩
  · exact ⟨t1 _ _ _ hlen e, .inl ⟨_, _, _, rfl⟩⟩
  have l1 := t1 _ _ _ hlen g1
  rcases h with ⟨e, rfl⟩ | ⟨s2, g2, h⟩
  · exact ⟨t2 _ _ _ _ _ l1 e, .inl ⟨_, _, _, rfl⟩⟩
  have l2 := t2 _ _ _ _ _ l1 g2
  obtain ⟨m2, b2⟩ := s2
  have herase := fun (r' : TestResult) (x y : Bytes) (hh : erasedLoop (tap p) ((tap p).size + 1) (m2, b2) 0 = some (r', x, y)) =>
    erasedLoop_tap l2 hmax (fun o l ho => hr.read _ _ _ l2 ho) _ 0 b2 (by simp) hh
  rcases h with ⟨hne, h⟩ | ⟨⟨m3, b3⟩, g3, h⟩
  · obtain ⟨rfl, e⟩ := herase _ _ _ h
    rcases e with e | e
    · exact absurd e hne
    · exact ⟨l2, .inr (.inr (.inl e))⟩
  obtain ⟨rfl, -⟩ := herase _ _ _ g3
  rcases h with ⟨hne, h⟩ | ⟨s4, g4, h⟩
  · rcases writeLoop_result _ _ _ _ _ h with e | ⟨o, d, s1, rfl, -, -⟩
    · exact absurd e hne
    · exact ⟨writeLoop_len hr _ (m3, b3) _ _ l2 h, .inl ⟨_, _, _, rfl⟩⟩
  have l4 := writeLoop_len hr _ (m3, b3) _ _ l2 g4
  rcases h with ⟨hw, rfl⟩ | ⟨⟨m5, b5⟩, g5, h⟩
  · exact ⟨t3 _ _ _ _ _ l4 hw, .inl ⟨_, _, _, rfl⟩⟩
  have l5 := t3 _ _ _ _ _ l4 g5
  obtain ⟨rfl, e⟩ := checkLoop_tap l5 (fun o l ho => hr.read _ _ _ l5 ho) _ 0 0 b5 (Nat.zero_le _) (.inr (.inl ⟨rfl, rfl⟩)) h
  refine ⟨l5, ?_⟩
  rcases e with e | ⟨o, n, c1, c2, c3, c4, c5, c6, c7⟩
  · exact .inr (.inl e)
  · refine .inr (.inr (.inr ⟨o, n, c1, c3, c4, c5, ?_, c7⟩))
    simpa [slice] using c6

/-- **C111 (a byte not written).** The storage can be read faithfully, erasing and writing may do anything. If the patterns are
not read back, the report names the first piece of at most 12 bytes that differs from what was written, the bytes
expected there and those that are there in fact. -/
theorem C111_write (p : Platform Bytes) (hr : Readable p) (hmax : p.size ≤ 4294967280) (m b hex : Bytes) (hlen : m.length = p.size)
    (hx : hex.length = 33) {o n : Nat} {e : Option Bytes} {m' b' : Bytes}
    (h : testBegin (tap p) (m, b) = some (.compareFailed .write o n e, m', b')) :
    o + n ≤ p.size ∧ 0 < n ∧ n ≤ 12 ∧ m'.take o = (testImage p.size).take o ∧
    slice m' o n ≠ slice (testImage p.size) o n ∧
    ∃ head, Tells "Read pattern mismatch during" "write" o n head ∧
      test p hex m b = some (false, head ++
        [bytesLine "Expected" (slice (testImage p.size) o n), bytesLine "Actual  " (slice m' o n)]) := by
  obtain ⟨-, h1⟩ := begin_readable hr hmax hlen h
  rcases h1 with ⟨_, _, _, h1⟩ | h1 | ⟨_, _, h1, -⟩ | ⟨o', n', h1, c1, c2, c3, c4, c5, c6, c7⟩
  · cases h1
  · cases h1
  · cases h1
  · cases h1
    refine ⟨c1, c2, c3, c4, c5, _, head_tells (.compareFailed .write o n (some (slice (testImage p.size) o n))) rfl rfl rfl rfl
      (show n < 2147483648 by omega), ?_⟩
    have hl : (slice (testImage p.size) o n).length = n := slice_length (by rw [testImage_length]; exact c1)
    have h2 : hexdump hex "Expected" (slice (testImage p.size) o n) n = some (bytesLine "Expected" (slice (testImage p.size) o n)) := by
      rw [hexdump_eq hx (by omega) (by omega), List.take_of_length_le (by omega)]
    have h3 : hexdump hex "Actual  " b' n = some (bytesLine "Actual  " (slice m' o n)) := by
      rw [hexdump_eq hx (by omega) (by omega), c7]
    simp only [test, h, Option.bind_eq_bind, Option.bind_some, finish, testFinish, Bool.false_eq_true, if_false, failureLines, h2,
      Option.map_some, h3, Option.pure_def, List.append_assoc, List.cons_append, List.nil_append]

/-- **C111 (a byte not erased), partial.** The report names the first byte of the storage that is neither `0x00` nor
`0xff` after it was erased. What is missing: the value shown for it is that of the byte at the last multiple of 16 (see
`C111_false_actual`). -/
theorem C111_erase_partial (p : Platform Bytes) (hr : Readable p) (hmax : p.size ≤ 4294967280) (m b hex : Bytes)
    (hlen : m.length = p.size) (hx : hex.length = 33) {o n : Nat} {e : Option Bytes} {m' b' : Bytes}
    (h : testBegin (tap p) (m, b) = some (.compareFailed .erase o n e, m', b')) :
    n = 1 ∧ o < p.size ∧ (∃ c, m'[o]? = some c ∧ ¬ Erased c) ∧ (∀ i, i < o → ∃ c, m'[i]? = some c ∧ Erased c) ∧
    ∃ head, Tells "Read pattern mismatch during" "erase" o 1 head ∧
      test p hex m b = some (false, head ++
        [text "expected erase pattern is 0xff or 0x00", bytesLine "Actual  " (slice m' (o / 16 * 16) 1)]) := by
  obtain ⟨hl, h1⟩ := begin_readable hr hmax hlen h
  rcases h1 with ⟨_, _, _, h1⟩ | h1 | ⟨o', c, h1, c1, c2, c3, c4, c5, c6⟩ | ⟨_, _, h1, -⟩
  · cases h1
  · cases h1
  · cases h1
    refine ⟨rfl, c1, ⟨c, c2, c3⟩, ?_, _, head_tells (.compareFailed .erase o 1 none) rfl rfl rfl rfl
      (show 1 < 2147483648 by omega), ?_⟩
    · intro i hi
      refine ⟨m'[i]'(by omega), List.getElem?_eq_getElem _, c4 _ ?_⟩
      rw [List.mem_take_iff_getElem]
      exact ⟨i, by omega, rfl⟩
    · have h3 : hexdump hex "Actual  " b' 1 = some (bytesLine "Actual  " (slice m' (o / 16 * 16) 1)) := by
        rw [hexdump_eq hx (by omega) (by omega), c6]
      simp only [test, h, Option.bind_eq_bind, Option.bind_some, finish, testFinish, Bool.false_eq_true, if_false, failureLines, h3,
        Option.pure_def, List.append_assoc, List.cons_append, List.nil_append]
      rfl
  · cases h1

/-- **C111 (not cleared).** If all else worked, but clearing leaves a first byte that is not erased, the report says so and shows the byte. -/
theorem C111_clear (p : Platform Bytes) (hr : Readable p) (m b hex : Bytes) (hx : hex.length = 33) {m1 b1 m2 : Bytes}
    (h : testBegin (tap p) (m, b) = some (.success, m1, b1)) (hc : p.clear m1 = some m2) (hl : m2.length = p.size) {c : UInt8}
    (h0 : m2[0]? = some c) (hne : ¬ Erased c) :
    ∃ head, Tells "Read pattern mismatch during" "clear" 0 1 head ∧
      test p hex m b = some (false, head ++ [text "expected erase pattern is 0xff or 0x00", bytesLine "Actual  " [c]]) := by
  have hpos := (List.getElem?_eq_some_iff.mp h0).1
  have hs : slice m2 0 1 = [c] := by
    cases m2 with
    | nil => cases h0
    | cons x xs =>
      simp only [List.getElem?_cons_zero, Option.some.injEq] at h0
      rw [h0]; rfl
  have hread : (tap p).read (m2, b1) 0 1 = some (some [c], m2, readBuf [c] 1) := by
    rw [← hs]
    simp [tap, hr.read m2 0 1 hl (by omega)]
  have hclear : (tap p).clear (m1, b1) = some (m2, b1) := by simp [tap, hc]
  have hv : verifyErased c = false := by
    rw [← Bool.not_eq_true]
    simpa [verifyErased, Erased] using hne
  have hg : (readBuf [c] 1).getD 0 0 = c := rfl
  refine ⟨_, head_tells (.compareFailed .clear 0 1 none) rfl rfl rfl rfl (show 1 < 2147483648 by omega), ?_⟩
  have h3 : hexdump hex "Actual  " (readBuf [c] 1) 1 = some (bytesLine "Actual  " [c]) := by
    rw [hexdump_eq hx (by omega) (by rw [readBuf_length _ (by omega)]; omega)]
    rfl
  simp only [test, h, Option.bind_eq_bind, Option.bind_some, finish, testFinish, verifyClear, hclear, hread, hg, hv, Bool.not_false,
    if_true, Bool.false_eq_true, if_false, failureLines, h3, Option.pure_def, List.append_assoc, List.cons_append, List.nil_append]
  rfl

/-- **C111 (calls that fail), partial.** On any platform: if a call fails, the report names the function, and that very call,
with the offset and the size of the report, has failed. What is missing: for the write of the first 12 bytes the offset is
wrong (see `C111_false_offset`). -/
theorem C111_calls_partial {σ : Type} (p : Platform σ) (hsize : p.size < 2147483648) (s : σ) (b hex : Bytes) {r : TestResult} {s' : σ}
    {b' : Bytes} (h : testBegin (tap p) (s, b) = some (r, s', b')) :
    (∀ op o n, r = .platformApiFail op o n → ∃ head, test p hex s b = some (false, head) ∧
      (Tells "Api call failed during" "get info" o n head ∧ p.size = 0 ∨
      Tells "Api call failed during" "prepare" o n head ∧ p.saveBegin s = some (false, s') ∨
      Tells "Api call failed during" "erase" o n head ∧ (∃ s1, p.erase s1 o n = some (false, s')) ∨
      Tells "Api call failed during" "write" o n head ∧
        ((∃ s1 d, d.length = n ∧ p.write s1 o d = some (false, s')) ∨
          n = 12 ∧ o = max 12 p.size ∧ ∃ s1 d, d.length = 12 ∧ p.write s1 0 d = some (false, s')))) ∧
    (∀ op o n, r = .readFailed op o n → ∃ head, test p hex s b = some (false, head) ∧
      (Tells "Call to memfault_platform_coredump_storage_read() failed during" "erase" o n head ∨
        Tells "Call to memfault_platform_coredump_storage_read() failed during" "write" o n head) ∧
      ∃ s1, p.read s1 o n = some (none, s')) := by
  have hsz : (tap p).size = p.size := rfl
  have w : ∀ s o d x, (tap p).write s o d = some (false, s', x) → p.write s.1 o d = some (false, s') := by
    intro s o d x h1
    simp only [tap, Option.map_eq_some_iff, Prod.mk.injEq] at h1
    obtain ⟨⟨a, c⟩, h1, rfl, rfl, -⟩ := h1
    exact h1
  have rd : ∀ s o l x, (tap p).read s o l = some (none, s', x) → p.read s.1 o l = some (none, s') := by
    intro s o l x h1
    simp only [tap, Option.map_eq_some_iff, Prod.mk.injEq] at h1
    obtain ⟨⟨a, c⟩, h1, h2, rfl, -⟩ := h1
    simp only at h2
    subst h2
    exact h1
  have rep : (∀ op o n, r = .platformApiFail op o n → ∃ head, test p hex s b = some (false, head) ∧
      (n < 2147483648 → Tells "Api call failed during" (opSuffix op) o n head)) ∧
      (∀ op o n, r = .readFailed op o n → ∃ head, test p hex s b = some (false, head) ∧
      (n < 2147483648 → Tells "Call to memfault_platform_coredump_storage_read() failed during" (opSuffix op) o n head)) := by
    constructor <;> rintro op o n rfl
    · refine ⟨_, ?_, fun hn => head_tells (.platformApiFail op o n) rfl rfl rfl rfl hn⟩
      simp only [test, h, Option.bind_eq_bind, Option.bind_some, finish, testFinish, Bool.false_eq_true, if_false, failureLines,
        Option.pure_def]
    · refine ⟨_, ?_, fun hn => head_tells (.readFailed op o n) rfl rfl rfl rfl hn⟩
      simp only [test, h, Option.bind_eq_bind, Option.bind_some, finish, testFinish, Bool.false_eq_true, if_false, failureLines,
        Option.pure_def]
  rcases begin_cases _ h with ⟨e0, e, rfl⟩ | ⟨e, rfl⟩ | ⟨s1, g1, h⟩
  · refine ⟨fun op o n hr => ?_, fun op o n hr => (by cases hr)⟩
    obtain ⟨head, a1, a2⟩ := rep.1 _ _ _ hr
    cases hr
    exact ⟨head, a1, .inl ⟨a2 (by omega), e0⟩⟩
  · refine ⟨fun op o n hr => ?_, fun op o n hr => (by cases hr)⟩
    obtain ⟨head, a1, a2⟩ := rep.1 _ _ _ hr
    cases hr
    simp only [tap, Option.map_eq_some_iff, Prod.mk.injEq] at e
    obtain ⟨⟨x, c⟩, e, rfl, rfl, -⟩ := e
    exact ⟨head, a1, .inr (.inl ⟨a2 (by omega), e⟩)⟩
  rcases h with ⟨e, rfl⟩ | ⟨s2, g2, h⟩
  · refine ⟨fun op o n hr => ?_, fun op o n hr => (by cases hr)⟩
    obtain ⟨head, a1, a2⟩ := rep.1 _ _ _ hr
    cases hr
    simp only [tap, Option.map_eq_some_iff, Prod.mk.injEq] at e
    obtain ⟨⟨x, c⟩, e, rfl, rfl, -⟩ := e
    exact ⟨head, a1, .inr (.inr (.inl ⟨a2 (by omega), _, e⟩))⟩
  rcases h with ⟨hne, h⟩ | ⟨s3, g3, h⟩
  · rcases erasedLoop_result _ _ _ _ h with e | ⟨o, n, s1, rfl, h16, e⟩ | ⟨o, rfl⟩
    · exact absurd e hne
    · refine ⟨fun op o n hr => (by cases hr), fun op o' n' hr => ?_⟩
      obtain ⟨head, a1, a2⟩ := rep.2 _ _ _ hr
      cases hr
      exact ⟨head, a1, .inl (a2 (by omega)), _, rd _ _ _ _ e⟩
    · exact ⟨fun op o n hr => (by cases hr), fun op o n hr => (by cases hr)⟩
  rcases h with ⟨hne, h⟩ | ⟨s4, g4, h⟩
  · rcases writeLoop_result _ _ _ _ _ h with e | ⟨o, d, s1, rfl, hd, e⟩
    · exact absurd e hne
    · refine ⟨fun op o' n' hr => ?_, fun op o n hr => (by cases hr)⟩
      obtain ⟨head, a1, a2⟩ := rep.1 _ _ _ hr
      cases hr
      exact ⟨head, a1, .inr (.inr (.inr ⟨a2 (by omega), .inl ⟨_, _, rfl, w _ _ _ _ e⟩⟩))⟩
  rcases h with ⟨hw, rfl⟩ | ⟨s5, g5, h⟩
  · refine ⟨fun op o n hr => ?_, fun op o n hr => (by cases hr)⟩
    obtain ⟨head, a1, a2⟩ := rep.1 _ _ _ hr
    cases hr
    exact ⟨head, a1, .inr (.inr (.inr ⟨a2 (by omega), .inr ⟨rfl, rfl, _, pattern1, rfl, w _ _ _ _ hw⟩⟩))⟩
  · rcases checkLoop_result _ _ _ _ _ h with rfl | ⟨o, n, s1, rfl, h12, e⟩ | ⟨o, e, rfl, -⟩
    · exact ⟨fun op o n hr => (by cases hr), fun op o n hr => (by cases hr)⟩
    · refine ⟨fun op o n hr => (by cases hr), fun op o' n' hr => ?_⟩
      obtain ⟨head, a1, a2⟩ := rep.2 _ _ _ hr
      cases hr
      exact ⟨head, a1, .inr (a2 (by omega)), _, rd _ _ _ _ e⟩
    · exact ⟨fun op o n hr => (by cases hr), fun op o n hr => (by cases hr)⟩

/-- **C111 (verdict).** On a platform whose functions are defined within the storage and for its first 12 bytes, both parts of the test
are without undefined behaviour (the hexadecimal text fits into its buffer), and what is logged agrees with what is
returned. -/
theorem C111_verdict {σ : Type} (p : Platform σ) (hmax : p.size ≤ 4294967280) (hpos : 0 < p.size)
    (h1 : ∀ s, p.saveBegin s ≠ none) (h2 : ∀ s, p.erase s 0 p.size ≠ none)
    (h3 : ∀ s o d, o + d.length ≤ p.size ∨ o = 0 ∧ d.length = 12 → p.write s o d ≠ none)
    (h4 : ∀ s o l, o + l ≤ p.size → p.read s o l ≠ none) (h5 : ∀ s, p.clear s ≠ none)
    (s : σ) (b hex : Bytes) (hb : b.length = 16) (hx : hex.length = 33) :
    ∃ ok lines, test p hex s b = some (ok, lines) ∧ (ok = true → lines = passed) ∧
      (ok = false → lines.head? = some (text "Coredump Storage Verification Failed")) := by
  have ex : ∀ {α β : Type} {x : Option (α × β)}, x ≠ none → ∃ a c, x = some (a, c) ∧ True := by
    intro α β x h
    cases x with
    | none => exact absurd rfl h
    | some v => exact ⟨v.1, v.2, rfl, trivial⟩
  have hk : Keeps p fun _ => True := ⟨fun s _ => ex (h1 s), fun s _ => ex (h2 s), fun s o d _ h => ex (h3 s o d h),
    fun s o l _ _ h => ex (h4 s o l h), fun s _ => by
      cases hc : p.clear s with
      | none => exact absurd hc (h5 s)
      | some v => exact ⟨v, rfl, trivial⟩⟩
  have hk' := tap_keeps hk
  obtain ⟨r, ⟨s1, b1⟩, e1, -, e2⟩ := testBegin_keeps hk' hmax (s, b) ⟨trivial, hb⟩
  have hsmall := fun op o n e (hr : r = .compareFailed op o n e) => testBegin_small (tap p) (by rw [← hr]; exact e1)
  have hfail : ∀ r' (s' : σ) (b' : Bytes), b'.length = 16 →
      (∀ op o n e, r' = .compareFailed op o n e → n ≤ 12 ∧ ∀ x, e = some x → x.length = n) →
      testFinish (tap p) r (s1, b1) = some (false, r', s', b') →
      ∃ ok lines, test p hex s b = some (ok, lines) ∧ (ok = true → lines = passed) ∧
        (ok = false → lines.head? = some (text "Coredump Storage Verification Failed")) := by
    intro r' s' b' hb' hr' ht
    obtain ⟨lines, hl⟩ := failureLines_some hx hb' hr'
    refine ⟨false, text "Coredump Storage Verification Failed" :: lines, ?_, by simp, fun _ => rfl⟩
    simp only [test, e1, Option.bind_eq_bind, Option.bind_some, finish, ht, Bool.false_eq_true, if_false, hl, Option.pure_def]
    rfl
  cases r with
  | success =>
    obtain ⟨s2, c1, -, c2⟩ := hk'.clear (s1, b1) ⟨trivial, e2⟩
    obtain ⟨d, s3, c3, -, c4⟩ := hk'.read s2 0 1 ⟨trivial, c2⟩ (by omega) (show 0 + 1 ≤ p.size by omega)
    cases hv : verifyClear (tap p) (s1, b1) with
    | none =>
      simp only [verifyClear, c1, c3] at hv
      split at hv
      · simp at *
      · cases hv
      · split at hv <;> cases hv
    | some v =>
      obtain ⟨r', s', b'⟩ := v
      have hv' := hv
      simp only [verifyClear, c1, c3] at hv'
      cases d with
      | none =>
        cases hv'
        exact hfail (.readFailed .clear 0 1) s' b' c4 (fun _ _ _ _ h => by cases h) (by simp only [testFinish, hv])
      | some d =>
        simp only at hv'
        split at hv'
        · cases hv'
          exact hfail (.compareFailed .clear 0 1 none) s' b' c4 (fun op o n e h => by cases h; exact ⟨by omega, by simp⟩)
            (by simp only [testFinish, hv])
        · cases hv'
          refine ⟨true, passed, ?_, fun _ => rfl, by simp⟩
          simp only [test, e1, Option.bind_eq_bind, Option.bind_some, finish, testFinish, hv, if_true, Option.pure_def]
          rfl
  | platformApiFail op o n => exact hfail _ s1 b1 e2 (by simp) rfl
  | readFailed op o n => exact hfail _ s1 b1 e2 (by simp) rfl
  | compareFailed op o n e => exact hfail _ s1 b1 e2 hsmall rfl

/-- A storage of 20 bytes in RAM in which byte 5 is stuck at `v`. -/
private def stuckAt (v : UInt8) : Platform Bytes :=
  let fix := fun m : Bytes => m.set 5 v
  ⟨20, fun m => some (true, m), fun m o l => (ramErase m o l).map fun r => (r.1, fix r.2),
    fun m o d => (ramWrite m o d).map fun r => (r.1, fix r.2), ramRead, ramClear⟩

/-- C111 is false of the value shown for a byte that is not erased: here byte 5 is `0x42`, but the report says that it should be
`0xff` or `0x00` and is `0x00`. -/
theorem C111_false_actual : ∃ lines, test (stuckAt 0x42) (List.replicate 33 0) (List.replicate 20 1) (List.replicate 16 0) =
    some (false, lines ++ [text "Storage offset: 0x00000005, erase size: 1",
      text "expected erase pattern is 0xff or 0x00", text "Actual  : 00"]) :=
  ⟨[text "Coredump Storage Verification Failed",
    text "Read pattern mismatch during memfault_platform_coredump_storage_erase() test"], by decide +kernel⟩

/-- With byte 5 stuck at `0xff` the report is right: the last write to it is not seen. -/
example : test (stuckAt 0xff) (List.replicate 33 0) (List.replicate 20 1) (List.replicate 16 0) =
    some (false, [text "Coredump Storage Verification Failed",
      text "Read pattern mismatch during memfault_platform_coredump_storage_write() test",
      text "Storage offset: 0x00000000, write size: 12", text "Expected: a0a1a2a3a4a5a6a7a8a9aaab",
      text "Actual  : a0a1a2a3a4ffa6a7a8a9aaab"]) := by decide +kernel

/-- C111 is false of the offset of the header: on a storage of 20 bytes whose first sector cannot be written, the write that fails is at
offset 0, but the report says offset 20, which is not in the storage. -/
theorem C111_false_offset : ∃ lines, test (σ := Bytes)
      ⟨20, fun m => some (true, m), ramErase, fun m o d => if o < 12 then some (false, m) else ramWrite m o d, ramRead, ramClear⟩
      (List.replicate 33 0) (List.replicate 20 1) (List.replicate 16 0) =
    some (false, lines ++ [text "Storage offset: 0x00000014, write size: 12"]) :=
  ⟨[text "Coredump Storage Verification Failed",
    text "Api call failed during memfault_platform_coredump_storage_write() test"], by decide +kernel⟩

/-- A storage that cannot be cleared. -/
example : test (σ := Bytes) ⟨20, fun m => some (true, m), ramErase, ramWrite, ramRead, some⟩ (List.replicate 33 0) (List.replicate 20 1)
      (List.replicate 16 0) =
    some (false, [text "Coredump Storage Verification Failed",
      text "Read pattern mismatch during memfault_platform_coredump_storage_clear() test",
      text "Storage offset: 0x00000000, clear size: 1", text "expected erase pattern is 0xff or 0x00", text "Actual  : a0"]) := by
  decide +kernel

/-- A storage that works. -/
example : test (ram 45) (List.replicate 33 0) (List.replicate 45 1) (List.replicate 16 0) = some (true, passed) := by decide +kernel

end Mflt.Props
