import Verif.Model.StorageReport
import Verif.Spec.StorageReport
import Verif.Lemmas.HttpRequest
import Verif.Props.CoredumpStorage

/-! # Lemmas on the report of the storage test -/

namespace Mflt.StorageReport

open CoredumpStorage
open HttpRequest (ascii formatInt)
open NetMetrics (hex2 hexDigit)
open Spec.StorageReport Spec.CoredumpStorage
open Spec.BuildId (hex digit)
open Props

/-! ## Text -/

theorem hexDigit_eq {n : Nat} (h : n < 16) : hexDigit n = digit n ∧ hexDigit n ≠ 0 := by
  have : ∀ m : Fin 16, hexDigit m.val = digit m.val ∧ hexDigit m.val ≠ 0 := by decide
  exact this ⟨n, h⟩

theorem hex2_eq (b : UInt8) : hex2 b = [digit (b.toNat / 16), digit (b.toNat % 16)] := by
  have := b.toNat_lt
  rw [hex2, (hexDigit_eq (by omega)).1, (hexDigit_eq (by omega)).1]

theorem hex_ne {bs : Bytes} {c : UInt8} (h : c ∈ hex bs) : c ≠ 0 := by
  unfold hex at h
  rw [List.mem_flatMap] at h
  obtain ⟨b, -, h⟩ := h
  have := b.toNat_lt
  rw [← hex2_eq, hex2] at h
  simp only [List.mem_cons, List.not_mem_nil, or_false] at h
  rcases h with rfl | rfl
  · exact (hexDigit_eq (by omega)).2
  · exact (hexDigit_eq (by omega)).2

theorem hex_length (bs : Bytes) : (hex bs).length = 2 * bs.length := by
  unfold hex
  induction bs with
  | nil => rfl
  | cons b bs ih => rw [List.flatMap_cons, List.length_append, ih]; simp; omega

theorem hexLoop_eq (bs : Bytes) : ∀ (buf : Bytes) (j : Nat), buf.length = 33 → 2 * j + 2 * bs.length + 1 ≤ 33 →
    ∃ buf', hexLoop buf j bs = some buf' ∧ buf'.length = 33 ∧
      buf'.take (2 * j + 2 * bs.length) = buf.take (2 * j) ++ hex bs := by
  induction bs with
  | nil => intro buf j h _; exact ⟨buf, rfl, h, by simp [hex]⟩
  | cons b bs ih =>
    intro buf j h hj
    rw [List.length_cons] at hj
    have hl : (hex2 b ++ [0]).length = 3 := rfl
    have hm : memcpyIn buf (j * 2) (hex2 b ++ [0]) = some (buf.take (j * 2) ++ (hex2 b ++ [0]) ++ buf.drop (j * 2 + 3)) := by
      rw [memcpyIn, hl, if_pos (by omega)]
    obtain ⟨buf', e1, e2, e3⟩ := ih (buf.take (j * 2) ++ (hex2 b ++ [0]) ++ buf.drop (j * 2 + 3)) (j + 1) (by
      simp only [List.length_append, List.length_take, List.length_drop, hl]; omega) (by omega)
    refine ⟨buf', by rw [hexLoop, hm]; exact e1, e2, ?_⟩
    rw [List.length_cons, show 2 * j + 2 * (bs.length + 1) = 2 * (j + 1) + 2 * bs.length by omega, e3]
    have ht : (buf.take (j * 2) ++ (hex2 b ++ [0]) ++ buf.drop (j * 2 + 3)).take (2 * (j + 1)) = buf.take (2 * j) ++ hex2 b := by
      rw [← List.append_assoc, List.append_assoc (buf.take (j * 2) ++ hex2 b)]
      have : (buf.take (j * 2) ++ hex2 b).length = 2 * (j + 1) := by
        rw [List.length_append, List.length_take, show (hex2 b).length = 2 from rfl]; omega
      rw [← this, List.take_left, Nat.mul_comm]
    rw [ht, hex2_eq, hex, hex, List.flatMap_cons, List.append_assoc]

theorem takeWhile_ne {l : Bytes} (h : ∀ c ∈ l, c ≠ 0) (rest : Bytes) : (l ++ 0 :: rest).takeWhile (· ≠ 0) = l := by
  rw [List.takeWhile_append_of_pos (fun c hc => by simpa using h c hc), List.takeWhile_cons_of_neg (by simp), List.append_nil]

theorem hexdump_eq {h buf : Bytes} (hh : h.length = 33) {len : Nat} (h16 : len ≤ 16) (hb : len ≤ buf.length) (pre : String) :
    hexdump h pre buf len = some (bytesLine pre (buf.take len)) := by
  have hlen : (buf.take len).length = len := by rw [List.length_take]; omega
  obtain ⟨h', e1, e2, e3⟩ := hexLoop_eq (buf.take len) h 0 hh (by omega)
  rw [hlen] at e3
  simp only [Nat.mul_zero, Nat.zero_add, List.take_zero, List.nil_append] at e3
  simp only [hexdump, memcpyOut, Nat.zero_add, if_pos hb, List.drop_zero, Option.bind_eq_bind, Option.bind_some, e1, memcpyIn,
    List.length_singleton, if_pos (show len * 2 + 1 ≤ h'.length by omega)]
  rw [Nat.mul_comm len 2, e3, List.append_assoc (hex _), List.singleton_append, takeWhile_ne (fun c hc => hex_ne hc)]
  rfl

theorem hex8_eq (n : Nat) : hex8 n = hex (word n) := by
  simp only [hex8, hex, word, List.flatMap_cons, List.flatMap_nil, List.append_nil, hex2_eq]

theorem head_tells (r : TestResult) {why op : String} {o n : Nat} (hr : reasonStr r = why) (hop : opSuffix (fields r).1 = op)
    (ho : (fields r).2.1 = o) (hs : (fields r).2.2 = n) (hn : n < 2147483648) :
    Tells why op o n [ascii "Coredump Storage Verification Failed",
      ascii (reasonStr r) ++ ascii " memfault_platform_coredump_storage_" ++ ascii (opSuffix (fields r).1) ++ ascii "() test",
      ascii "Storage offset: 0x" ++ hex8 (fields r).2.1 ++ ascii ", " ++ ascii (opSuffix (fields r).1) ++ ascii " size: " ++
        formatInt (Http.wrap (fields r).2.2)] := by
  obtain ⟨d1, d2, d3, -⟩ := HttpRequest.formatInt_nat hn
  rw [hr, hop, ho, hs, hex8_eq]
  exact ⟨_, d1, d2, d3, rfl⟩

/-! ## Reading with a buffer -/

theorem readBuf_length (d : Bytes) {l : Nat} (h : l ≤ 16) : (readBuf d l).length = 16 := by
  simp only [readBuf, List.length_append, List.length_drop, List.length_replicate, List.length_take]; omega

variable {p : Platform Bytes} {m : Bytes}

theorem tap_read (hread : ∀ offset len, offset + len ≤ p.size → p.read m offset len = some (some (slice m offset len), m))
    (b : Bytes) {o l : Nat} (h : o + l ≤ p.size) :
    (tap p).read (m, b) o l = some (some (slice m o l), m, readBuf (slice m o l) l) := by
  simp [tap, hread o l h]

/-- Where the comparison of the patterns stops. -/
theorem checkLoop_tap (hlen : m.length = p.size)
    (hread : ∀ offset len, offset + len ≤ p.size → p.read m offset len = some (some (slice m offset len), m))
    (fuel offset k : Nat) (b : Bytes) (ho : offset ≤ p.size) (hp : Phase p.size offset k) {r : TestResult} {m' b' : Bytes}
    (h : checkLoop (tap p) fuel (m, b) offset k = some (r, m', b')) :
    m' = m ∧ (r = .success ∨ ∃ o n, r = .compareFailed .write o n (some (slice (testImage p.size) o n)) ∧ offset ≤ o ∧
      o + n ≤ p.size ∧ 0 < n ∧ n ≤ 12 ∧ slice m offset (o - offset) = slice (testImage p.size) offset (o - offset) ∧
      slice m o n ≠ slice (testImage p.size) o n ∧ b'.length = 16 ∧ b'.take n = slice m o n) := by
  induction fuel generalizing offset k b with
  | zero =>
    unfold checkLoop at h
    split at h
    · cases h
    · cases h; exact ⟨rfl, .inl rfl⟩
  | succ fuel ih =>
    unfold checkLoop at h
    by_cases hc : offset < (tap p).size
    · rw [if_pos hc] at h
      obtain ⟨l, h1, h2, h3, h4, h5, h6⟩ := patternAt_spec (show offset < p.size from hc) hp
      have hsz : (tap p).size = p.size := rfl
      simp only [hsz, h4, tap_read hread b h2] at h
      rw [readBuf_take (slice_length (by omega)), h5] at h
      by_cases he : slice m offset l = slice (testImage p.size) offset l
      · rw [if_neg (by simp [he])] at h
        obtain ⟨a1, a2⟩ := ih (offset + l) (k + 1) _ h2 h6 h
        refine ⟨a1, ?_⟩
        rcases a2 with a2 | ⟨o, n, c1, c2, c3, c4, c5, c6, c7⟩
        · exact .inl a2
        · refine .inr ⟨o, n, c1, by omega, c3, c4, c5, ?_, c7⟩
          have hsplit : ∀ x : Bytes, slice x offset (o - offset) = slice x offset l ++ slice x (offset + l) (o - (offset + l)) := by
            intro x
            unfold slice
            rw [show o - offset = l + (o - (offset + l)) by omega, List.take_add, List.drop_drop]
          rw [hsplit m, hsplit (testImage p.size), he, c6]
      · rw [if_pos he] at h
        cases h
        refine ⟨rfl, .inr ⟨offset, l, rfl, by omega, h2, h1, h3, by simp [slice], he, ?_, ?_⟩⟩
        · exact readBuf_length _ (by omega)
        · exact readBuf_take (slice_length (by omega))
    · rw [if_neg hc] at h
      cases h
      exact ⟨rfl, .inl rfl⟩

theorem findNotErased_some (bs : Bytes) : ∀ j, findNotErased bs = some j →
    ∃ b, bs[j]? = some b ∧ ¬ Erased b ∧ ∀ c ∈ bs.take j, Erased c := by
  induction bs with
  | nil => intro j h; cases h
  | cons b bs ih =>
    intro j h
    rw [findNotErased] at h
    have hv : verifyErased b = true ↔ Erased b := by simp [verifyErased, Erased]
    by_cases hb : verifyErased b = true
    · rw [hb] at h
      simp only [Bool.not_true, Bool.false_eq_true, if_false, Option.map_eq_some_iff] at h
      obtain ⟨i, h1, rfl⟩ := h
      obtain ⟨c, c1, c2, c3⟩ := ih i h1
      refine ⟨c, by simpa using c1, c2, ?_⟩
      rw [List.take_succ_cons]
      intro x hx
      rcases List.mem_cons.mp hx with rfl | hx
      · exact hv.mp hb
      · exact c3 x hx
    · rw [Bool.not_eq_true] at hb
      rw [hb] at h
      simp only [Bool.not_false, if_true, Option.some.injEq] at h
      subst h
      exact ⟨b, rfl, fun he => (by rw [hv.mpr he] at hb; cases hb), by simp⟩

/-- Where the check of the erased storage stops. -/
theorem erasedLoop_tap (hlen : m.length = p.size) (hmax : p.size ≤ 4294967280)
    (hread : ∀ offset len, offset + len ≤ p.size → p.read m offset len = some (some (slice m offset len), m))
    (fuel q : Nat) (b : Bytes) {r : TestResult} {m' b' : Bytes}
    (hpre : ∀ c ∈ m.take (16 * q), Erased c)
    (h : erasedLoop (tap p) fuel (m, b) (16 * q) = some (r, m', b')) :
    m' = m ∧ (r = .success ∨ ∃ o c, r = .compareFailed .erase o 1 none ∧ o < p.size ∧ m[o]? = some c ∧ ¬ Erased c ∧
      (∀ c ∈ m.take o, Erased c) ∧ b'.length = 16 ∧ b'.take 1 = slice m (o / 16 * 16) 1) := by
  induction fuel generalizing q b with
  | zero =>
    unfold erasedLoop at h
    split at h
    · cases h
    · cases h; exact ⟨rfl, .inl rfl⟩
  | succ fuel ih =>
    unfold erasedLoop at h
    by_cases hc : 16 * q < (tap p).size
    · rw [if_pos hc] at h
      have hsz : (tap p).size = p.size := rfl
      rw [hsz] at hc
      obtain ⟨l, hl⟩ : ∃ l, l = min 16 (p.size - 16 * q) := ⟨_, rfl⟩
      have hl2 : l = 16 ∨ l = p.size - 16 * q := by omega
      simp only [hsz, ← hl, tap_read hread b (show 16 * q + l ≤ p.size by omega)] at h
      rw [readBuf_take (slice_length (by omega)), add32_eq (by omega)] at h
      cases hfn : findNotErased (slice m (16 * q) l) with
      | none =>
        rw [hfn] at h
        have hs := (findNotErased_none _).mp hfn
        refine ih (q + 1) _ ?_ (by rw [show 16 * (q + 1) = 16 * q + 16 by omega]; exact h)
        intro c hc2
        rw [show 16 * (q + 1) = 16 * q + 16 by omega, List.take_add] at hc2
        rcases List.mem_append.mp hc2 with hc2 | hc2
        · exact hpre c hc2
        · refine hs c ?_
          unfold slice
          rcases hl2 with hl2 | hl2
          · rw [hl2]; exact hc2
          · rw [List.take_of_length_le (by rw [List.length_drop]; omega)]
            exact List.mem_of_mem_take hc2
      | some j =>
        rw [hfn] at h
        cases h
        obtain ⟨c, c1, c2, c3⟩ := findNotErased_some _ _ hfn
        have hj : j < l := by
          have := (List.getElem?_eq_some_iff.mp c1).1
          rw [slice_length (by omega)] at this
          exact this
        refine ⟨rfl, .inr ⟨j + 16 * q, c, rfl, by omega, ?_, c2, ?_, readBuf_length _ (by omega), ?_⟩⟩
        · unfold slice at c1
          rw [List.getElem?_take, if_pos hj, List.getElem?_drop] at c1
          rw [Nat.add_comm]; exact c1
        · intro x hx
          rw [Nat.add_comm, List.take_add] at hx
          rcases List.mem_append.mp hx with hx | hx
          · exact hpre x hx
          · refine c3 x ?_
            unfold slice
            rw [List.take_take, Nat.min_eq_left (by omega)]
            exact hx
        · have h16 : (j + 16 * q) / 16 * 16 = 16 * q := by omega
          rw [h16]
          have h1 : (readBuf (slice m (16 * q) l) l).take l = slice m (16 * q) l := readBuf_take (slice_length (by omega))
          have h2 : (readBuf (slice m (16 * q) l) l).take 1 = ((readBuf (slice m (16 * q) l) l).take l).take 1 := by
            rw [List.take_take, Nat.min_eq_left (by omega)]
          rw [h2, h1]
          unfold slice
          rw [List.take_take, Nat.min_eq_left (by omega)]
    · rw [if_neg hc] at h
      cases h
      exact ⟨rfl, .inl rfl⟩

/-! ## Any platform -/

theorem erasedLoop_result {σ : Type} (p : Platform σ) (fuel : Nat) (s : σ) (i : Nat) {r : TestResult} {s' : σ}
    (h : erasedLoop p fuel s i = some (r, s')) :
    r = .success ∨ (∃ o n s1, r = .readFailed .erase o n ∧ n ≤ 16 ∧ p.read s1 o n = some (none, s')) ∨
      ∃ o, r = .compareFailed .erase o 1 none := by
  induction fuel generalizing s i with
  | zero =>
    unfold erasedLoop at h
    split at h
    · cases h
    · cases h; exact .inl rfl
  | succ fuel ih =>
    unfold erasedLoop at h
    split at h
    · simp only at h
      split at h
      · cases h
      · rename_i heq; cases h; exact .inr (.inl ⟨_, _, _, rfl, by omega, heq⟩)
      · split at h
        · cases h; exact .inr (.inr ⟨_, rfl⟩)
        · exact ih _ _ h
    · cases h; exact .inl rfl

theorem patternAt_le (size o k : Nat) : (patternAt size o k).length ≤ 12 := by
  unfold patternAt
  rw [List.length_take]
  split <;> simp [pattern1, pattern2] <;> omega

theorem writeLoop_result {σ : Type} (p : Platform σ) (fuel : Nat) (s : σ) (o k : Nat) {r : TestResult} {s' : σ}
    (h : writeLoop p fuel s o k = some (r, s')) :
    r = .success ∨ ∃ o d s1, r = .platformApiFail .write o d.length ∧ d.length ≤ 12 ∧ p.write s1 o d = some (false, s') := by
  induction fuel generalizing s o k with
  | zero =>
    unfold writeLoop at h
    split at h
    · cases h
    · cases h; exact .inl rfl
  | succ fuel ih =>
    unfold writeLoop at h
    split at h
    · simp only at h
      split at h
      · cases h
      · rename_i heq; cases h; exact .inr ⟨_, _, _, rfl, patternAt_le _ _ _, heq⟩
      · exact ih _ _ _ h
    · cases h; exact .inl rfl

theorem checkLoop_result {σ : Type} (p : Platform σ) (fuel : Nat) (s : σ) (o k : Nat) {r : TestResult} {s' : σ}
    (h : checkLoop p fuel s o k = some (r, s')) :
    r = .success ∨ (∃ o n s1, r = .readFailed .write o n ∧ n ≤ 12 ∧ p.read s1 o n = some (none, s')) ∨
      ∃ o e, r = .compareFailed .write o e.length (some e) ∧ e.length ≤ 12 := by
  induction fuel generalizing s o k with
  | zero =>
    unfold checkLoop at h
    split at h
    · cases h
    · cases h; exact .inl rfl
  | succ fuel ih =>
    unfold checkLoop at h
    split at h
    · simp only at h
      split at h
      · cases h
      · rename_i heq; cases h; exact .inr (.inl ⟨_, _, _, rfl, patternAt_le _ _ _, heq⟩)
      · split at h
        · cases h; exact .inr (.inr ⟨_, _, rfl, patternAt_le _ _ _⟩)
        · exact ih _ _ _ h
    · cases h; exact .inl rfl

/-! ## Platforms without undefined behaviour -/

/-- Operations are defined in the states of `P` and keep it; reads are of at most 16 bytes. -/
structure Keeps {σ : Type} (p : Platform σ) (P : σ → Prop) : Prop where
  saveBegin : ∀ s, P s → ∃ b s', p.saveBegin s = some (b, s') ∧ P s'
  erase : ∀ s, P s → ∃ b s', p.erase s 0 p.size = some (b, s') ∧ P s'
  write : ∀ s o d, P s → (o + d.length ≤ p.size ∨ o = 0 ∧ d.length = 12) → ∃ b s', p.write s o d = some (b, s') ∧ P s'
  read : ∀ s o l, P s → l ≤ 16 → o + l ≤ p.size → ∃ d s', p.read s o l = some (d, s') ∧ P s'
  clear : ∀ s, P s → ∃ s', p.clear s = some s' ∧ P s'

theorem patternAt_pos {size o : Nat} (k : Nat) (h : o < size) :
    0 < (patternAt size o k).length ∧ o + (patternAt size o k).length ≤ size := by
  unfold patternAt
  rw [List.length_take]
  split <;> simp [pattern1, pattern2] <;> omega

theorem erasedLoop_keeps {σ : Type} {p : Platform σ} {P : σ → Prop} (hk : Keeps p P) (hmax : p.size ≤ 4294967280) (fuel : Nat)
    (s : σ) (i : Nat) (hs : P s) (hf : p.size < i + fuel) : ∃ r s', erasedLoop p fuel s i = some (r, s') ∧ P s' := by
  induction fuel generalizing s i with
  | zero =>
    unfold erasedLoop
    rw [if_neg (by omega)]
    exact ⟨_, _, rfl, hs⟩
  | succ fuel ih =>
    unfold erasedLoop
    by_cases h : i < p.size
    · rw [if_pos h]
      obtain ⟨d, s1, h1, h2⟩ := hk.read s i (min 16 (p.size - i)) hs (by omega) (by omega)
      simp only [h1]
      cases d with
      | none => exact ⟨_, _, rfl, h2⟩
      | some d =>
        simp only
        split
        · exact ⟨_, _, rfl, h2⟩
        · rw [add32_eq (by omega)]
          exact ih _ _ h2 (by omega)
    · rw [if_neg h]
      exact ⟨_, _, rfl, hs⟩

theorem writeLoop_keeps {σ : Type} {p : Platform σ} {P : σ → Prop} (hk : Keeps p P) (fuel : Nat)
    (s : σ) (o k : Nat) (hs : P s) (hf : p.size < o + fuel) : ∃ r s', writeLoop p fuel s o k = some (r, s') ∧ P s' := by
  induction fuel generalizing s o k with
  | zero =>
    unfold writeLoop
    rw [if_neg (by omega)]
    exact ⟨_, _, rfl, hs⟩
  | succ fuel ih =>
    unfold writeLoop
    by_cases h : o < p.size
    · rw [if_pos h]
      obtain ⟨p1, p2⟩ := patternAt_pos k h
      obtain ⟨b, s1, h1, h2⟩ := hk.write s o (patternAt p.size o k) hs (.inl p2)
      simp only [h1]
      cases b with
      | false => exact ⟨_, _, rfl, h2⟩
      | true => exact ih _ _ _ h2 (by omega)
    · rw [if_neg h]
      exact ⟨_, _, rfl, hs⟩

theorem checkLoop_keeps {σ : Type} {p : Platform σ} {P : σ → Prop} (hk : Keeps p P) (fuel : Nat)
    (s : σ) (o k : Nat) (hs : P s) (hf : p.size < o + fuel) : ∃ r s', checkLoop p fuel s o k = some (r, s') ∧ P s' := by
  induction fuel generalizing s o k with
  | zero =>
    unfold checkLoop
    rw [if_neg (by omega)]
    exact ⟨_, _, rfl, hs⟩
  | succ fuel ih =>
    unfold checkLoop
    by_cases h : o < p.size
    · rw [if_pos h]
      obtain ⟨p1, p2⟩ := patternAt_pos k h
      obtain ⟨d, s1, h1, h2⟩ := hk.read s o (patternAt p.size o k).length hs (by have := patternAt_le p.size o k; omega) p2
      simp only [h1]
      cases d with
      | none => exact ⟨_, _, rfl, h2⟩
      | some d =>
        simp only
        split
        · exact ⟨_, _, rfl, h2⟩
        · exact ih _ _ _ h2 (by omega)
    · rw [if_neg h]
      exact ⟨_, _, rfl, hs⟩

theorem testBegin_keeps {σ : Type} {p : Platform σ} {P : σ → Prop} (hk : Keeps p P) (hmax : p.size ≤ 4294967280) (s : σ) (hs : P s) :
    ∃ r s', testBegin p s = some (r, s') ∧ P s' := by
  unfold testBegin
  split
  · exact ⟨_, _, rfl, hs⟩
  · obtain ⟨b, s1, h1, h2⟩ := hk.saveBegin s hs
    simp only [h1]
    cases b with
    | false => exact ⟨_, _, rfl, h2⟩
    | true =>
      obtain ⟨b, s2, h3, h4⟩ := hk.erase s1 h2
      simp only [h3]
      cases b with
      | false => exact ⟨_, _, rfl, h4⟩
      | true =>
        obtain ⟨r, s3, h5, h6⟩ := erasedLoop_keeps hk hmax (p.size + 1) s2 0 h4 (by omega)
        simp only [h5]
        cases r with
        | success =>
          obtain ⟨r, s4, h7, h8⟩ := writeLoop_keeps hk (p.size + 1) s3 pattern1.length 1 h6 (by omega)
          simp only [h7]
          cases r with
          | success =>
            obtain ⟨b, s5, h9, h10⟩ := hk.write s4 0 pattern1 h8 (.inr ⟨rfl, rfl⟩)
            simp only [h9]
            cases b with
            | false => exact ⟨_, _, rfl, h10⟩
            | true => exact checkLoop_keeps hk (p.size + 1) s5 0 0 h10 (by omega)
          | _ => exact ⟨_, _, rfl, h8⟩
        | _ => exact ⟨_, _, rfl, h6⟩

theorem tap_keeps {σ : Type} {p : Platform σ} {P : σ → Prop} (hk : Keeps p P) : Keeps (tap p) fun s => P s.1 ∧ s.2.length = 16 where
  saveBegin s hs := by
    obtain ⟨b, s', h1, h2⟩ := hk.saveBegin s.1 hs.1
    exact ⟨b, (s', s.2), by simp [tap, h1], h2, hs.2⟩
  erase s hs := by
    obtain ⟨b, s', h1, h2⟩ := hk.erase s.1 hs.1
    exact ⟨b, (s', s.2), by simp [tap, h1], h2, hs.2⟩
  write s o d hs h := by
    obtain ⟨b, s', h1, h2⟩ := hk.write s.1 o d hs.1 h
    exact ⟨b, (s', s.2), by simp [tap, h1], h2, hs.2⟩
  read s o l hs h h' := by
    obtain ⟨d, s', h1, h2⟩ := hk.read s.1 o l hs.1 h h'
    cases d with
    | none => exact ⟨none, (s', s.2), by simp [tap, h1], h2, hs.2⟩
    | some d => exact ⟨some d, (s', readBuf d l), by simp [tap, h1], h2, readBuf_length d h⟩
  clear s hs := by
    obtain ⟨s', h1, h2⟩ := hk.clear s.1 hs.1
    exact ⟨(s', s.2), by simp [tap, h1], h2, hs.2⟩

/-- The results that can be reported: what is compared is at most 12 bytes. -/
theorem testBegin_small {σ : Type} (p : Platform σ) {s s' : σ} {op : TestOp} {o n : Nat} {e : Option Bytes}
    (h : testBegin p s = some (.compareFailed op o n e, s')) : n ≤ 12 ∧ ∀ x, e = some x → x.length = n := by
  unfold testBegin at h
  split at h
  · cases h
  · split at h
    · cases h
    · cases h
    · split at h
      · cases h
      · cases h
      · split at h
        · split at h
          · split at h
            · cases h
            · cases h
            · rcases checkLoop_result _ _ _ _ _ h with e | ⟨_, _, _, e, -⟩ | ⟨o, x, e, h12⟩
              · cases e
              · cases e
              · cases e
                exact ⟨h12, fun y hy => by cases hy; rfl⟩
          · rcases writeLoop_result _ _ _ _ _ h with e | ⟨_, _, _, e, -⟩ <;> cases e
        · rcases erasedLoop_result _ _ _ _ h with e | ⟨_, _, _, e, -⟩ | ⟨o, e⟩
          · cases e
          · cases e
          · cases e
            exact ⟨by omega, fun y hy => by cases hy⟩

theorem failureLines_some {hex buf : Bytes} (hx : hex.length = 33) (hb : buf.length = 16) {r : TestResult}
    (h : ∀ op o n e, r = .compareFailed op o n e → n ≤ 12 ∧ ∀ x, e = some x → x.length = n) :
    ∃ lines, failureLines hex r buf = some (ascii "Coredump Storage Verification Failed" :: lines) := by
  cases r with
  | compareFailed op o n e =>
    obtain ⟨h1, h2⟩ := h _ _ _ _ rfl
    cases e with
    | none =>
      simp only [failureLines, Option.bind_eq_bind, Option.bind_some, hexdump_eq hx (show n ≤ 16 by omega) (show n ≤ buf.length by omega),
        Option.pure_def, List.cons_append, Option.some.injEq, List.cons.injEq, true_and, exists_eq']
    | some e =>
      simp only [failureLines, Option.bind_eq_bind, hexdump_eq hx (show n ≤ 16 by omega) (show n ≤ buf.length by omega),
        hexdump_eq hx (show n ≤ 16 by omega) (show n ≤ e.length by rw [h2 e rfl]), Option.map_some, Option.bind_some,
        Option.pure_def, List.cons_append, Option.some.injEq, List.cons.injEq, true_and, exists_eq']
  | _ => exact ⟨_, rfl⟩

end Mflt.StorageReport
