import Verif.Props.DataExport
import Verif.Spec.PortLog

/-! # Property C109: log messages and exported chunks on the console -/

namespace Mflt.Props

open PortLog
open Spec.PortLog (header lineEnd Enabled inBase64 here found NoMark chunks)

namespace PLog

theorem inBuf_prefix (n : Nat) (t : Bytes) : inBuf n t <+: t :=
  (List.takeWhile_prefix _).trans (List.take_prefix _ _)

theorem takeWhile_all {f : UInt8 → Bool} : ∀ {l : Bytes}, (∀ x ∈ l, f x = true) → l.takeWhile f = l
  | [], _ => rfl
  | a :: l, h => by
    rw [List.takeWhile_cons, if_pos (h a List.mem_cons_self), takeWhile_all fun x hx => h x (List.mem_cons_of_mem _ hx)]

theorem takeWhile_stop {f : UInt8 → Bool} {x : UInt8} (hx : f x = false) (r : Bytes) :
    ∀ {l : Bytes}, (∀ x ∈ l, f x = true) → (l ++ x :: r).takeWhile f = l
  | [], _ => by simp [List.takeWhile_cons, hx]
  | a :: l, h => by
    rw [List.cons_append, List.takeWhile_cons, if_pos (h a List.mem_cons_self),
      takeWhile_stop hx r fun x hx => h x (List.mem_cons_of_mem _ hx)]

theorem dropWhile_stop {f : UInt8 → Bool} {x : UInt8} (hx : f x = false) (r : Bytes) :
    ∀ {l : Bytes}, (∀ x ∈ l, f x = true) → (l ++ x :: r).dropWhile f = x :: r
  | [], _ => by simp [List.dropWhile_cons, hx]
  | a :: l, h => by
    rw [List.cons_append, List.dropWhile_cons, if_pos (h a List.mem_cons_self),
      dropWhile_stop hx r fun x hx => h x (List.mem_cons_of_mem _ hx)]

theorem inBuf_eq {n : Nat} {t : Bytes} (h : (0 : UInt8) ∉ t) : inBuf n t = t.take (n - 1) := by
  unfold inBuf
  apply takeWhile_all
  intro x hx
  have := List.mem_of_mem_take hx
  simp only [ne_eq, decide_not, Bool.not_eq_eq_eq_not, Bool.not_true, decide_eq_false_iff_not]
  intro h0
  exact h (h0 ▸ this)

theorem log_eq {p : Port} {c : Cfg} (ts : Bytes) {level : Nat} (hl : level < 4) (he : Enabled p c level) (t : Bytes) :
    log p c ts level t = header p ts level ++ inBuf c.bufSize t ++ lineEnd p := by
  generalize hs : inBuf c.bufSize t = s
  have hc : level = 0 ∨ level = 1 ∨ level = 2 ∨ level = 3 := by omega
  cases p <;> unfold Enabled at he <;> simp only at he <;> rcases hc with rfl | rfl | rfl | rfl <;>
    simp only [log, letter, zephyrLevel, hs, he, header, lineEnd, Bool.not_true, Bool.false_eq_true, if_false,
      List.append_nil] <;>
    first
      | rfl
      | (rw [if_pos (by omega)]; rfl)

theorem log_off {p : Port} {c : Cfg} (ts : Bytes) {level : Nat} (hl : level < 4) (he : ¬ Enabled p c level) (t : Bytes) :
    log p c ts level t = [] := by
  have hc : level = 0 ∨ level = 1 ∨ level = 2 ∨ level = 3 := by omega
  cases p <;> unfold Enabled at he <;> simp only at he <;> rcases hc with rfl | rfl | rfl | rfl <;>
    simp only [log, letter, zephyrLevel] <;>
    first
      | (exact absurd trivial he)
      | (rw [if_neg (by omega)])
      | (rw [if_pos (by simpa using he)])

theorem log_other {p : Port} {c : Cfg} (ts : Bytes) {level : Nat} (hl : ¬ level < 4) (t : Bytes) :
    log p c ts level t = [] ∨
      log p c ts level t = header p ts 3 ++ ([63, 63, 63] ++ 32 :: (inBuf c.bufSize t ++ lineEnd p)) := by
  obtain ⟨k, rfl⟩ : ∃ k, level = k + 4 := ⟨level - 4, by omega⟩
  have hq : ascii "??? " = [63, 63, 63, 32] := by decide
  cases p
  case zephyr =>
    by_cases h : 1 ≤ c.shown
    · right
      simp only [log, zephyrLevel, if_pos h, hq, header, lineEnd]
      simp [ascii, Spec.PortLog.text]
      decide
    · left; simp only [log, zephyrLevel, if_neg h]
  case zephyrPrintk =>
    right
    simp only [log, zephyrLevel, hq, header, lineEnd]
    simp [ascii, Spec.PortLog.text]
    decide
  all_goals
    left
    simp [log, letter]

/-! ## Finding chunks -/

theorem mark_eq : Spec.PortLog.text "MC:" = [77, 67, 58] := by decide

theorem here_none {b : Bytes} (h : b.take 3 ≠ [77, 67, 58]) : here b = none := by
  unfold here
  rw [mark_eq, if_neg (fun hx => h hx.1)]

theorem here_none' {b : Bytes} (h : ((b.drop 3).dropWhile inBase64).head? ≠ some 58) : here b = none := by
  unfold here
  rw [if_neg (fun hx => h hx.2)]

theorem found_none {c : UInt8} {cs : Bytes} (h : here (c :: cs) = none) : found (c :: cs) = found cs := by
  rw [found, h]

theorem noMark_tail {c : UInt8} {w : Bytes} (h : NoMark (c :: w)) : NoMark w := fun i => h (i + 1)

theorem noMark_prefix {s t : Bytes} (h : s <+: t) (ht : NoMark t) : NoMark s := by
  obtain ⟨u, rfl⟩ := h
  intro i hi
  refine ht i ?_
  rw [mark_eq] at hi ⊢
  have hlen : 3 ≤ (s.drop i).length := by
    have := congrArg List.length hi
    rw [List.length_take] at this
    simp only [List.length_cons, List.length_nil] at this
    omega
  rw [List.drop_append_of_le_length (by rw [List.length_drop] at hlen; omega), List.take_append_of_le_length hlen, hi]

theorem noMark_of {w : Bytes} {x : UInt8} (hx : x = 67 ∨ x = 58) (h : x ∉ w) : NoMark w := by
  intro i hi
  rw [mark_eq] at hi
  apply h
  apply List.mem_of_mem_drop (i := i)
  apply List.mem_of_mem_take (i := 3)
  rw [hi]
  rcases hx with rfl | rfl <;> simp

theorem found_skip {x : UInt8} (h1 : x ≠ 77) (h2 : x ≠ 67) (h3 : x ≠ 58) (rest : Bytes) :
    ∀ {w : Bytes}, NoMark w → found (w ++ x :: rest) = found rest
  | [], _ => found_none (here_none (by simp [h1]))
  | [c], _ => by
    show found (c :: x :: rest) = _
    rw [found_none (here_none (by simp [h2]))]
    exact found_none (here_none (by simp [h1]))
  | [c, d], h => by
    show found (c :: d :: x :: rest) = _
    rw [found_none (here_none (by simp [h3]))]
    exact found_skip h1 h2 h3 rest (w := [d]) (noMark_tail h)
  | c :: d :: e :: w, h => by
    show found (c :: d :: e :: (w ++ x :: rest)) = _
    rw [found_none (here_none (by have := h 0; rw [mark_eq] at this; simpa using this))]
    exact found_skip h1 h2 h3 rest (w := d :: e :: w) (noMark_tail h)

theorem found_tail {e : UInt8} (he : inBase64 e = false) (he' : e ≠ 58) (rest : Bytes) :
    ∀ {w : Bytes}, (58 : UInt8) ∉ w → found (w ++ 58 :: e :: rest) = found (e :: rest)
  | [], _ => found_none (here_none (by simp))
  | [c], _ => by
    show found (c :: 58 :: e :: rest) = _
    rw [found_none (here_none (by simp))]
    exact found_none (here_none (by simp))
  | [c, d], h => by
    show found (c :: d :: 58 :: e :: rest) = _
    rw [found_none (here_none' (by simp [List.dropWhile_cons, he, he']))]
    exact found_tail he he' rest (w := [d]) (by simp at h ⊢; exact h.2)
  | c :: d :: f :: w, h => by
    show found (c :: d :: f :: (w ++ 58 :: e :: rest)) = _
    rw [found_none (here_none (by simp at h ⊢; intro _ _ hf; exact absurd hf.symm h.2.2.1))]
    exact found_tail he he' rest (w := d :: f :: w) (by simp at h ⊢; exact h.2)

theorem enc_all (b : Bytes) : ∀ x ∈ Spec.Base64.encode b, inBase64 x = true := by
  intro x hx
  unfold inBase64
  rcases C07_base64_alphabet b x hx with rfl | h
  · simp
  · simp [h]

theorem enc_no_colon (b : Bytes) : (58 : UInt8) ∉ Spec.Base64.encode b := by
  intro h
  have := enc_all b 58 h
  revert this
  decide

theorem enc_length (b : Bytes) : (Spec.Base64.encode b).length = 4 * ((b.length + 2) / 3) := by
  rw [(C07_base64_encode b (List.replicate (Base64.encodeLen b.length) 0) (by simp)).2]
  unfold Base64.encodeLen; omega

/-- The line of a chunk is found. -/
theorem found_line (b : Bytes) {e : UInt8} (he : inBase64 e = false) (he' : e ≠ 58) (rest : Bytes) :
    found (exportLine b ++ e :: rest) = b :: found (e :: rest) := by
  have h0 : exportLine b ++ e :: rest = 77 :: 67 :: 58 :: (Spec.Base64.encode b ++ 58 :: e :: rest) := by
    simp [exportLine]
  have h58 : inBase64 58 = false := by decide
  have hh : here (77 :: 67 :: 58 :: (Spec.Base64.encode b ++ 58 :: e :: rest)) = some b := by
    unfold here
    rw [mark_eq, if_pos]
    · show Spec.Base64.decode ((Spec.Base64.encode b ++ 58 :: e :: rest).takeWhile inBase64) = _
      rw [takeWhile_stop h58 _ (enc_all b)]
      exact C07_base64_roundtrip b
    · refine ⟨rfl, ?_⟩
      show ((Spec.Base64.encode b ++ 58 :: e :: rest).dropWhile inBase64).head? = _
      rw [dropWhile_stop h58 _ (enc_all b)]
      rfl
  rw [h0, found, hh]
  dsimp only
  rw [found_none (here_none (by simp)), found_none (here_none (by simp)), found_tail he he' rest (enc_no_colon b)]

/-- The line of a chunk whose end is missing is not found. -/
theorem found_cut (b : Bytes) {k : Nat} (hk : k < (exportLine b).length) {e : UInt8} (he : inBase64 e = false)
    (he' : e ≠ 58) (h1 : e ≠ 77) (h2 : e ≠ 67) (rest : Bytes) : found ((exportLine b).take k ++ e :: rest) = found rest := by
  have hlen : (exportLine b).length = 3 + (Spec.Base64.encode b).length + 1 := by simp [exportLine]; omega
  have hx : exportLine b = ([77, 67, 58] ++ Spec.Base64.encode b) ++ [58] := rfl
  have htk : (exportLine b).take k = ([77, 67, 58] ++ Spec.Base64.encode b).take k := by
    rw [hx, List.take_append_of_le_length (by simp; omega)]
  rw [htk]
  rcases k with - | - | - | k
  · exact found_skip h1 h2 he' rest (w := []) (noMark_of (.inl rfl) (by simp))
  · exact found_skip h1 h2 he' rest (w := [77]) (noMark_of (.inl rfl) (by simp))
  · exact found_skip h1 h2 he' rest (w := [77, 67]) (noMark_of (.inr rfl) (by simp))
  · have hs : ∀ x ∈ (Spec.Base64.encode b).take k, inBase64 x = true := fun x hx => enc_all b x (List.mem_of_mem_take hx)
    have hc : (58 : UInt8) ∉ (Spec.Base64.encode b).take k := fun hx => enc_no_colon b (List.mem_of_mem_take hx)
    show found (77 :: 67 :: 58 :: ((Spec.Base64.encode b).take k ++ e :: rest)) = _
    rw [found_none (here_none' (by
      show ((((Spec.Base64.encode b).take k ++ e :: rest).dropWhile inBase64).head?) ≠ _
      rw [dropWhile_stop he _ hs]; simpa using he'))]
    rw [found_none (here_none (by simp)), found_none (here_none (by simp))]
    exact found_skip h1 h2 he' rest (noMark_of (.inr rfl) hc)

theorem found_end (p : Port) {w : Bytes} (hw : NoMark w) (rest : Bytes) : found (w ++ (lineEnd p ++ rest)) = found rest := by
  cases p
  case da145xx | da1469x | zephyr =>
    show found (w ++ 13 :: 10 :: rest) = _
    rw [found_skip (by decide) (by decide) (by decide) _ hw]
    exact found_none (here_none (by simp))
  all_goals exact found_skip (by decide) (by decide) (by decide) _ hw

/-- There is nothing in front of a message. -/
theorem found_header (p : Port) {ts : Bytes} (hts : NoMark ts) {level : Nat} (hl : level < 4) (rest : Bytes) :
    found (header p ts level ++ rest) = found rest := by
  have skip : ∀ (w : Bytes) (x : UInt8) (r : Bytes), (67 : UInt8) ∉ w → x ≠ 77 ∧ x ≠ 67 ∧ x ≠ 58 →
      found (w ++ x :: r) = found r := fun w x r hw hx => found_skip hx.1 hx.2.1 hx.2.2 r (noMark_of (.inl rfl) hw)
  have hc : level = 0 ∨ level = 1 ∨ level = 2 ∨ level = 3 := by omega
  cases p
  case da145xx | da1469x =>
    rcases hc with rfl | rfl | rfl | rfl
    · exact skip [91, 68, 93, 32, 77, 70, 76, 84, 58] 32 rest (by decide) (by decide)
    · exact skip [91, 73, 93, 32, 77, 70, 76, 84, 58] 32 rest (by decide) (by decide)
    · exact skip [91, 87, 93, 32, 77, 70, 76, 84, 58] 32 rest (by decide) (by decide)
    · exact skip [91, 69, 93, 32, 77, 70, 76, 84, 58] 32 rest (by decide) (by decide)
  case esp8266 | espIdf =>
    have key : ∀ l : UInt8, l ≠ 67 → found ([l, 32, 40] ++ ts ++ [41, 32, 109, 102, 108, 116, 58, 32] ++ rest) = found rest := by
      intro l hl
      rw [show [l, 32, 40] ++ ts ++ [41, 32, 109, 102, 108, 116, 58, 32] ++ rest =
        [l, 32] ++ 40 :: (ts ++ 41 :: ([32, 109, 102, 108, 116, 58] ++ 32 :: rest)) by simp]
      rw [skip _ _ _ (by simp [hl.symm]) (by decide), found_skip (by decide) (by decide) (by decide) _ hts,
        skip _ _ _ (by decide) (by decide)]
    rcases hc with rfl | rfl | rfl | rfl
    · exact key 68 (by decide)
    · exact key 73 (by decide)
    · exact key 87 (by decide)
    · exact key 69 (by decide)
  case zephyr =>
    have key : ∀ n : Bytes, (67 : UInt8) ∉ n →
        found ([91] ++ ts ++ [93, 32, 60] ++ n ++ [62, 32, 109, 102, 108, 116, 58, 32] ++ rest) = found rest := by
      intro n hn
      rw [show [91] ++ ts ++ [93, 32, 60] ++ n ++ [62, 32, 109, 102, 108, 116, 58, 32] ++ rest =
        [] ++ 91 :: (ts ++ 93 :: ([32] ++ 60 :: (n ++ 62 :: ([32, 109, 102, 108, 116, 58] ++ 32 :: rest)))) by simp]
      rw [skip _ _ _ (by simp) (by decide), found_skip (by decide) (by decide) (by decide) _ hts,
        skip _ _ _ (by decide) (by decide), skip _ _ _ hn (by decide), skip _ _ _ (by decide) (by decide)]
    rcases hc with rfl | rfl | rfl | rfl
    · exact key [100, 98, 103] (by decide)
    · exact key [105, 110, 102] (by decide)
    · exact key [119, 114, 110] (by decide)
    · exact key [101, 114, 114] (by decide)
  case zephyrPrintk =>
    rcases hc with rfl | rfl | rfl | rfl
    · exact skip [60, 100, 98, 103, 62, 32, 109, 102, 108, 116, 58] 32 rest (by decide) (by decide)
    · exact skip [60, 105, 110, 102, 62, 32, 109, 102, 108, 116, 58] 32 rest (by decide) (by decide)
    · exact skip [60, 119, 114, 110, 62, 32, 109, 102, 108, 116, 58] 32 rest (by decide) (by decide)
    · exact skip [60, 101, 114, 114, 62, 32, 109, 102, 108, 116, 58] 32 rest (by decide) (by decide)

/-- A message hides and adds no chunk. -/
theorem found_message (p : Port) (c : Cfg) {ts : Bytes} (hts : NoMark ts) (level : Nat) {t : Bytes} (ht : NoMark t)
    (rest : Bytes) : found (log p c ts level t ++ rest) = found rest := by
  have hb : NoMark (inBuf c.bufSize t) := noMark_prefix (inBuf_prefix _ _) ht
  by_cases hl : level < 4
  · by_cases he : Enabled p c level
    · rw [log_eq ts hl he, List.append_assoc, List.append_assoc, found_header p hts hl, found_end p hb]
    · rw [log_off ts hl he, List.nil_append]
  · rcases log_other (p := p) (c := c) ts hl t with h | h
    · rw [h, List.nil_append]
    · rw [h, List.append_assoc, found_header p hts (by decide)]
      show found ([63, 63, 63] ++ 32 :: (inBuf c.bufSize t ++ lineEnd p ++ rest)) = _
      rw [found_skip (by decide) (by decide) (by decide) _ (noMark_of (.inl rfl) (by decide)), List.append_assoc,
        found_end p hb]

theorem end_cons (p : Port) : ∃ e r, lineEnd p = e :: r ∧ inBase64 e = false ∧ e ≠ 58 ∧ e ≠ 77 ∧ e ≠ 67 ∧
    ∀ rest, found (e :: (r ++ rest)) = found rest := by
  have hn : NoMark [] := noMark_of (.inl rfl) (by simp)
  cases p <;> refine ⟨_, _, rfl, by decide, by decide, by decide, by decide, fun rest => ?_⟩
  · exact found_end .da145xx hn rest
  · exact found_end .da1469x hn rest
  · exact found_end .esp8266 hn rest
  · exact found_end .espIdf hn rest
  · exact found_end .zephyr hn rest
  · exact found_end .zephyrPrintk hn rest

theorem exportLine_nul (b : Bytes) : (0 : UInt8) ∉ Props.exportLine b := by
  unfold Props.exportLine
  simp only [List.mem_append, not_or]
  exact ⟨⟨by decide, encode_no_nul b⟩, by decide⟩

theorem exportLine_length (b : Bytes) : (Props.exportLine b).length = 4 * ((b.length + 2) / 3) + 4 := by
  simp [Props.exportLine, enc_length]

/-- A chunk is found if and only if its line fits. -/
theorem found_chunk (p : Port) (c : Cfg) {ts : Bytes} (hts : NoMark ts) (he : Enabled p c 1) (b rest : Bytes) :
    found (PortLog.exportLine p c ts (Props.exportLine b) ++ rest) =
      (if 4 * ((b.length + 2) / 3) + 4 ≤ c.bufSize - 1 then [b] else []) ++ found rest := by
  obtain ⟨e, r, h1, h2, h3, h4, h5, h6⟩ := end_cons p
  unfold PortLog.exportLine
  rw [log_eq ts (by decide) he, inBuf_eq (exportLine_nul b), List.append_assoc, List.append_assoc, found_header p hts (by decide),
    h1, List.cons_append]
  by_cases h : 4 * ((b.length + 2) / 3) + 4 ≤ c.bufSize - 1
  · rw [if_pos h, List.take_of_length_le (by rw [exportLine_length]; omega), found_line b h2 h3, h6]
    rfl
  · rw [if_neg h, found_cut b (by rw [exportLine_length]; omega) h2 h3 h4 h5]
    have := h6 rest
    rw [found_none (here_none (by
      intro hx
      have := congrArg List.head? hx
      simp [List.head?_take] at this
      exact h4 this))] at this
    exact this

end PLog

open PLog

/-- **C109 (messages)**: on each port a message with a level is one line on the console, if that level is enabled: the
header of the level, the text, cut if it is longer than the buffer, and an end of line; nothing is written otherwise. -/
theorem C109_message (p : Port) (c : Cfg) (ts : Bytes) {level : Nat} (hl : level < 4) {t : Bytes} (h0 : (0 : UInt8) ∉ t) :
    (Enabled p c level → log p c ts level t = header p ts level ++ t.take (c.bufSize - 1) ++ lineEnd p) ∧
    (¬ Enabled p c level → log p c ts level t = []) :=
  ⟨fun he => by rw [log_eq ts hl he, inBuf_eq h0], fun he => log_off ts hl he t⟩

/-- The level of a message can be told from its line. -/
theorem C109_levels (p : Port) (ts : Bytes) {l l' : Nat} (hl : l < 4) (hl' : l' < 4)
    (h : header p ts l = header p ts l') : l = l' := by
  have h1 : l = 0 ∨ l = 1 ∨ l = 2 ∨ l = 3 := by omega
  have h2 : l' = 0 ∨ l' = 1 ∨ l' = 2 ∨ l' = 3 := by omega
  cases p <;> rcases h1 with rfl | rfl | rfl | rfl <;> rcases h2 with rfl | rfl | rfl | rfl <;>
    first
      | rfl
      | (exfalso; revert h; simp only [header, List.append_left_inj, List.append_right_inj]; decide)

/-- **C109 (exported chunks)**: from what the port writes to the console, the exported chunks are found, all of them and
in their order, whatever messages are logged between them, if the lines of chunks fit into the buffer and the level info
is shown. -/
theorem C109_recovered (p : Port) (c : Cfg) (he : Enabled p c 1) (max : Nat) (hfit : 4 * ((max + 2) / 3) + 4 < c.bufSize)
    (stack : Bytes) (hs : stack.length = 4 * ((max + 2) / 3) + 5) (ops : List (Bytes × Op))
    (hts : ∀ o ∈ ops, NoMark o.1) (hc : ∀ b, .chunk b ∈ ops.map (·.2) → b.length ≤ max)
    (hm : ∀ l t, .message l t ∈ ops.map (·.2) → NoMark t) :
    ∃ out, run p c max stack ops = some out ∧ found out = chunks ops := by
  have hs' : stack.length = DataExport.lineMaxLen max := by
    rw [hs]; unfold DataExport.lineMaxLen Base64.encodeLen; omega
  induction ops with
  | nil => exact ⟨[], rfl, rfl⟩
  | cons o ops ih =>
    obtain ⟨out, h1, h2⟩ := ih (fun o ho => hts o (List.mem_cons_of_mem _ ho))
      (fun b hb => hc b (by simp at hb ⊢; exact .inr hb)) (fun l t ht => hm l t (by simp at ht ⊢; exact .inr ht))
    obtain ⟨ts, o⟩ := o
    have ht := hts (ts, o) List.mem_cons_self
    cases o with
    | chunk b =>
      have hb := hc b (by simp)
      refine ⟨PortLog.exportLine p c ts (Props.exportLine b) ++ out, ?_, ?_⟩
      · simp only [run]
        rw [exportChunk_eq max stack b hb hs', Option.bind_some, h1, Option.map_some]
      · rw [found_chunk p c ht he, if_pos (by omega), h2, chunks]; rfl
    | message l t =>
      refine ⟨log p c ts l t ++ out, by simp only [run]; rw [h1, Option.map_some], ?_⟩
      rw [found_message p c ht l (hm l t (by simp)), h2, chunks]

/-- Non-vacuous: with the configuration of the SDK, chunks of 80 bytes and 128 bytes for messages. -/
example : 4 * ((80 + 2) / 3) + 4 < 128 ∧ Enabled .zephyr ⟨128, true, 3⟩ 1 ∧
    (run .espIdf ⟨128, true, 3⟩ 80 (List.replicate 113 255)
      [([49], .message 3 [77, 67]), ([50], .chunk [1, 2, 3, 4]), ([51], .chunk [5])]).map found = some [[1, 2, 3, 4], [5]] := by
  refine ⟨by decide, by unfold Enabled; decide, by decide +kernel⟩

/-- **C109 (a dump)**: everything the enabled sources hold is found on the console after
`memfault_data_export_dump_chunks`, as in `C52_dump_partial`. Missing: as there, a transfer in progress of more
than one call. -/
theorem C109_dump_partial (p : Port) (c : Cfg) (he : Enabled p c 1) (ts : Nat → Bytes) (hts : ∀ i, NoMark (ts i))
    (cfg : Packetizer.Config) (hkey : (cfg.key.getD []).length < 2 ^ 30) (max : Nat) (h9 : 9 ≤ max)
    (hfit : 4 * ((max + 2) / 3) + 4 < c.bufSize) (buf stack : Bytes) (hb : buf.length = max)
    (hs : stack.length = 4 * ((max + 2) / 3) + 5)
    (ops : List Spec.Packetizer.Op) (hops : ∀ src m, Spec.Packetizer.Op.enqueue src m ∈ ops → m.length < 2 ^ 30) :
    ∃ os s S, Packetizer.run cfg Packetizer.boot ops = some (os, s) ∧
      Spec.Packetizer.Trace cfg Spec.Packetizer.init ops os S ∧
      ((∀ t, S.cur = some t → t.multi = false) →
        ∃ lines chunks s' S' k, (∀ n, k ≤ n → DataExport.dump cfg max buf stack n s = some (lines, s')) ∧
          found (lines.zipIdx.flatMap fun l => PortLog.exportLine p c (ts l.2) l.1) = chunks ∧
          Spec.DataExport.Exported cfg S chunks S' ∧
          ∀ src, S.mask.testBit (Spec.Packetizer.code src) = true → s'.queue src = []) := by
  have hs' : stack.length = DataExport.lineMaxLen max := by
    rw [hs]; unfold DataExport.lineMaxLen Base64.encodeLen; omega
  obtain ⟨os, s, S, h1, h2, h3⟩ := run_refines' hkey ops (boot_rel cfg) hops
  refine ⟨os, s, S, h1, h2, fun hm => ?_⟩
  obtain ⟨chunks, s', S', k, h4, h5, h6⟩ := dump_all hkey hb h9 hs' _ h3 hm (Nat.lt_succ_self _)
  obtain ⟨h7, h8, h10, -⟩ := exported_end h4
  have hlen : ∀ b ∈ chunks, 4 * ((b.length + 2) / 3) + 4 ≤ c.bufSize - 1 := by
    intro b hbm
    have := dump_short hs' h6 _ (List.mem_map_of_mem hbm)
    rw [exportLine_length] at this
    unfold DataExport.lineMaxLen Base64.encodeLen at this
    omega
  refine ⟨chunks.map Props.exportLine, chunks, s', S', k, ?_, ?_, h4, ?_⟩
  · intro n hn
    have := dump_more (n - k) h6
    rwa [show k + (n - k) = n by omega] at this
  · have key : ∀ (cs : List Bytes) (i : Nat), (∀ b ∈ cs, 4 * ((b.length + 2) / 3) + 4 ≤ c.bufSize - 1) →
        found (((cs.map Props.exportLine).zipIdx i).flatMap fun l => PortLog.exportLine p c (ts l.2) l.1) = cs := by
      intro cs
      induction cs with
      | nil => intro _ _; rfl
      | cons b cs ih =>
        intro i hcs
        rw [List.map_cons, List.zipIdx_cons, List.flatMap_cons, found_chunk p c (hts i) he, if_pos (hcs b List.mem_cons_self),
          ih _ fun b hb => hcs b (List.mem_cons_of_mem _ hb)]
        rfl
    exact key chunks 0 hlen
  · intro src hx
    rw [← h5.queue]
    unfold Spec.Packetizer.pick at h8
    rw [List.find?_eq_none] at h8
    have := h8 src (by cases src <;> decide)
    unfold Spec.Packetizer.sendable at this
    rw [h10, hx] at this
    simpa using this

/-- **C109 is false for chunks that are longer than the buffer for messages allows**: the chunk is not found. With the
buffer of 128 bytes these are the chunks of more than 90 bytes, which `MEMFAULT_DATA_EXPORT_CHUNK_MAX_LEN` may allow. -/
theorem C109_false_long (p : Port) (c : Cfg) (he : Enabled p c 1) {ts : Bytes} (hts : NoMark ts) (max : Nat) (b stack : Bytes)
    (hb : b.length ≤ max) (hs : stack.length = 4 * ((max + 2) / 3) + 5) (hlong : c.bufSize ≤ 4 * ((b.length + 2) / 3) + 4) :
    ∃ out, run p c max stack [(ts, .chunk b)] = some out ∧ found out = [] := by
  have hs' : stack.length = DataExport.lineMaxLen max := by
    rw [hs]; unfold DataExport.lineMaxLen Base64.encodeLen; omega
  refine ⟨PortLog.exportLine p c ts (Props.exportLine b) ++ [], ?_, ?_⟩
  · simp only [run]
    rw [exportChunk_eq max stack b hb hs', Option.bind_some, Option.map_some]
  · rw [found_chunk p c hts he, if_neg (by omega)]; rfl

example : Enabled .zephyrPrintk ⟨128, true, 3⟩ 1 ∧ 128 ≤ 4 * ((91 + 2) / 3) + 4 ∧ 4 * ((90 + 2) / 3) + 4 < 128 ∧
    NoMark [49, 50] := ⟨trivial, by decide, by decide, noMark_of (.inl rfl) (by decide)⟩

/-- **C109 is false if messages with level info are not shown**: a dump writes nothing to the console, although it takes the
data from the storage as `C52_dump_partial` says. -/
theorem C109_false_filtered (p : Port) (c : Cfg) (he : ¬ Enabled p c 1) (ts : Nat → Bytes) (lines : List Bytes) :
    (lines.zipIdx.flatMap fun l => PortLog.exportLine p c (ts l.2) l.1) = [] := by
  rw [List.flatMap_eq_nil_iff]
  intro l _
  exact log_off _ (by decide) he _

example : ¬ Enabled .espIdf ⟨128, true, 2⟩ 1 := by unfold Enabled; decide

/-! ## Raw lines -/

/-- **C109 (raw lines)**: the whole text and an end of line. Missing: long texts with Zephyr (`C109_false_raw`). -/
theorem C109_raw_partial (p : Port) (c : Cfg) (hc : c.console = true) (t : Bytes)
    (h : p ≠ .zephyr ∧ p ≠ .zephyrPrintk ∨ t.length < c.bufSize ∧ (0 : UInt8) ∉ t) :
    raw p c t = t ++ [13, 10] ∨ raw p c t = t ++ [10] := by
  cases p
  case da145xx => exact .inl (by simp only [raw, hc, if_true]; rfl)
  case da1469x => exact .inr (by simp only [raw, hc, if_true]; rfl)
  case esp8266 | espIdf => exact .inr rfl
  all_goals
    have h' : t.length < c.bufSize ∧ (0 : UInt8) ∉ t := by simpa using h
    right
    simp only [raw]
    rw [inBuf_eq h'.2, List.take_of_length_le (by omega)]
    rfl

/-- **C109 (raw lines, false)**: with Zephyr a text that does not fit into the buffer is cut, although nothing in the
interface says so. -/
theorem C109_false_raw (p : Port) (hp : p = .zephyr ∨ p = .zephyrPrintk) (c : Cfg) {t : Bytes} (h0 : (0 : UInt8) ∉ t) :
    raw p c t = t.take (c.bufSize - 1) ++ [10] := by
  rcases hp with rfl | rfl <;> simp only [raw] <;> rw [inBuf_eq h0] <;> rfl

/-! ## The hook of ESP-IDF's log -/

/-- **C109 (ESP-IDF's log)**: the beginning of every line that is not empty is saved, and the console gets the line
itself. Missing: its level (`C109_false_hook_level`), and that empty lines are left out (`C109_false_hook_empty`). -/
theorem C109_hook_partial (maxLine : Nat) (t : Bytes) :
    (t ≠ [] → wrapper maxLine t = some (some ⟨1, t.take maxLine⟩, t)) ∧ wrapper maxLine [] = some (none, []) := by
  refine ⟨fun ht => ?_, rfl⟩
  have hl : 0 < t.length := List.length_pos_iff.2 ht
  unfold wrapper hook
  dsimp only
  rw [if_neg (by omega), if_neg (by omega), Nat.add_sub_cancel]
  by_cases h : t.length ≥ maxLine + 1
  · rw [if_pos h, if_pos (by rw [List.length_append, List.length_take]; simp; omega),
      List.take_append_of_le_length (by rw [List.length_take]; omega), List.take_take, Nat.min_self]
    rfl
  · rw [if_neg h, if_pos (by rw [List.length_append, List.length_take]; simp; omega),
      List.take_append_of_le_length (by rw [List.length_take]; omega), List.take_take]
    rw [Nat.min_eq_left (by omega), List.take_of_length_le (Nat.le_refl _), List.take_of_length_le (by omega)]
    rfl

/-- **C109 (ESP-IDF's log, false)**: "ignore empty lines" has no effect: such a line is saved. -/
theorem C109_false_hook_empty (maxLine : Nat) (h : 0 < maxLine) : wrapper maxLine [10] = some (some ⟨1, [10]⟩, [10]) := by
  rw [(C109_hook_partial maxLine [10]).1 (by simp), List.take_of_length_le (by simp; omega)]

/-- **C109 (ESP-IDF's log, false)**: an error is saved as a message with level info. -/
theorem C109_false_hook_level (maxLine : Nat) (c : Cfg) (hc : 1 ≤ c.shown) (ts t : Bytes) :
    ∃ text, (wrapper maxLine (log .espIdf c ts 3 t)).map (·.1) = some (some ⟨1, text⟩) := by
  refine ⟨(log .espIdf c ts 3 t).take maxLine, ?_⟩
  rw [(C109_hook_partial maxLine _).1 (by
    rw [log_eq ts (by decide) (show Enabled .espIdf c 3 by unfold Enabled; simp only; omega)]
    intro hx
    have := congrArg List.length hx
    simp [lineEnd] at this)]
  rfl

/-- **C109 (ESP-IDF's log, false)**: the result is never 0, which would be the result for success. -/
theorem C109_false_hook_result (maxLine : Nat) (t : Bytes) : ∃ rv s, hook maxLine t = some (rv, s) ∧ rv ≠ 0 := by
  by_cases ht : t = []
  · subst ht; exact ⟨-1, none, rfl, by decide⟩
  · have h := (C109_hook_partial maxLine t).1 ht
    have hl : 0 < t.length := List.length_pos_iff.2 ht
    unfold wrapper at h
    obtain ⟨r, h1, h2⟩ := Option.map_eq_some_iff.1 h
    refine ⟨r.1, r.2, h1, ?_⟩
    unfold hook at h1
    dsimp only at h1
    rw [if_neg (by omega), if_neg (by omega)] at h1
    by_cases hx : (if t.length ≥ maxLine + 1 then maxLine + 1 - 1 else t.length) ≤
        (List.take (maxLine + 1 - 1) t ++ [0]).length
    · rw [if_pos hx] at h1
      cases h1
      show (t.length : Int) ≠ 0
      omega
    · rw [if_neg hx] at h1; cases h1

end Mflt.Props
