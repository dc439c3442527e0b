import Verif.Lemmas.Shell

/-! # Property C51: the demo shell -/

namespace Mflt.Props

open Shell
open Spec.Shell (Eol text keys key edit typed LineOk Convention endLine)

/-- What the state of the shell stands for. -/
structure ShellRel (c : Config) (s : State) (t : Spec.Shell.State) : Prop where
  booted : s.booted = true
  size : s.rxSize = t.line.length
  room : t.line.length < c.size
  buf : ∃ tail, s.buf = t.line ++ tail
  len : s.buf.length = c.size
  eol : s.eolIgnore = match t.eol with | .open => 0 | .cr => 10 | .lf => 13
  clean : 8 ∉ t.line ∧ 10 ∉ t.line

theorem set_line {c : Config} {s : State} {t : Spec.Shell.State} (h : ShellRel c s t) (ch : UInt8) :
    ∃ tail, s.buf.set s.rxSize ch = t.line ++ ch :: tail := by
  obtain ⟨tail, ht⟩ := h.buf
  have hl := h.len
  have hr := h.room
  rw [ht, List.length_append] at hl
  cases tail with
  | nil => simp at hl; omega
  | cons a tail =>
    refine ⟨tail, ?_⟩
    rw [ht, h.size, set_append]
    simp

/-- Processing after a character has been stored. -/
theorem process_eq {c : Config} {s : State} {l : Bytes} {ch : UInt8} {tail : Bytes}
    (hb : s.buf = l ++ ch :: tail) (hr : s.rxSize = l.length + 1) (h8 : 8 ∉ l) (h10 : 10 ∉ l)
    (hsz : s.buf.length = c.size) :
    process c s = if ch = 10 ∨ l.length + 1 = c.size then
        some (endLine c l (l.length + 1 == c.size),
          { s with buf := List.replicate c.size 0, rxSize := 0 })
      else some ([], s) := by
  have hle : l.length + 1 ≤ c.size := by
    rw [← hsz, hb, List.length_append, List.length_cons]; omega
  unfold process
  rw [hr, hb, Nat.add_sub_cancel, get_append]
  dsimp only
  by_cases hc : ch = 10 ∨ l.length + 1 = c.size
  · rw [if_pos hc, if_neg (by
      rintro ⟨h1, h2⟩
      rcases hc with hc | hc
      · exact h1 hc
      · omega)]
    obtain ⟨buf, argv, h1, h2⟩ := args_eq l ch tail h10
    rw [h1]
    dsimp only
    rw [h2]
    dsimp only
    rw [dispatch_eq c l h8 h10]
    have hp : echoStr prompt = text Spec.Shell.prompt := by decide +kernel
    have he : echo 10 = text [13, 10] := by decide
    rw [hp, he]
    unfold endLine
    congr 2
    by_cases hf : l.length + 1 = c.size
    · simp [hf]
    · simp [hf]
  · simp only [not_or] at hc
    rw [if_pos ⟨hc.1, by omega⟩, if_neg (by simp [hc])]

theorem reset_rel {c : Config} {s : State} {e : Eol} (hb : s.booted = true)
    (he : s.eolIgnore = match e with | .open => 0 | .cr => 10 | .lf => 13) (h : 0 < c.size) :
    ShellRel c { s with buf := List.replicate c.size 0, rxSize := 0 } { line := [], eol := e } :=
  ⟨hb, rfl, h, ⟨_, rfl⟩, by simp, he, by simp, by simp⟩

/-- Storing a character that is no backspace. -/
theorem store_rel {c : Config} {s : State} {t : Spec.Shell.State} (h : ShellRel c s t) (ch : UInt8)
    (e : Eol) (ign : UInt8) (he : ign = match e with | .open => 0 | .cr => 10 | .lf => 13)
    (h8 : ch ≠ 8) :
    ∃ s', process c { s with rxSize := s.rxSize + 1, buf := s.buf.set s.rxSize ch, eolIgnore := ign } =
        some ((if ch = 10 ∨ t.line.length + 1 = c.size then
          endLine c t.line (t.line.length + 1 == c.size) else []), s') ∧
      ShellRel c s' { line := if ch = 10 ∨ t.line.length + 1 = c.size then [] else t.line ++ [ch]
                      eol := e } := by
  obtain ⟨tail, ht⟩ := set_line h ch
  have hlen : (s.buf.set s.rxSize ch).length = c.size := by simp [h.len]
  rw [process_eq (l := t.line) (ch := ch) (tail := tail) ht (by rw [h.size]) h.clean.1 h.clean.2 hlen]
  have hr := h.room
  by_cases hc : ch = 10 ∨ t.line.length + 1 = c.size
  · rw [if_pos hc, if_pos hc, if_pos hc]
    exact ⟨_, rfl, reset_rel h.booted he (by omega)⟩
  · rw [if_neg hc, if_neg hc, if_neg hc]
    simp only [not_or] at hc
    refine ⟨_, rfl, ⟨h.booted, by simp [h.size], by simp; omega, ⟨tail, by simp [ht]⟩, hlen, he, ?_⟩⟩
    simp only [List.mem_append, List.mem_singleton, not_or]
    exact ⟨⟨h.clean.1, Ne.symm h8⟩, h.clean.2, Ne.symm hc.1⟩

theorem receive_store {c : Config} {s : State} {t : Spec.Shell.State} (h : ShellRel c s t)
    (ch ch' : UInt8) (e : Eol) (ign : UInt8)
    (hsi : shouldIgnore s ch = (false, { s with eolIgnore := ign }))
    (he : ign = match e with | .open => 0 | .cr => 10 | .lf => 13) (h8 : ch ≠ 8)
    (hch : (if ch = 13 then 10 else ch) = ch') :
    ∃ s', receive c s ch =
        some (echo ch' ++ (if ch' = 10 ∨ t.line.length + 1 = c.size then
          endLine c t.line (t.line.length + 1 == c.size) else []), s') ∧
      ShellRel c s' { line := if ch' = 10 ∨ t.line.length + 1 = c.size then [] else t.line ++ [ch']
                      eol := e } := by
  have hr := h.room
  have hfull : ¬ c.size ≤ s.rxSize := by rw [h.size]; omega
  have hin : s.rxSize < s.buf.length := by rw [h.len, h.size]; exact hr
  have h8' : ch' ≠ 8 := by
    rw [← hch]
    split
    · decide
    · exact h8
  obtain ⟨s', h1, h2⟩ := store_rel h ch' e ign he h8'
  refine ⟨s', ?_, h2⟩
  unfold receive
  rw [hsi]
  dsimp only
  rw [if_neg (by
      rintro (h3 | h3 | h3)
      · cases h3
      · exact hfull h3
      · rw [h.booted] at h3; cases h3), if_neg (fun h3 => h8 h3.1), if_neg h8, if_pos hin, hch, h1]

theorem receive_rel {c : Config} {s : State} {t : Spec.Shell.State} (h : ShellRel c s t) (ch : UInt8) :
    ∃ s', receive c s ch = some ((key c t ch).1, s') ∧ ShellRel c s' (key c t ch).2 := by
  have hr := h.room
  have hfull : ¬ c.size ≤ s.rxSize := by rw [h.size]; omega
  have he := h.eol
  have hecho : echo 10 = text [13, 10] := by decide
  unfold key
  by_cases h13 : ch = 13
  · subst h13
    rw [if_pos rfl]
    cases hE : t.eol with
    | lf =>
      rw [hE] at he
      exact ⟨s, by simp [receive, shouldIgnore, he], by simpa using h⟩
    | «open» =>
      rw [hE] at he
      obtain ⟨s', h1, h2⟩ := receive_store h 13 10 .cr 10 (by simp [shouldIgnore, he]) rfl (by decide) rfl
      rw [if_pos (Or.inl rfl)] at h1 h2
      rw [if_neg (by simp)]
      exact ⟨s', by rw [h1, hecho]; rfl, h2⟩
    | cr =>
      rw [hE] at he
      obtain ⟨s', h1, h2⟩ := receive_store h 13 10 .cr 10 (by
        obtain ⟨a, b, c, d⟩ := s
        simp only at he
        subst he
        simp [shouldIgnore]) rfl (by decide) rfl
      rw [if_pos (Or.inl rfl)] at h1 h2
      rw [if_neg (by simp)]
      exact ⟨s', by rw [h1, hecho]; rfl, h2⟩
  rw [if_neg h13]
  by_cases h10 : ch = 10
  · subst h10
    rw [if_pos rfl]
    cases hE : t.eol with
    | cr =>
      rw [hE] at he
      exact ⟨s, by simp [receive, shouldIgnore, he], by simpa using h⟩
    | «open» =>
      rw [hE] at he
      obtain ⟨s', h1, h2⟩ := receive_store h 10 10 .lf 13 (by simp [shouldIgnore, he]) rfl (by decide) rfl
      rw [if_pos (Or.inl rfl)] at h1 h2
      rw [if_neg (by simp)]
      exact ⟨s', by rw [h1, hecho]; rfl, h2⟩
    | lf =>
      rw [hE] at he
      obtain ⟨s', h1, h2⟩ := receive_store h 10 10 .lf 13 (by
        obtain ⟨a, b, c, d⟩ := s
        simp only at he
        subst he
        simp [shouldIgnore]) rfl (by decide) rfl
      rw [if_pos (Or.inl rfl)] at h1 h2
      rw [if_neg (by simp)]
      exact ⟨s', by rw [h1, hecho]; rfl, h2⟩
  rw [if_neg h10]
  have hsi : shouldIgnore s ch = (false, s) := by
    unfold shouldIgnore
    cases hE : t.eol <;> rw [hE] at he <;> simp [he, h13, h10]
  by_cases h8 : ch = 8
  · subst h8
    rw [if_pos rfl]
    by_cases hl : t.line = []
    · rw [if_pos hl]
      refine ⟨s, ?_, h⟩
      have : s.rxSize = 0 := by rw [h.size, hl]; rfl
      unfold receive
      rw [hsi]
      simp [this]
    · rw [if_neg hl]
      have hpos : 0 < t.line.length := List.length_pos_iff.mpr hl
      refine ⟨{ s with rxSize := s.rxSize - 1, buf := s.buf.set (s.rxSize - 1) 0 }, ?_, ?_⟩
      · unfold receive
        rw [hsi]
        dsimp only
        rw [if_neg (by
            rintro (h3 | h3 | h3)
            · cases h3
            · exact hfull h3
            · rw [h.booted] at h3; cases h3), if_neg (fun h3 => by rw [h.size] at h3; omega),
          if_pos rfl, if_pos (by rw [h.size, h.len]; omega)]
        rfl
      · obtain ⟨tail, ht⟩ := h.buf
        have hd := List.dropLast_concat_getLast hl
        have hmem : ∀ x ∈ t.line.dropLast, x ∈ t.line := fun x hx => (List.dropLast_sublist _).mem hx
        refine ⟨h.booted, by simp [h.size], by simp; omega, ⟨0 :: tail, ?_⟩, by simp [h.len], h.eol,
          fun hx => h.clean.1 (hmem _ hx), fun hx => h.clean.2 (hmem _ hx)⟩
        dsimp only
        rw [ht, h.size]
        have hsz : t.line.length - 1 = t.line.dropLast.length := by simp
        rw [hsz]
        conv => lhs; rw [← hd]
        rw [List.append_assoc, List.singleton_append, List.dropLast_append_cons]
        rw [List.dropLast_singleton, List.append_nil, set_append]
        simp
  · rw [if_neg h8]
    obtain ⟨s', h1, h2⟩ := receive_store h ch ch t.eol s.eolIgnore hsi he h8 (if_neg h13)
    have hec : echo ch = text [ch] := by
      unfold echo; rw [if_neg h10, if_neg h8]; rfl
    rw [hec] at h1
    by_cases hlt : t.line.length + 1 < c.size
    · rw [if_pos hlt]
      rw [if_neg (by rintro (h3 | h3); exact h10 h3; omega)] at h1 h2
      exact ⟨s', by simpa using h1, h2⟩
    · rw [if_neg hlt]
      have heq : t.line.length + 1 = c.size := by omega
      rw [if_pos (Or.inr heq)] at h1 h2
      refine ⟨s', ?_, h2⟩
      rw [h1, heq, beq_self_eq_true]

theorem receiveAll_rel {c : Config} (chs : Bytes) : ∀ {s : State} {t : Spec.Shell.State},
    ShellRel c s t → ∃ s', receiveAll c s chs = some ((keys c t chs).1, s') ∧
      ShellRel c s' (keys c t chs).2 := by
  induction chs with
  | nil => intro s t h; exact ⟨s, rfl, h⟩
  | cons ch chs ih =>
    intro s t h
    obtain ⟨s1, h1, h2⟩ := receive_rel h ch
    obtain ⟨s2, h3, h4⟩ := ih h2
    refine ⟨s2, ?_, h4⟩
    rw [receiveAll, h1]
    dsimp only
    rw [h3]
    rfl

theorem shell_boot_rel (c : Config) (hc : 0 < c.size) (s : State) :
    ShellRel c (boot c s).2 { line := [], eol := .open } :=
  ⟨rfl, rfl, hc, ⟨_, rfl⟩, by simp [boot], rfl, by simp, by simp⟩

/-- **C51.** For every character stream after boot: no access leaves the receive buffer, its fill
level stays below its size, and everything the shell does (echo, commands run with their arguments,
messages, prompts) is what the specification of the line editor says. -/
theorem C51_stream (c : Config) (hc : 0 < c.size) (s : State) (chs : Bytes) :
    ∃ s', receiveAll c (boot c s).2 chs =
        some ((keys c { line := [], eol := .open } chs).1, s') ∧
      s'.rxSize < c.size ∧ s'.buf.length = c.size ∧
      s'.buf.take s'.rxSize = (keys c { line := [], eol := .open } chs).2.line := by
  obtain ⟨s', h1, h2⟩ := receiveAll_rel chs (shell_boot_rel c hc s)
  refine ⟨s', h1, by rw [h2.size]; exact h2.room, h2.len, ?_⟩
  obtain ⟨tail, ht⟩ := h2.buf
  rw [ht, h2.size, List.take_left]

/-- Booting greets with a prompt on a new line. -/
theorem C51_boot (c : Config) (s : State) :
    (boot c s).1 = text ([13, 10] ++ Spec.Shell.prompt) := by
  show echoStr (10 :: prompt) = _
  decide +kernel

/-- Before boot the shell does nothing, whatever it receives, and keeps in bounds. -/
theorem C51_not_booted (c : Config) (chs : Bytes) :
    ∀ s : State, s.booted = false → ∃ s', receiveAll c s chs = some ([], s') ∧ s'.booted = false := by
  induction chs with
  | nil => intro s h; exact ⟨s, rfl, h⟩
  | cons ch chs ih =>
    intro s h
    have hb : (shouldIgnore s ch).2.booted = false := by
      unfold shouldIgnore
      split
      · exact h
      · split
        · exact h
        · split <;> exact h
    have hrec : receive c s ch = some ([], (shouldIgnore s ch).2) := by
      unfold receive
      cases hs : shouldIgnore s ch with
      | mk i s' =>
        rw [hs] at hb
        dsimp only at hb ⊢
        rw [if_pos (Or.inr (Or.inr hb))]
    obtain ⟨s', h1, h2⟩ := ih _ hb
    refine ⟨s', ?_, h2⟩
    rw [receiveAll, hrec]
    dsimp only
    rw [h1]
    rfl

/-! ## Whole lines -/

theorem keys_cons (c : Config) (t : Spec.Shell.State) (ch : UInt8) (chs : Bytes) :
    keys c t (ch :: chs) =
      ((key c t ch).1 ++ (keys c (key c t ch).2 chs).1, (keys c (key c t ch).2 chs).2) := rfl

theorem keys_nil (c : Config) (t : Spec.Shell.State) : keys c t [] = ([], t) := rfl

theorem keys_append (c : Config) (a b : Bytes) : ∀ t : Spec.Shell.State,
    keys c t (a ++ b) = ((keys c t a).1 ++ (keys c (keys c t a).2 b).1, (keys c (keys c t a).2 b).2) := by
  induction a with
  | nil => intro t; rfl
  | cons ch a ih =>
    intro t
    rw [List.cons_append, keys, keys]
    dsimp only
    rw [ih, List.append_assoc]

theorem edit_append (l : Bytes) (ch : UInt8) :
    edit (l ++ [ch]) = if ch = 8 then (edit l).dropLast else edit l ++ [ch] := by
  simp [edit]

theorem flatMap_congr' {α β : Type} {l : List α} {f g : α → List β} (h : ∀ a ∈ l, f a = g a) :
    l.flatMap f = l.flatMap g := by
  induction l with
  | nil => rfl
  | cons a l ih =>
    rw [List.flatMap_cons, List.flatMap_cons, h a (by simp), ih fun b hb => h b (by simp [hb])]

theorem typed_append (l : Bytes) (ch : UInt8) :
    typed (l ++ [ch]) = typed l ++
      (if ch = 8 then (if edit l = [] then [] else text [8, 32, 8]) else text [ch]) := by
  unfold typed
  rw [List.length_append, List.length_singleton, List.range_succ, List.flatMap_append]
  congr 1
  · apply flatMap_congr'
    intro n hn
    have hn := List.mem_range.mp hn
    rw [List.getElem?_append_left hn, List.take_append_of_le_length (by omega)]
  · simp [List.flatMap_cons]

theorem keys_line (c : Config) (e : Eol) (l : Bytes) (h : LineOk c.size l) (n : Nat) :
    keys c { line := [], eol := e } (l.take n) = (typed (l.take n), { line := edit (l.take n), eol := e }) := by
  induction n with
  | zero => rfl
  | succ n ih =>
    rw [List.take_succ]
    cases hg : l[n]? with
    | none => simpa using ih
    | some ch =>
      have hm : ch ∈ l := List.mem_of_getElem? hg
      have h13 : ch ≠ 13 := fun hx => h.1 (hx ▸ hm)
      have h10 : ch ≠ 10 := fun hx => h.2.1 (hx ▸ hm)
      have hlen := h.2.2 (n + 1)
      rw [List.take_succ, hg] at hlen
      simp only [Option.toList_some] at hlen ⊢
      rw [keys_append, ih, typed_append, edit_append]
      rw [edit_append] at hlen
      dsimp only
      rw [keys_cons, keys_nil]
      dsimp only
      unfold key
      rw [if_neg h13, if_neg h10]
      by_cases h8 : ch = 8
      · subst h8
        rw [if_pos rfl, if_pos rfl]
        by_cases hl : edit (l.take n) = []
        · simp [hl]
        · simp [hl]
      · rw [if_neg h8] at hlen
        rw [if_neg h8, if_neg h8, if_neg h8]
        rw [List.length_append, List.length_singleton] at hlen
        rw [if_pos hlen]
        simp

/-- **C51 (partial).** Lines typed with backspaces and ended in any one of the four end-of-line
conventions: as long as the edited line stays shorter than the buffer, every line is entered exactly
once, with its words as arguments, whatever convention is used. Missing: longer lines, see
`C51_false_long_line`. -/
theorem C51_lines_partial (c : Config) (hc : 0 < c.size) (s : State) (eol : Bytes)
    (he : Convention eol) (lines : List Bytes) (hl : ∀ l ∈ lines, LineOk c.size l) :
    ∃ s', receiveAll c (boot c s).2 (lines.flatMap (· ++ eol)) =
      some (lines.flatMap (fun l => typed l ++ text [13, 10] ++
        endLine c (edit l) ((edit l).length + 1 == c.size)), s') := by
  obtain ⟨s', h1, -, -⟩ := C51_stream c hc s (lines.flatMap (· ++ eol))
  refine ⟨s', ?_⟩
  rw [h1]
  have hkey : ∀ (m m' : Eol) (x : UInt8), (x = 13 ∧ m ≠ .lf ∧ m' = .cr) ∨ (x = 10 ∧ m ≠ .cr ∧ m' = .lf) →
      ∀ l, key c { line := l, eol := m } x =
        (text [13, 10] ++ endLine c l (l.length + 1 == c.size), { line := [], eol := m' }) := by
    rintro m m' x (⟨rfl, h1, rfl⟩ | ⟨rfl, h1, rfl⟩) l
    · unfold key
      rw [if_pos rfl, if_neg h1]; rfl
    · unfold key
      rw [if_neg (by decide), if_pos rfl, if_neg h1]; rfl
  have hlf : ∀ l, key c { line := l, eol := .cr } 10 = ([], { line := l, eol := .cr }) := by
    intro l; unfold key; rw [if_neg (by decide), if_pos rfl, if_pos rfl]
  have hcr : ∀ l, key c { line := l, eol := .lf } 13 = ([], { line := l, eol := .lf }) := by
    intro l; unfold key; rw [if_pos rfl, if_pos rfl]
  have hend : ∃ m', m' ≠ .open ∧ ∀ m, (m = .open ∨ m = m') → ∀ l, keys c { line := l, eol := m } eol =
      (text [13, 10] ++ endLine c l (l.length + 1 == c.size), { line := [], eol := m' }) := by
    rcases he with rfl | rfl | rfl | rfl
    · refine ⟨.cr, by decide, fun m hm l => ?_⟩
      rw [keys_cons, keys_nil, hkey m .cr 13 (Or.inl ⟨rfl, by rcases hm with rfl | rfl <;> decide, rfl⟩)]
      simp
    · refine ⟨.lf, by decide, fun m hm l => ?_⟩
      rw [keys_cons, keys_nil, hkey m .lf 10 (Or.inr ⟨rfl, by rcases hm with rfl | rfl <;> decide, rfl⟩)]
      simp
    · refine ⟨.cr, by decide, fun m hm l => ?_⟩
      rw [keys_cons, keys_cons, keys_nil, hkey m .cr 13 (Or.inl ⟨rfl, by rcases hm with rfl | rfl <;> decide, rfl⟩)]
      simp [hlf]
    · refine ⟨.lf, by decide, fun m hm l => ?_⟩
      rw [keys_cons, keys_cons, keys_nil, hkey m .lf 10 (Or.inr ⟨rfl, by rcases hm with rfl | rfl <;> decide, rfl⟩)]
      simp [hcr]
  obtain ⟨m', -, hend⟩ := hend
  congr 2
  have : ∀ m, (m = .open ∨ m = m') → (keys c { line := [], eol := m } (lines.flatMap (· ++ eol))).1 =
      lines.flatMap (fun l => typed l ++ text [13, 10] ++
        endLine c (edit l) ((edit l).length + 1 == c.size)) := by
    clear h1
    induction lines with
    | nil => intro m _; rfl
    | cons l lines ih =>
      intro m hm
      have hline := keys_line c m l (hl l (by simp)) l.length
      rw [List.take_length] at hline
      rw [List.flatMap_cons, List.flatMap_cons, keys_append, keys_append, hline]
      dsimp only
      rw [hend m hm]
      dsimp only
      rw [ih (fun x hx => hl x (by simp [hx])) m' (Or.inr rfl)]
      simp [List.append_assoc]
  exact this .open (Or.inl rfl)

/-- The commands run. -/
def runs (out : List Ev) : List (Nat × List Bytes) :=
  out.filterMap fun | .run k args => some (k, args) | .send _ => none

/-- At most sixteen arguments are ever passed, for every character stream. -/
theorem C51_max_args (c : Config) (hc : 0 < c.size) (s s' : State) (chs : Bytes) (out : List Ev)
    (h : receiveAll c (boot c s).2 chs = some (out, s')) (k : Nat) (args : List Bytes)
    (hr : Ev.run k args ∈ out) : 1 ≤ args.length ∧ args.length ≤ 16 ∧
      c.commands[k]? = args[0]? := by
  obtain ⟨s2, h1, -⟩ := C51_stream c hc s chs
  rw [h] at h1
  obtain ⟨rfl, -⟩ : out = _ ∧ s' = s2 := by
    injection h1 with h1; injection h1 with h1 h2; exact ⟨h1, h2⟩
  have htext : ∀ b : Bytes, Ev.run k args ∉ text b := by
    intro b hb; simp [text] at hb
  have hend : ∀ l f, Ev.run k args ∈ endLine c l f → 1 ≤ args.length ∧ args.length ≤ 16 ∧
      c.commands[k]? = args[0]? := by
    intro l f hm
    unfold endLine at hm
    simp only [List.mem_append, htext, or_false] at hm
    rcases hm with hm | hm
    · split at hm
      · exact absurd hm (htext _)
      · simp at hm
    · unfold Spec.Shell.enter at hm
      cases ha : Spec.Shell.arguments l with
      | nil => rw [ha] at hm; simp at hm
      | cons name rest =>
        rw [ha] at hm
        dsimp only at hm
        cases hk : Spec.Shell.lookup c.commands name with
        | none => rw [hk] at hm; exact absurd hm (htext _)
        | some j =>
          rw [hk] at hm
          simp only [List.mem_singleton, Ev.run.injEq] at hm
          obtain ⟨rfl, rfl⟩ := hm
          have hl := congrArg List.length ha
          have hle : (Spec.Shell.arguments l).length ≤ 16 := by
            unfold Spec.Shell.arguments; rw [List.length_map, List.length_take]; omega
          refine ⟨by simp, by omega, ?_⟩
          unfold Spec.Shell.lookup at hk
          obtain ⟨hlt, hp, -⟩ := List.findIdx?_eq_some_iff_getElem.mp hk
          rw [List.getElem?_eq_getElem hlt]
          simpa using hp
  clear h h1
  have : ∀ t, Ev.run k args ∈ (keys c t chs).1 → 1 ≤ args.length ∧ args.length ≤ 16 ∧
      c.commands[k]? = args[0]? := by
    clear hr
    induction chs with
    | nil => intro t h; simp [keys] at h
    | cons ch chs ih =>
      intro t h
      rw [keys] at h
      dsimp only at h
      rcases List.mem_append.mp h with h | h
      · unfold key Spec.Shell.newline at h
        split at h
        · split at h
          · simp at h
          · rcases List.mem_append.mp h with h | h
            · exact absurd h (htext _)
            · exact hend _ _ h
        · split at h
          · split at h
            · simp at h
            · rcases List.mem_append.mp h with h | h
              · exact absurd h (htext _)
              · exact hend _ _ h
          · split at h
            · split at h
              · simp at h
              · exact absurd h (htext _)
            · split at h
              · exact absurd h (htext _)
              · rcases List.mem_append.mp h with h | h
                · exact absurd h (htext _)
                · exact hend _ _ h
      · exact ih _ h
  exact this _ hr

/-- A small table: "a" and "help". -/
def shellCfg : Config := { size := 64, commands := [[97], [104, 101, 108, 112]] }

/-- Non-vacuity: "help x<backspace> yz" in CRLF convention, then "a". -/
example : (receiveAll shellCfg (boot shellCfg (State.init shellCfg)).2
      ([104, 101, 108, 112, 32, 120, 8, 32, 121, 122] ++ [13, 10] ++ [97] ++ [13, 10])).map
        (fun p => runs p.1) = some [(1, [[104, 101, 108, 112], [121, 122]]), (0, [[97]])] := by
  decide +kernel

example : LineOk 64 [104, 101, 108, 112, 32, 120, 8, 32, 121, 122] := by
  refine ⟨by decide, by decide, fun n => ?_⟩
  rcases Nat.lt_or_ge n 10 with h | h
  · have : ∀ m < 10, (edit (([104, 101, 108, 112, 32, 120, 8, 32, 121, 122] : Bytes).take m)).length < 64 := by
      decide
    exact this n h
  · rw [List.take_of_length_le (by simpa using h)]
    decide

/-- **C51 is false for long lines.** One line "help", 60 spaces, "help" ended by one carriage return:
the command runs twice. -/
theorem C51_false_long_line :
    (receiveAll shellCfg (boot shellCfg (State.init shellCfg)).2
      ([104, 101, 108, 112] ++ List.replicate 60 32 ++ [104, 101, 108, 112] ++ [13])).map
        (fun p => runs p.1) =
      some [(1, [[104, 101, 108, 112]]), (1, [[104, 101, 108, 112]])] := by
  decide +kernel

/-- **C51 is false for lines that fill the buffer.** 63 spaces and "a" are 64 characters: the last
one is lost and no command runs; the "a" command would. -/
theorem C51_false_last_character :
    (receiveAll shellCfg (boot shellCfg (State.init shellCfg)).2
      (List.replicate 63 32 ++ [97] ++ [13])).map (fun p => runs p.1) = some [] := by
  decide +kernel

end Mflt.Props
