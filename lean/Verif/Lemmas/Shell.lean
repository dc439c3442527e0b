import Verif.Spec.Shell

/-! # Demo shell: lemmas -/

namespace Mflt.Shell

open Spec.Shell (split words cString arguments lookup text)

theorem text_append (a b : Bytes) : text (a ++ b) = text a ++ text b := by simp [text]

theorem echoStr_text (s : Bytes) (h8 : 8 ∉ s) (h10 : 10 ∉ s) : echoStr s = text s := by
  unfold echoStr text
  induction s with
  | nil => rfl
  | cons c s ih =>
    simp only [List.mem_cons, not_or] at h8 h10
    rw [List.flatMap_cons, List.map_cons, ih h8.2 h10.2]
    unfold echo
    rw [if_neg (Ne.symm h10.1), if_neg (Ne.symm h8.1)]
    rfl

theorem find_eq (cs : List Bytes) (n : Bytes) : find cs n = lookup cs n := by
  unfold lookup
  induction cs with
  | nil => rfl
  | cons c cs ih =>
    rw [find, List.findIdx?_cons, ih]
    by_cases h : c = n
    · simp [h]
    · simp [h]

/-! ### Words -/

theorem split_ne_nil (l : Bytes) : split l ≠ [] := by
  induction l with
  | nil => simp [split]
  | cons c l ih =>
    unfold split
    split
    · simp
    · split <;> simp

theorem split_append (w r : Bytes) (h : 32 ∉ w) :
    split (w ++ r) = match split r with | [] => [w] | p :: ps => (w ++ p) :: ps := by
  induction w with
  | nil =>
    cases hs : split r with
    | nil => exact absurd hs (split_ne_nil r)
    | cons p ps => simp [hs]
  | cons c w ih =>
    simp only [List.mem_cons, not_or] at h
    rw [List.cons_append, split, if_neg (Ne.symm h.1), ih h.2]
    cases hs : split r with
    | nil => exact absurd hs (split_ne_nil r)
    | cons p ps => simp

theorem words_end (w : Bytes) (h : 32 ∉ w) : words w = if w = [] then [] else [w] := by
  have := split_append w [] h
  rw [List.append_nil] at this
  unfold words
  rw [this]
  simp only [split, List.append_nil]
  by_cases hw : w = []
  · simp [hw]
  · simp [hw]

theorem words_space (w r : Bytes) (h : 32 ∉ w) :
    words (w ++ 32 :: r) = (if w = [] then [] else [w]) ++ words r := by
  unfold words
  rw [split_append _ _ h]
  have h2 : split (32 :: r) = [] :: split r := by rw [split, if_pos rfl]
  rw [h2]
  simp only [List.append_nil]
  by_cases hw : w = []
  · simp [hw]
  · simp [hw]

/-! ### Strings in the buffer -/

theorem strAt_append {a b : Bytes} {i : Nat} {s : Bytes} (h : strAt a i = some s) :
    strAt (a ++ b) i = some s := by
  unfold strAt at *
  by_cases hm : (0 : UInt8) ∈ a.drop i
  · rw [if_pos hm] at h
    have hi : i ≤ a.length := by
      rcases Nat.le_total i a.length with h1 | h1
      · exact h1
      · rw [List.drop_eq_nil_of_le h1] at hm; simp at hm
    rw [List.drop_append_of_le_length hi, if_pos (List.mem_append_left _ hm)]
    rw [← h]
    congr 1
    generalize a.drop i = l at hm
    clear h hi
    induction l with
    | nil => simp at hm
    | cons c l ih =>
      rw [List.cons_append, List.takeWhile_cons, List.takeWhile_cons]
      by_cases hc : c = 0
      · simp [hc]
      · simp only [List.mem_cons, Ne.symm hc, false_or] at hm
        rw [ih hm]
  · rw [if_neg hm] at h; cases h

theorem takeWhile_nul (w r : Bytes) :
    (w ++ 0 :: r).takeWhile (fun c : UInt8 => decide (c ≠ 0)) = cString w := by
  unfold cString
  induction w with
  | nil => simp
  | cons c w ih =>
    rw [List.cons_append, List.takeWhile_cons, List.takeWhile_cons, ih]

theorem strAt_word {d w r : Bytes} : strAt (d ++ w ++ 0 :: r) d.length = some (cString w) := by
  unfold strAt
  rw [List.append_assoc, List.drop_left, if_pos (by simp), takeWhile_nul]

theorem strsAt_eq {buf : Bytes} {is : List Nat} {ss : List Bytes}
    (h : is.map (strAt buf) = ss.map some) : strsAt buf is = some ss := by
  induction is generalizing ss with
  | nil =>
    cases ss with
    | nil => rfl
    | cons a b => simp at h
  | cons i is ih =>
    cases ss with
    | nil => simp at h
    | cons s ss =>
      simp only [List.map_cons, List.cons.injEq] at h
      rw [strsAt, h.1, ih h.2]

/-- What `next_arg` points to: the word read so far. -/
def Next (done w : Bytes) (next : Option Nat) : Prop :=
  (next = none ∧ w = []) ∨
    (w ≠ [] ∧ 32 ∉ w ∧ ∃ d, done = d ++ w ∧ next = some d.length)

theorem Next.noSpace {done w : Bytes} {next : Option Nat} (h : Next done w next) : 32 ∉ w := by
  rcases h with ⟨-, rfl⟩ | ⟨-, h, -⟩
  · simp
  · exact h

theorem get_append (a : Bytes) (c : UInt8) (b : Bytes) : (a ++ c :: b)[a.length]? = some c := by
  rw [List.getElem?_append_right (Nat.le_refl _)]; simp

theorem set_append (a : Bytes) (c x : UInt8) (b : Bytes) :
    (a ++ c :: b).set a.length x = (a ++ [x]) ++ b := by
  rw [List.set_append_right _ _ (Nat.le_refl _)]; simp

theorem map_strAt_append {a b : Bytes} {is : List Nat} {ss : List Bytes}
    (h : is.map (strAt a) = ss.map some) : is.map (strAt (a ++ b)) = ss.map some := by
  induction is generalizing ss with
  | nil => exact h
  | cons i is ih =>
    cases ss with
    | nil => simp at h
    | cons s ss =>
      simp only [List.map_cons, List.cons.injEq] at h ⊢
      exact ⟨strAt_append h.1, ih h.2⟩

/-- Terminating the word read so far. -/
theorem end_word {done w : Bytes} {next : Option Nat} {argv : List Nat} {args : List Bytes}
    (hn : Next done w next) (ha : argv.map (strAt done) = args.map some) :
    (argv ++ next.toList).map (strAt (done ++ [0])) =
      (args ++ (if w = [] then [] else [w]).map cString).map some := by
  rw [List.map_append, List.map_append, map_strAt_append ha]
  congr 1
  rcases hn with ⟨rfl, rfl⟩ | ⟨hw, -, d, rfl, rfl⟩
  · rfl
  · rw [if_neg hw]
    simp only [Option.toList_some, List.map_cons, List.map_nil]
    rw [strAt_word (r := [])]

theorem argLoop_succ (rx f i : Nat) (buf : Bytes) (next : Option Nat) (argv : List Nat) :
    argLoop rx (f + 1) i buf next argv =
      if i < rx ∧ argv.length < 16 then
        match buf[i]? with
        | none => none
        | some c =>
          if c = 32 ∨ c = 10 ∨ i = rx - 1 then
            match next with
            | some a => argLoop rx f (i + 1) (buf.set i 0) none (argv ++ [a])
            | none => argLoop rx f (i + 1) (buf.set i 0) none argv
          else
            match next with
            | some a => argLoop rx f (i + 1) buf (some a) argv
            | none => argLoop rx f (i + 1) buf (some i) argv
      else some (buf, argv) := rfl

theorem argLoop_eq (last : UInt8) (tail : Bytes) (r : Bytes) (h10 : 10 ∉ r) :
    ∀ (done w : Bytes) (next : Option Nat) (argv : List Nat) (args : List Bytes),
      Next done w next → argv.map (strAt done) = args.map some → argv.length ≤ 16 →
      ∃ buf argv', argLoop (done.length + r.length + 1) (r.length + 2) done.length
          (done ++ r ++ last :: tail) next argv = some (buf, argv') ∧
        argv'.map (strAt buf) = ((args ++ (words (w ++ r)).map cString).take 16).map some := by
  induction r with
  | nil =>
    intro done w next argv args hn ha hl
    have hlen : args.length = argv.length := by
      have := congrArg List.length ha; simpa using this.symm
    rw [List.append_nil, List.append_nil, words_end w hn.noSpace]
    by_cases hlt : argv.length < 16
    · refine ⟨(done ++ [0]) ++ tail, argv ++ next.toList, ?_, ?_⟩
      · rw [argLoop_succ, if_pos ⟨by omega, hlt⟩, get_append]
        dsimp only
        rw [if_pos (Or.inr (Or.inr (by simp))), set_append]
        cases next <;> simp [argLoop]
      · rw [map_strAt_append (end_word hn ha)]
        congr 1
        rw [List.take_of_length_le]
        rw [List.length_append, hlen]
        split <;> simp <;> omega
    · refine ⟨done ++ last :: tail, argv, ?_, ?_⟩
      · rw [argLoop_succ, if_neg (fun h => hlt h.2)]
      · rw [map_strAt_append ha, List.take_append_of_le_length (by omega),
          List.take_of_length_le (by omega)]
  | cons c r ih =>
    intro done w next argv args hn ha hl
    simp only [List.mem_cons, not_or] at h10
    have hlen : args.length = argv.length := by
      have := congrArg List.length ha; simpa using this.symm
    by_cases hlt : argv.length < 16
    · have hrx : done.length + (c :: r).length + 1 = (done.length + 1) + r.length + 1 := by
        rw [List.length_cons]; omega
      rw [List.append_assoc, List.cons_append]
      by_cases hc : c = 32
      · subst hc
        obtain ⟨buf, argv', h1, h2⟩ := ih h10.2 (done ++ [0]) [] none (argv ++ next.toList)
          (args ++ (if w = [] then [] else [w]).map cString) (Or.inl ⟨rfl, rfl⟩) (end_word hn ha)
          (by rw [List.length_append]; cases next <;> simp <;> omega)
        refine ⟨buf, argv', ?_, ?_⟩
        · rw [argLoop_succ, if_pos ⟨by omega, hlt⟩, get_append]
          dsimp only
          rw [if_pos (Or.inl rfl), set_append, hrx]
          simp only [List.length_append, List.length_singleton] at h1
          rw [List.append_assoc (done ++ [0])] at h1
          cases next with
          | none => simpa using h1
          | some a => simpa using h1
        · rw [h2, words_space w r hn.noSpace, List.nil_append, List.map_append, List.append_assoc]
      · obtain ⟨buf, argv', h1, h2⟩ := ih h10.2 (done ++ [c]) (w ++ [c])
          (some (next.getD done.length)) argv args
          (by
            right
            refine ⟨by simp, ?_, ?_⟩
            · simp only [List.mem_append, List.mem_singleton, not_or]
              exact ⟨hn.noSpace, Ne.symm hc⟩
            · rcases hn with ⟨rfl, rfl⟩ | ⟨-, -, d, rfl, rfl⟩
              · exact ⟨done, by simp, rfl⟩
              · exact ⟨d, by simp, rfl⟩)
          (map_strAt_append ha) hl
        refine ⟨buf, argv', ?_, ?_⟩
        · rw [argLoop_succ, if_pos ⟨by omega, hlt⟩, get_append]
          dsimp only
          rw [if_neg (by
            rintro (h | h | h)
            · exact hc h
            · exact h10.1 h.symm
            · simp only [List.length_cons] at h; omega), hrx]
          simp only [List.length_append, List.length_singleton] at h1
          rw [List.append_assoc, List.append_assoc, List.singleton_append] at h1
          cases next with
          | none => simpa using h1
          | some a => simpa using h1
        · rw [h2, List.append_assoc, List.singleton_append]
    · refine ⟨done ++ (c :: r) ++ last :: tail, argv, ?_, ?_⟩
      · rw [argLoop_succ, if_neg (fun h => hlt h.2)]
      · rw [List.append_assoc, map_strAt_append ha, List.take_append_of_le_length (by omega),
          List.take_of_length_le (by omega)]

/-- Scanning a line of the buffer. -/
theorem args_eq (l : Bytes) (last : UInt8) (tail : Bytes) (h10 : 10 ∉ l) :
    ∃ buf argv, argLoop (l.length + 1) (l.length + 2) 0 (l ++ last :: tail) none [] =
        some (buf, argv) ∧ strsAt buf argv = some (arguments l) := by
  obtain ⟨buf, argv, h1, h2⟩ := argLoop_eq last tail l h10 [] [] none [] [] (Or.inl ⟨rfl, rfl⟩) rfl
    (by simp)
  refine ⟨buf, argv, by simpa using h1, ?_⟩
  apply strsAt_eq
  rw [h2, List.nil_append, List.nil_append]
  congr 1
  rw [arguments, List.map_take]

theorem mem_words {l w : Bytes} (h : w ∈ words l) : ∀ c ∈ w, c ∈ l := by
  have : ∀ l : Bytes, ∀ w ∈ split l, ∀ c ∈ w, c ∈ l := by
    intro l
    induction l with
    | nil => intro w hw c hc; simp [split] at hw; simp [hw] at hc
    | cons a l ih =>
      intro w hw c hc
      rw [split] at hw
      split at hw
      · rcases List.mem_cons.mp hw with rfl | hw
        · simp at hc
        · exact List.mem_cons_of_mem _ (ih w hw c hc)
      · split at hw
        · rw [List.mem_singleton] at hw
          subst hw
          rw [List.mem_singleton] at hc; simp [hc]
        · rename_i p ps hs
          rcases List.mem_cons.mp hw with rfl | hw
          · rcases List.mem_cons.mp hc with rfl | hc
            · simp
            · exact List.mem_cons_of_mem _ (ih p (by simp [hs]) c hc)
          · exact List.mem_cons_of_mem _ (ih w (by simp [hs, hw]) c hc)
  exact this l w (List.mem_filter.mp h).1

theorem mem_arguments {l w : Bytes} (h : w ∈ arguments l) : ∀ c ∈ w, c ∈ l := by
  obtain ⟨v, hv, rfl⟩ := List.mem_map.mp h
  intro c hc
  exact mem_words (List.mem_of_mem_take hv) c ((List.takeWhile_sublist _).mem hc)

theorem dispatch_eq (c : Config) (l : Bytes) (h8 : 8 ∉ l) (h10 : 10 ∉ l) :
    dispatch c (arguments l) = Spec.Shell.enter c.commands l := by
  unfold Spec.Shell.enter dispatch
  cases ha : arguments l with
  | nil => rfl
  | cons name rest =>
    dsimp only
    rw [find_eq]
    cases lookup c.commands name with
    | some k => rfl
    | none =>
      have hm : name ∈ arguments l := by rw [ha]; simp
      have hn := mem_arguments hm
      dsimp only
      rw [echoStr_text name (fun h => h8 (hn _ h)) (fun h => h10 (hn _ h))]
      have h1 : echoStr unknownText = text Spec.Shell.unknown := by decide +kernel
      have h2 : echo 10 = text [13, 10] := by decide
      have h3 : echoStr hintText = text Spec.Shell.hint ++ text [13, 10] := by decide +kernel
      simp only [text_append, h1, h2, h3, List.append_assoc]

end Mflt.Shell
