import Verif.Model.GdbChunks

/-!
# C128: posting chunks with GDB
-/

namespace Mflt.Props

open Mflt.Spec.GdbChunks Mflt.GdbChunks

namespace GdbChunksAux

theorem findParams_eq (sig : List (Text × Kind)) : ∀ a b : Option Text, findParams sig (a, b) =
    (((ofKind .pointer sig).getLast?).or a, ((ofKind .integer sig).getLast?).or b) := by
  induction sig with
  | nil => intro a b; rfl
  | cons x l ih =>
    intro a b
    obtain ⟨name, k⟩ := x
    cases k with
    | pointer =>
      have e1 : ofKind .pointer ((name, Kind.pointer) :: l) = name :: ofKind .pointer l := rfl
      have e2 : ofKind .integer ((name, Kind.pointer) :: l) = ofKind .integer l := rfl
      rw [e1, e2]
      show findParams l (some name, b) = _
      rw [ih, List.getLast?_cons]
      cases (ofKind .pointer l).getLast? <;> rfl
    | integer =>
      have e1 : ofKind .pointer ((name, Kind.integer) :: l) = ofKind .pointer l := rfl
      have e2 : ofKind .integer ((name, Kind.integer) :: l) = name :: ofKind .integer l := rfl
      rw [e1, e2]
      show findParams l (a, some name) = _
      rw [ih, List.getLast?_cons]
      cases (ofKind .integer l).getLast? <;> rfl
    | other =>
      have e1 : ofKind .pointer ((name, Kind.other) :: l) = ofKind .pointer l := rfl
      have e2 : ofKind .integer ((name, Kind.other) :: l) = ofKind .integer l := rfl
      rw [e1, e2]
      exact ih a b

theorem read_ok (mem : Nat → Option Byte) : ∀ (l : List Byte) (a : Nat),
    (∀ i (h : i < l.length), mem (a + i) = some l[i]) → readMemory mem a l.length = some l := by
  intro l
  induction l with
  | nil => intro a _; rfl
  | cons b l ih =>
    intro a h
    have h0 : mem a = some b := h 0 (by simp)
    have h1 : readMemory mem (a + 1) l.length = some l := ih (a + 1) fun i hi => by
      have := h (i + 1) (by simpa using hi)
      rw [show a + 1 + i = a + (i + 1) by omega]
      simpa using this
    show (mem a).bind _ = _
    rw [h0, Option.bind_some, h1]
    rfl

/-- What a handler that knows or finds the parameters does. -/
theorem stop_ok {sig : List (Text × Kind)} {p n : Text} {h : Handler} {c : Call} {b : List Byte}
    (hd : determine sig h = some (p, n)) (hc : Exports p n c b) :
    stop sig h c = ({ enabled := if refused c then false else h.enabled, params := some (p, n) },
      ⟨if reached c then some b else none, decide (c.answer ≠ some 202)⟩) := by
  obtain ⟨h1, h2, h3⟩ := hc
  unfold stop
  rw [hd]
  simp only [Nat.mod_eq_of_lt h1, h2, read_ok c.mem b _ h3]
  unfold refused reached
  cases hcase : c.answer with
  | none => simp
  | some s =>
    by_cases hs : s = 202
    · simp [hs]
    · simp [hs]

theorem off (sig : List (Text × Kind)) : ∀ (l : List Call) (h : Handler), h.enabled = false →
    posts (runFrom sig h l) = [] ∧ ∀ o ∈ runFrom sig h l, o.halted = false := by
  intro l
  induction l with
  | nil => intro h _; exact ⟨rfl, fun o ho => nomatch ho⟩
  | cons c l ih =>
    intro h hh
    have e : runFrom sig h (c :: l) = ⟨none, false⟩ :: runFrom sig h l := by
      show (if h.enabled = true then _ else _) = _
      rw [if_neg (by simp [hh])]
    rw [e]
    refine ⟨?_, ?_⟩
    · exact (ih h hh).1
    · intro o ho
      rcases List.mem_cons.1 ho with rfl | ho
      · rfl
      · exact (ih h hh).2 o ho

theorem on (sig : List (Text × Kind)) (h : Handler) (c : Call) (l : List Call) (hh : h.enabled = true) :
    runFrom sig h (c :: l) = (stop sig h c).2 :: runFrom sig (stop sig h c).1 l := by
  show (if h.enabled = true then _ else _) = _
  rw [if_pos hh]

theorem posts_from {sig : List (Text × Kind)} {p n : Text} : ∀ (l : List (Call × List Byte)) (h : Handler),
    determine sig h = some (p, n) → h.enabled = true → (∀ x ∈ l, Exports p n x.1 x.2) →
    posts (runFrom sig h (l.map fun x => x.1)) =
      ((l.take ((l.takeWhile fun x => !refused x.1).length + 1)).filter fun x => reached x.1).map fun x => x.2 := by
  intro l
  induction l with
  | nil => intro h _ _ _; rfl
  | cons x l ih =>
    intro h hd he hx
    have hs := stop_ok hd (hx x (List.mem_cons_self ..))
    rw [List.map_cons, on sig h x.1 _ he, hs]
    by_cases hr : refused x.1 = true
    · have hreach : reached x.1 = true := by
        unfold refused at hr
        unfold reached
        cases h2 : x.1.answer with
        | none => rw [h2] at hr; exact nomatch hr
        | some s => rfl
      have h1 := (off sig (l.map fun x => x.1) ⟨false, some (p, n)⟩ rfl).1
      unfold posts at h1 ⊢
      simp [hr, hreach, h1]
    · have hr : refused x.1 = false := Bool.eq_false_iff.2 hr
      have h1 := ih ⟨true, some (p, n)⟩ rfl rfl fun y hy => hx y (List.mem_cons_of_mem _ hy)
      unfold posts at h1 ⊢
      cases hreach : reached x.1
      · simp [hr, hreach, he, h1]
      · simp [hr, hreach, he, h1]

theorem halts_from {sig : List (Text × Kind)} {p n : Text} : ∀ (l : List (Call × List Byte)) (h : Handler) (i : Nat),
    determine sig h = some (p, n) → h.enabled = true → (∀ x ∈ l, Exports p n x.1 x.2) →
    ∀ hi : i < l.length, (∀ x ∈ l.take i, refused x.1 = false) →
    ∃ o, (runFrom sig h (l.map fun x => x.1))[i]? = some o ∧ (o.halted = true ↔ l[i].1.answer ≠ some 202) := by
  intro l
  induction l with
  | nil => intro h i _ _ _ hi; exact absurd hi (Nat.not_lt_zero _)
  | cons x l ih =>
    intro h i hd he hx hi hr
    have hs := stop_ok hd (hx x (List.mem_cons_self ..))
    rw [List.map_cons, on sig h x.1 _ he, hs]
    cases i with
    | zero => exact ⟨_, rfl, by simp⟩
    | succ i =>
      have hr0 : refused x.1 = false := hr x (by simp)
      have := ih ⟨true, some (p, n)⟩ i rfl rfl (fun y hy => hx y (List.mem_cons_of_mem _ hy)) (by simpa using hi)
        fun y hy => hr y (by simp [hy])
      simpa [hr0, he] using this

theorem params_one {sig : List (Text × Kind)} {p n : Text} (hp : ofKind .pointer sig = [p])
    (hn : ofKind .integer sig = [n]) : determine sig ⟨true, none⟩ = some (p, n) := by
  unfold determine
  simp only [findParams_eq, hp, hn]
  rfl

/-! ### Installation -/

theorem has_iff (w : Text) : ∀ s : Text, has w s = true ↔ Has w s := by
  intro s
  induction s with
  | nil =>
    unfold has Has
    constructor
    · intro h
      exact ⟨[], [], by simpa using h⟩
    · rintro ⟨a, b, e⟩
      have := (List.append_eq_nil_iff.1 (List.append_eq_nil_iff.1 e.symm).1).2
      simp [this]
  | cons c s ih =>
    unfold has
    rw [Bool.or_eq_true, ih]
    constructor
    · rintro (h | ⟨a, b, e⟩)
      · obtain ⟨t, ht⟩ := List.isPrefixOf_iff_prefix.1 h
        exact ⟨[], t, by simpa using ht.symm⟩
      · exact ⟨c :: a, b, by rw [e]; rfl⟩
    · rintro ⟨a, b, e⟩
      cases a with
      | nil => exact Or.inl (List.isPrefixOf_iff_prefix.2 ⟨b, by simpa using e.symm⟩)
      | cons d a =>
        injection e with e1 e2
        exact Or.inr ⟨a, b, e2⟩

theorem plain_iff (x : Text) : x.any isSpace = false ↔ Plain x := by
  unfold Plain isSpace
  simp [List.any_eq_false, and_assoc]

theorem pickFile_mem : ∀ (l : List Function) (r : Option Text) (x : Text), pickFile l r = some x →
    r = some x ∨ ∃ f ∈ l, f.file = some x := by
  intro l
  induction l with
  | nil => intro r x h; exact Or.inl h
  | cons f l ih =>
    intro r x h
    unfold pickFile at h
    cases hf : fileOf f with
    | none =>
      rw [hf] at h
      rcases ih r x h with h | ⟨g, hg, e⟩
      · exact Or.inl h
      · exact Or.inr ⟨g, List.mem_cons_of_mem _ hg, e⟩
    | some y =>
      rw [hf] at h
      have hy : f.file = some y := by
        unfold fileOf at hf
        cases h2 : f.file with
        | none => rw [h2] at hf; exact nomatch hf
        | some z =>
          rw [h2] at hf
          simp only at hf
          split at hf
          · exact nomatch hf
          · exact hf
      rcases ih _ x h with h | ⟨g, hg, e⟩
      · split at h
        · exact Or.inr ⟨f, List.mem_cons_self .., hy.trans h⟩
        · exact Or.inl h
      · exact Or.inr ⟨g, List.mem_cons_of_mem _ hg, e⟩

/-- Once a file outside of the demo is chosen, it stays so. -/
theorem pickFile_stay : ∀ (l : List Function) (r : Option Text),
    (∃ x, r = some x ∧ has "components/demo".toList x = false) →
    ∃ x, pickFile l r = some x ∧ has "components/demo".toList x = false := by
  intro l
  induction l with
  | nil => intro r h; exact h
  | cons f l ih =>
    intro r h
    unfold pickFile
    cases hf : fileOf f with
    | none => exact ih r h
    | some y =>
      simp only
      apply ih
      obtain ⟨x, e, hx⟩ := h
      cases hy : has "components/demo".toList y with
      | false => exact ⟨y, if_pos (by rw [Bool.not_false, Bool.or_true]), hy⟩
      | true =>
        refine ⟨x, (if_neg ?_).trans e, hx⟩
        rw [e, Bool.not_true, Bool.or_false]
        simp

theorem pickFile_out : ∀ (l : List Function) (r : Option Text),
    (∃ f ∈ l, ∃ y, fileOf f = some y ∧ has "components/demo".toList y = false) →
    ∃ x, pickFile l r = some x ∧ has "components/demo".toList x = false := by
  intro l
  induction l with
  | nil => rintro r ⟨f, hf, _⟩; exact nomatch hf
  | cons f l ih =>
    rintro r ⟨g, hg, y, hy, hd⟩
    rcases List.mem_cons.1 hg with rfl | hg
    · unfold pickFile
      rw [hy]
      exact pickFile_stay l _ ⟨y, if_pos (by rw [hd, Bool.not_false, Bool.or_true]), hd⟩
    · unfold pickFile
      cases hf : fileOf f with
      | none => exact ih r ⟨g, hg, y, hy, hd⟩
      | some z => exact ih _ ⟨g, hg, y, hy, hd⟩

theorem pickName_ok (fs : List Function) : ∀ (pre : List Text) (w : Text) (post : List Text),
    (∀ v ∈ pre, ∀ f ∈ fs, ¬ ∃ a, f.name = a ++ v) → (∃ f ∈ fs, ∃ a, f.name = a ++ w) →
    pickName fs (pre ++ w :: post) = some w := by
  intro pre w post
  induction pre with
  | nil =>
    rintro _ ⟨f, hf, a, e⟩
    show (if _ then _ else _) = _
    rw [if_neg]
    have : f ∈ found fs w :=
      List.mem_filter.2 ⟨hf, List.isSuffixOf_iff_suffix.2 ⟨a, e.symm⟩⟩
    intro h
    rw [List.isEmpty_iff.1 h] at this
    exact nomatch this
  | cons v pre ih =>
    intro h1 h2
    show (if _ then _ else _) = _
    rw [if_pos]
    · exact ih (fun u hu => h1 u (List.mem_cons_of_mem _ hu)) h2
    · unfold found
      rw [List.isEmpty_iff, List.filter_eq_nil_iff]
      intro f hf h
      obtain ⟨a, e⟩ := List.isSuffixOf_iff_suffix.1 h
      exact h1 v (List.mem_cons_self ..) f hf ⟨a, e.symm⟩

theorem sweep_ok (w : Text) : ∀ l : List Text, sweep w (l.map some) =
    (l.filter fun x => !has w x).map some := by
  intro l
  induction l with
  | nil => rfl
  | cons x l ih =>
    show (if _ then _ else _) = _
    cases h : has w x
    · simp [h, ih]
    · simp [h, ih]

theorem spec_has (file : Option Text) (w : Text) : ∃ a, spec file w = a ++ w := by
  cases file with
  | none => exact ⟨[], rfl⟩
  | some x => exact ⟨'\'' :: x ++ ['\'', ':'], by simp [spec]⟩

end GdbChunksAux

open GdbChunksAux

/-- C128: while the handler is installed, the server gets every chunk that the device hands over, unchanged, in order and
once, until it refuses one (chunks for which it could not be reached are lost).
Missing: functions with more than one pointer or more than one integer among their parameters (`C128_false_parameters`). -/
theorem C128_posts_partial (sig : List (Text × Kind)) (p n : Text) (hp : ofKind .pointer sig = [p])
    (hn : ofKind .integer sig = [n]) (l : List (Call × List Byte)) (h : ∀ x ∈ l, Exports p n x.1 x.2) :
    posts (run sig (l.map fun x => x.1)) =
      ((l.take ((l.takeWhile fun x => !refused x.1).length + 1)).filter fun x => reached x.1).map fun x => x.2 :=
  posts_from l _ (params_one hp hn) rfl h

/-- C128: as long as no chunk was refused, the device stays halted after a call exactly if its chunk was not accepted.
Missing: as for `C128_posts_partial`. -/
theorem C128_halts_partial (sig : List (Text × Kind)) (p n : Text) (hp : ofKind .pointer sig = [p])
    (hn : ofKind .integer sig = [n]) (l : List (Call × List Byte)) (h : ∀ x ∈ l, Exports p n x.1 x.2) (i : Nat)
    (hi : i < l.length) (hr : ∀ x ∈ l.take i, refused x.1 = false) :
    ∃ o, (run sig (l.map fun x => x.1))[i]? = some o ∧ (o.halted = true ↔ l[i].1.answer ≠ some 202) :=
  halts_from l _ i (params_one hp hn) rfl h hi hr

/-- C128: without a pointer or without an integer among the parameters nothing is ever posted, and the device is halted
at the first call and at no other. -/
theorem C128_no_parameters (sig : List (Text × Kind)) (h : ofKind .pointer sig = [] ∨ ofKind .integer sig = [])
    (c : Call) (l : List Call) :
    posts (run sig (c :: l)) = [] ∧
      ∃ rest, run sig (c :: l) = ⟨none, true⟩ :: rest ∧ ∀ o ∈ rest, o.halted = false := by
  have hd : determine sig ⟨true, none⟩ = none := by
    unfold determine
    simp only [findParams_eq]
    rcases h with h | h
    · rw [h]; rfl
    · rw [h]; cases (ofKind .pointer sig).getLast? <;> rfl
  have hs : stop sig ⟨true, none⟩ c = (⟨false, none⟩, ⟨none, true⟩) := by
    unfold stop
    rw [hd]
  have ho := off sig l ⟨false, none⟩ rfl
  unfold run
  rw [on sig _ c l rfl, hs]
  exact ⟨ho.1, _, rfl, ho.2⟩

/-- C128: the first name of the function that is in the program is taken. If a file outside of the demo has it, the
breakpoint is on a file outside of the demo.
Missing: that it is a file with a function of exactly this name (`C128_false_suffix`). -/
theorem C128_install_partial (fs : List Function) (pre : List Text) (w : Text) (post : List Text)
    (bps : List (Option Text)) (hpre : ∀ v ∈ pre, ∀ f ∈ fs, ¬ ∃ a, f.name = a ++ v) (f : Function) (hf : f ∈ fs)
    (hn : f.name = w) (x : Text) (hx : f.file = some x) (hx0 : x ≠ []) (hpl : Plain x)
    (hdemo : ¬ Has "components/demo".toList x) :
    ∃ l y, install fs (pre ++ w :: post) bps = some (l ++ [some ("'".toList ++ y ++ "':".toList ++ w)]) ∧
      ¬ Has "components/demo".toList y ∧ ∃ g ∈ fs, g.file = some y ∧ ∃ a, g.name = a ++ w := by
  have h1 := pickName_ok fs pre w post hpre ⟨f, hf, [], hn⟩
  have hfound : f ∈ found fs w := List.mem_filter.2 ⟨hf, List.isSuffixOf_iff_suffix.2 ⟨[], hn.symm⟩⟩
  have hfile : fileOf f = some x := by
    unfold fileOf
    rw [hx]
    simp [(plain_iff x).2 hpl, hx0]
  obtain ⟨y, hy, hyd⟩ := pickFile_out (found fs w) none
    ⟨f, hfound, x, hfile, Bool.eq_false_iff.2 fun e => hdemo ((has_iff _ x).1 e)⟩
  refine ⟨sweep w bps, y, ?_, fun e => Bool.eq_false_iff.1 hyd ((has_iff _ y).2 e), ?_⟩
  · unfold install
    rw [h1]
    simp only [hy]
    have e1 : "'".toList = ['\''] := by decide +kernel
    have e2 : "':".toList = ['\'', ':'] := by decide +kernel
    rw [e1, e2]
    simp [spec]
  · rcases pickFile_mem _ _ _ hy with h | ⟨g, hg, e⟩
    · exact nomatch h
    · obtain ⟨hg1, hg2⟩ := List.mem_filter.1 hg
      obtain ⟨a, ha⟩ := List.isSuffixOf_iff_suffix.1 hg2
      exact ⟨g, hg1, e, a, ha.symm⟩

/-- C128: the command can be used again: afterwards one breakpoint is on the function, and the breakpoints that have
nothing to do with it are kept.
Missing: other watchpoints of the user (`C128_false_watchpoint`). -/
theorem C128_again_partial (fs : List Function) (pre : List Text) (w : Text) (post : List Text) (bps : List Text)
    (hpre : ∀ v ∈ pre, ∀ f ∈ fs, ¬ ∃ a, f.name = a ++ v) (f : Function) (hf : f ∈ fs) (hn : f.name = w) :
    ∃ kept new, install fs (pre ++ w :: post) (bps.map some) = some ((kept ++ [new]).map some) ∧ Has w new ∧
      (∀ x ∈ kept, ¬ Has w x) ∧ kept.Sublist bps ∧ ∀ x ∈ bps, ¬ Has w x → x ∈ kept := by
  have h1 := pickName_ok fs pre w post hpre ⟨f, hf, [], hn⟩
  obtain ⟨a, ha⟩ := spec_has (pickFile (found fs w) none) w
  refine ⟨bps.filter fun x => !has w x, spec (pickFile (found fs w) none) w, ?_, ⟨a, [], by simpa using ha⟩, ?_,
    List.filter_sublist, ?_⟩
  · unfold install
    rw [h1]
    simp only [sweep_ok, List.map_append, List.map_cons, List.map_nil]
  · intro x hx e
    have := (List.mem_filter.1 hx).2
    rw [(has_iff w x).2 e] at this
    exact nomatch this
  · intro x hx e
    refine List.mem_filter.2 ⟨hx, ?_⟩
    cases h : has w x
    · rfl
    · exact absurd ((has_iff w x).1 h) e

/-- C128: if the program has none of the functions, no breakpoint is set or deleted. -/
theorem C128_missing (fs : List Function) (ws : List Text) (bps : List (Option Text))
    (h : ∀ w ∈ ws, ∀ f ∈ fs, ¬ ∃ a, f.name = a ++ w) : install fs ws bps = none := by
  have : pickName fs ws = none := by
    induction ws with
    | nil => rfl
    | cons w ws ih =>
      show (if _ then _ else _) = _
      rw [if_pos]
      · exact ih fun v hv => h v (List.mem_cons_of_mem _ hv)
      · unfold found
        rw [List.isEmpty_iff, List.filter_eq_nil_iff]
        intro f hf e
        obtain ⟨a, ha⟩ := List.isSuffixOf_iff_suffix.1 e
        exact h w (List.mem_cons_self ..) f hf ⟨a, ha.symm⟩
  unfold install
  rw [this]

/-! ### Examples -/

namespace GdbChunksAux

/-- A chunk of two bytes at address 16. -/
def call (answer : Option Nat) : Call :=
  { value := fun t => if t = ['p'] then 16 else if t = ['t'] then 1 else 2,
    mem := fun a => if a < 64 then some (BitVec.ofNat 8 a) else none,
    answer := answer }

theorem exports_call (answer : Option Nat) : Exports ['p'] ['n'] (call answer) [16, 17] := by
  refine ⟨?_, rfl, ?_⟩
  · show 16 < 2 ^ 32
    decide
  intro i hi
  match i, hi with
  | 0, _ => rfl
  | 1, _ => rfl

end GdbChunksAux

example : posts (run [(['p'], .pointer), (['n'], .integer)]
    (([(call (some 202), [16, 17]), (call none, [16, 17]), (call (some 500), [16, 17]), (call (some 202), [16, 17])] :
      List (Call × List Byte)).map fun x => x.1)) = [[16, 17], [16, 17]] := by
  rw [C128_posts_partial _ ['p'] ['n'] rfl rfl]
  · rfl
  · intro x hx
    simp only [List.mem_cons, List.not_mem_nil, or_false] at hx
    rcases hx with rfl | rfl | rfl | rfl <;> exact exports_call _

example : ∃ l y, install [⟨some "a/components/demo/x.c".toList, "send".toList⟩, ⟨some "main.c".toList, "send".toList⟩]
    ["export".toList, "send".toList] [] = some (l ++ [some ("'".toList ++ y ++ "':".toList ++ "send".toList)]) ∧
      ¬ Has "components/demo".toList y ∧ ∃ g ∈ [(⟨some "a/components/demo/x.c".toList, "send".toList⟩ : Function),
        ⟨some "main.c".toList, "send".toList⟩], g.file = some y ∧ ∃ a, g.name = a ++ "send".toList :=
  C128_install_partial _ ["export".toList] "send".toList [] [] (by
      intro v hv f hf
      simp only [List.mem_singleton] at hv
      subst hv
      rintro ⟨a, e⟩
      have : f.name = "send".toList := by
        simp only [List.mem_cons, List.not_mem_nil, or_false] at hf
        rcases hf with rfl | rfl <;> rfl
      rw [this] at e
      have := congrArg List.length e
      rw [List.length_append] at this
      have h1 : ("send".toList).length = 4 := by decide +kernel
      have h2 : ("export".toList).length = 6 := by decide +kernel
      omega)
    ⟨some "main.c".toList, "send".toList⟩ (by simp) rfl "main.c".toList rfl (by decide +kernel)
    ((plain_iff _).1 (by decide +kernel)) fun e => absurd ((has_iff _ _).2 e) (by decide +kernel)

/-- C128, a defect: a function with an integer after the length is taken to have it as the length. -/
theorem C128_false_parameters : ∃ (sig : List (Text × Kind)) (c : Call) (chunk : List Byte),
    sig = [(['p'], .pointer), (['n'], .integer), (['t'], .integer)] ∧ Exports ['p'] ['n'] c chunk ∧
      posts (run sig [c]) = [chunk.take 1] ∧ chunk.length = 2 :=
  ⟨_, call (some 202), [16, 17], rfl, exports_call _, rfl, rfl⟩

/-- C128, a defect: the breakpoint can be looked for in a file that has only a function with a longer name. -/
theorem C128_false_suffix : install [⟨some "main.c".toList, "send".toList⟩, ⟨some "other.c".toList, "resend".toList⟩]
    ["send".toList] [] = some [some "'other.c':send".toList] := by
  decide +kernel

/-- C128, a defect: with a watchpoint that is older than the handler, a second use of the command leaves the first
breakpoint: each chunk is posted twice. -/
theorem C128_false_watchpoint : install [⟨some "main.c".toList, "send".toList⟩] ["send".toList]
    [none, some "'main.c':send".toList] = some [none, some "'main.c':send".toList, some "'main.c':send".toList] := by
  decide +kernel

end Mflt.Props
