import Verif.Model.CmsisPack

/-!
# C127: making a CMSIS pack of the SDK
-/

namespace Mflt.Props

open Mflt.Spec.CmsisPack Mflt.CmsisPack

namespace CmsisPackAux

/-! ### Version -/

theorem strip_append (w s : Text) : strip w (w ++ s) = some s := by
  unfold strip
  rw [if_pos (List.isPrefixOf_iff_prefix.2 (List.prefix_append _ _))]
  simp

theorem digit_iff (c : Char) : isDigit c = true ↔ '0' ≤ c ∧ c ≤ '9' := by
  unfold isDigit; simp

theorem number_append {a s : Text} (ha : Number a) (hs : ∀ c r, s = c :: r → ¬ ('0' ≤ c ∧ c ≤ '9')) :
    number (a ++ s) = some (a, s) := by
  have h1 : ∀ c ∈ a, isDigit c = true := fun c hc => (digit_iff c).2 (ha.2 c hc)
  have h2 : s.takeWhile isDigit = [] ∧ s.dropWhile isDigit = s := by
    cases s with
    | nil => exact ⟨rfl, rfl⟩
    | cons c r =>
      have : isDigit c = false := Bool.eq_false_iff.2 fun e => hs c r rfl ((digit_iff c).1 e)
      simp [this]
  have h3 : (a ++ s).takeWhile isDigit = a := by
    rw [List.takeWhile_append_of_pos h1, h2.1, List.append_nil]
  have h4 : (a ++ s).dropWhile isDigit = s := by
    rw [List.dropWhile_append_of_pos h1, h2.2]
  unfold number
  rw [h3, h4, if_neg ha.1]

/-- The text that is looked for. -/
def line (a b c : Text) : Text :=
  ".major = ".toList ++ a ++ ", .minor = ".toList ++ b ++ ", .patch = ".toList ++ c

theorem here_ok {a b c post : Text} (ha : Number a) (hb : Number b) (hc : Number c)
    (hp : ∀ x r, post = x :: r → ¬ ('0' ≤ x ∧ x ≤ '9')) :
    versionHere (line a b c ++ post) = some (a ++ '.' :: b ++ '.' :: c) := by
  have e1 : ".major = ".toList = '.' :: "major = ".toList := by decide +kernel
  have e2 : ", .minor = ".toList = ", ".toList ++ '.' :: "minor = ".toList := by decide +kernel
  have e3 : ", .patch = ".toList = ", ".toList ++ '.' :: "patch = ".toList := by decide +kernel
  have comma : ∀ (s : Text) x r, ", ".toList ++ s = x :: r → ¬ ('0' ≤ x ∧ x ≤ '9') := by
    intro s x r e
    have : ", ".toList = [',', ' '] := by decide +kernel
    rw [this] at e
    injection e with e _
    subst e
    decide
  have dot : ∀ s : Text, anyChar ('.' :: s) = some s := by
    intro s
    rfl
  have step : ∀ n (x s : Text), Number x → number (x ++ (", ".toList ++ '.' :: (n ++ s))) =
      some (x, ", ".toList ++ '.' :: (n ++ s)) := fun n x s hx => number_append hx (comma _)
  have shape : line a b c ++ post = '.' :: ("major = ".toList ++ (a ++ (", ".toList ++ '.' :: ("minor = ".toList ++
      (b ++ (", ".toList ++ '.' :: ("patch = ".toList ++ (c ++ post)))))))) := by
    unfold line
    rw [e1, e2, e3]
    simp only [List.append_assoc, List.cons_append]
  rw [shape]
  unfold versionHere
  simp only [dot, strip_append, step _ _ _ ha, step _ _ _ hb, number_append hc hp, Option.bind_some, Option.map_some]

theorem here_needs {s v : Text} (h : versionHere s = some v) : ∃ x r, s = x :: ("major = ".toList ++ r) := by
  unfold versionHere at h
  obtain ⟨t, ht, h⟩ := Option.bind_eq_some_iff.1 h
  obtain ⟨u, hu, _⟩ := Option.bind_eq_some_iff.1 h
  cases s with
  | nil => exact nomatch ht
  | cons x s =>
    have ht : (if x = '\n' then none else some s) = some t := ht
    split at ht
    · exact nomatch ht
    · cases ht
      unfold strip at hu
      split at hu
      · rename_i hp
        obtain ⟨r, rfl⟩ := List.isPrefixOf_iff_prefix.1 hp
        exact ⟨x, r, rfl⟩
      · exact nomatch hu

/-- A word without a dot that starts before a dot ends before it. -/
theorem before_dot : ∀ (w p s r : Text), '.' ∉ w → p ++ '.' :: s = w ++ r → ∃ q, p = w ++ q
  | [], p, _, _, _, _ => ⟨p, rfl⟩
  | x :: w, [], s, r, hw, h => by
    injection h with h _
    exact absurd (List.mem_cons.2 (Or.inl h)) hw
  | x :: w, y :: p, s, r, hw, h => by
    injection h with h1 h2
    obtain ⟨q, rfl⟩ := before_dot w p s r (fun e => hw (by simp [e])) h2
    exact ⟨q, by rw [h1]; rfl⟩

theorem find_ok {a b c post : Text} (ha : Number a) (hb : Number b) (hc : Number c)
    (hp : ∀ x r, post = x :: r → ¬ ('0' ≤ x ∧ x ≤ '9')) : ∀ pre : Text, ¬ Has "major = ".toList pre →
    findVersion (pre ++ (line a b c ++ post)) = some (a ++ '.' :: b ++ '.' :: c)
  | [], _ => by
    rw [List.nil_append]
    have h := here_ok ha hb hc hp
    cases hl : line a b c ++ post with
    | nil => rw [hl] at h; exact nomatch h
    | cons x s =>
      rw [hl] at h
      unfold findVersion
      rw [h]
      rfl
  | x :: pre, hh => by
    have ih := find_ok ha hb hc hp pre fun ⟨u, v, e⟩ => hh ⟨x :: u, v, by rw [e]; rfl⟩
    rw [List.cons_append]
    unfold findVersion
    rw [ih]
    cases hv : versionHere (x :: (pre ++ (line a b c ++ post))) with
    | none => rfl
    | some v =>
      exfalso
      obtain ⟨y, r, e⟩ := here_needs hv
      injection e with _ e
      have hd : line a b c ++ post = '.' :: ((line a b c ++ post).drop 1) := by
        unfold line
        have : ".major = ".toList = '.' :: "major = ".toList := by decide +kernel
        rw [this]
        simp only [List.append_assoc, List.cons_append, List.drop_succ_cons, List.drop_zero]
      rw [hd] at e
      obtain ⟨q, rfl⟩ := before_dot _ pre _ r (by decide +kernel) e
      exact hh ⟨[x], q, by simp⟩

/-! ### Files -/

theorem join_eq : ∀ p : Path, join p = name p
  | [] => rfl
  | [_] => rfl
  | a :: b :: l => by
    have := join_eq (b :: l)
    unfold join name
    rw [this]

theorem names_mem {base : Path} : ∀ {l : List Path} {r : List Text}, names base l = some r →
    ∀ n, n ∈ r ↔ ∃ f ∈ l, n = name (f.drop base.length)
  | [], r, h, n => by cases h; simp
  | f :: l, r, h, n => by
    unfold names at h
    obtain ⟨m, hm, h⟩ := Option.bind_eq_some_iff.1 h
    obtain ⟨t, ht, rfl⟩ := Option.map_eq_some_iff.1 h
    have e : m = name (f.drop base.length) := by
      unfold fileName at hm
      dsimp only at hm
      split at hm
      · exact nomatch hm
      · rw [← join_eq]; exact (Option.some.inj hm).symm
    rw [List.mem_cons, names_mem ht n]
    constructor
    · rintro (rfl | ⟨g, hg, rfl⟩)
      · exact ⟨f, by simp, e⟩
      · exact ⟨g, by simp [hg], rfl⟩
    · rintro ⟨g, hg, rfl⟩
      rcases List.mem_cons.1 hg with rfl | hg
      · exact Or.inl e.symm
      · exact Or.inr ⟨g, hg, rfl⟩

theorem match_iff (deep : Bool) (d f : Path) : isMatch deep d f = true ↔
    ∃ mid n, f = d ++ mid ++ [n] ∧ ".c".toList <:+ n ∧ (deep = true → mid ≠ []) := by
  unfold isMatch
  rw [Bool.and_eq_true, Bool.and_eq_true, List.isPrefixOf_iff_prefix, List.isSuffixOf_iff_suffix]
  constructor
  · rintro ⟨⟨⟨r, rfl⟩, hs⟩, hl⟩
    have hr : r ≠ [] := by
      rintro rfl
      cases deep <;> simp at hl <;> omega
    refine ⟨r.dropLast, r.getLast hr, ?_, ?_, ?_⟩
    · rw [List.append_assoc, List.dropLast_concat_getLast hr]
    · have : (d ++ r).getLastD [] = r.getLast hr := by
        rw [List.getLastD_eq_getLast?, List.getLast?_append, List.getLast?_eq_some_getLast hr]; rfl
      rw [this] at hs
      exact hs
    · intro hd he
      subst hd
      have := congrArg List.length he
      simp at this hl
      omega
  · rintro ⟨mid, n, rfl, hn, hd⟩
    refine ⟨⟨by rw [List.append_assoc]; exact List.prefix_append _ _, ?_⟩, ?_⟩
    · simpa [List.getLastD_eq_getLast?] using hn
    · cases deep with
      | false => simp
      | true =>
        have := List.length_pos_iff.2 (hd rfl)
        simp; omega

theorem dirs_mem (sdk : Path) (comps : List Text) (port : Option Path) (deep : Bool) (d : Path) :
    (deep, d) ∈ dirs sdk comps port ↔
      (∃ c ∈ comps, deep = true ∧ d = sdk ++ ["components".toList, c]) ∨
      (∃ q, port = some q ∧ deep = false ∧ d = sdk ++ "ports".toList :: q) ∨
      (port = some ["dialog".toList, "da1469x".toList] ∧ deep = true ∧ d = sdk ++ ["ports".toList, "freertos".toList]) := by
  unfold dirs
  rw [List.mem_append, List.mem_map]
  apply or_congr
  · constructor
    · rintro ⟨c, hc, e⟩
      injection e with e1 e2
      exact ⟨c, hc, e1.symm, e2.symm⟩
    · rintro ⟨c, hc, rfl, rfl⟩
      exact ⟨c, hc, rfl⟩
  · cases port with
    | none => simp
    | some q =>
      dsimp only
      rw [List.mem_cons]
      apply or_congr
      · constructor
        · intro e
          injection e with e1 e2
          exact ⟨q, rfl, e1, e2⟩
        · rintro ⟨q', e, rfl, rfl⟩
          cases e
          rfl
      · by_cases hq : q = ["dialog".toList, "da1469x".toList]
        · rw [if_pos hq, List.mem_singleton]
          constructor
          · intro e
            injection e with e1 e2
            exact ⟨by rw [hq], e1, e2⟩
          · rintro ⟨_, rfl, rfl⟩
            rfl
        · rw [if_neg hq]
          constructor
          · intro e; exact nomatch e
          · rintro ⟨e, _⟩
            exact absurd (Option.some.inj e) hq

end CmsisPackAux

open CmsisPackAux

/-- C127 (version): the version is the one in the header of the SDK, unless the user gives one. -/
theorem C127_version (pre a b c post : Text) (ha : Number a) (hb : Number b) (hc : Number c)
    (hpre : ¬ Has "major = ".toList pre) (hpost : ∀ x r, post = x :: r → ¬ ('0' ≤ x ∧ x ≤ '9')) :
    sdkVersion none (pre ++ ".major = ".toList ++ a ++ ", .minor = ".toList ++ b ++ ", .patch = ".toList ++ c ++ post) =
      some (a ++ '.' :: b ++ '.' :: c) ∧
    ∀ v header, v ≠ [] → sdkVersion (some v) header = some v := by
  constructor
  · have := find_ok ha hb hc hpost pre hpre
    unfold line at this
    simp only [List.append_assoc] at this
    unfold sdkVersion
    simp only [List.append_assoc]
    exact this
  · intro v header hv
    cases v with
    | nil => exact absurd rfl hv
    | cons x v => rfl

/-- C127 (files): the description has the sources of each chosen component that are at least one directory below it, those
of the port and, for the DA1469x, those of FreeRTOS, by their path in the SDK, and no other. -/
theorem C127_files (below : Path → List Path) (sdk : Path) (comps : List Text) (port : Option Path) (r : List Text)
    (h : files below sdk comps port = some r) (n : Text) :
    n ∈ r ↔ ∃ d mid f, n = name (d ++ mid ++ [f]) ∧ sdk ++ (d ++ mid ++ [f]) ∈ below (sdk ++ d) ∧ ".c".toList <:+ f ∧
      ((∃ c ∈ comps, d = ["components".toList, c] ∧ mid ≠ []) ∨ (∃ q, port = some q ∧ d = "ports".toList :: q) ∨
        (port = some ["dialog".toList, "da1469x".toList] ∧ d = ["ports".toList, "freertos".toList] ∧ mid ≠ [])) := by
  rw [names_mem h]
  simp only [List.mem_flatMap, List.mem_filter, match_iff]
  constructor
  · rintro ⟨g, ⟨⟨deep, d⟩, hd, hb, mid, f, rfl, hf, hm⟩, rfl⟩
    dsimp only at hb hm ⊢
    rcases (dirs_mem _ _ _ _ _).1 hd with ⟨c, hc, rfl, rfl⟩ | ⟨q, hq, rfl, rfl⟩ | ⟨hq, rfl, rfl⟩
    · refine ⟨_, mid, f, ?_, ?_, hf, Or.inl ⟨c, hc, rfl, hm rfl⟩⟩
      · rw [List.append_assoc, List.append_assoc, List.drop_left, ← List.append_assoc]
      · simpa using hb
    · refine ⟨_, mid, f, ?_, ?_, hf, Or.inr (Or.inl ⟨q, hq, rfl⟩)⟩
      · rw [List.append_assoc, List.append_assoc, List.drop_left, ← List.append_assoc]
      · simpa using hb
    · refine ⟨_, mid, f, ?_, ?_, hf, Or.inr (Or.inr ⟨hq, rfl, hm rfl⟩)⟩
      · rw [List.append_assoc, List.append_assoc, List.drop_left, ← List.append_assoc]
      · simpa using hb
  · rintro ⟨d, mid, f, rfl, hb, hf, hc⟩
    have fin : ∀ deep, (deep, sdk ++ d) ∈ dirs sdk comps port → (deep = true → mid ≠ []) →
        ∃ g, (∃ a, a ∈ dirs sdk comps port ∧ g ∈ below a.2 ∧ ∃ mid n, g = a.2 ++ mid ++ [n] ∧ ".c".toList <:+ n ∧
          (a.1 = true → mid ≠ [])) ∧ name (d ++ mid ++ [f]) = name (g.drop sdk.length) := by
      intro deep hd hm
      refine ⟨sdk ++ (d ++ mid ++ [f]), ⟨(deep, sdk ++ d), hd, hb, mid, f, by simp, hf, hm⟩, ?_⟩
      rw [List.drop_left]
    rcases hc with ⟨c, hc, rfl, hm⟩ | ⟨q, hq, rfl⟩ | ⟨hq, rfl, hm⟩
    · exact fin true ((dirs_mem _ _ _ _ _).2 (Or.inl ⟨c, hc, rfl, rfl⟩)) fun _ => hm
    · exact fin false ((dirs_mem _ _ _ _ _).2 (Or.inr (Or.inl ⟨q, hq, rfl, rfl⟩))) fun e => nomatch e
    · exact fin true ((dirs_mem _ _ _ _ _).2 (Or.inr (Or.inr ⟨hq, rfl, rfl⟩))) fun _ => hm

/-- C127 (history): after any number of uses of the script, the description on the server has all releases for which one
was written, the newest first; errors of the server end the script and lose nothing. Missing: the error 404 where there is
a description (`C127_false_missing`), the variable that says that there may be none (`C127_false_skip`), and a version
that is made twice (`C127_false_twice`). -/
theorem C127_history_partial (runs : List Run)
    (h : ∀ r ∈ runs, r.skip = false ∧ ∀ c, r.status = some c → 400 ≤ c ∧ c ≠ 404) :
    (runs.foldl publish none).getD [] =
      ((runs.filter fun r => r.status.isNone && !r.packOnly).map fun r => ⟨r.version, r.date⟩).reverse := by
  have key : ∀ (runs : List Run) (pub : Option (List Release)),
      (∀ r ∈ runs, r.skip = false ∧ ∀ c, r.status = some c → 400 ≤ c ∧ c ≠ 404) →
      (runs.foldl publish pub).getD [] =
        ((runs.filter fun r => r.status.isNone && !r.packOnly).map fun r => ⟨r.version, r.date⟩).reverse ++
          pub.getD [] := by
    intro runs
    induction runs with
    | nil => intro pub _; rfl
    | cons r l ih =>
      intro pub h
      rw [List.foldl_cons, ih _ fun x hx => h x (by simp [hx])]
      obtain ⟨hs, hc⟩ := h r (by simp)
      have hp : (publish pub r).getD [] =
          (if r.status.isNone && !r.packOnly then [⟨r.version, r.date⟩] else []) ++ pub.getD [] := by
        unfold publish releases getLatest
        rw [hs]
        cases hst : r.status with
        | some c =>
          obtain ⟨h1, h2⟩ := hc c hst
          simp [h1, h2]
        | none =>
          cases pub <;> cases r.packOnly <;> simp
      rw [hp, List.filter_cons]
      split <;> simp
  simpa using key runs none h

/-- C127 is false if the server has an error 404 although there is a description: the earlier releases are gone. The
comment in the script says that this must also need the variable. -/
theorem C127_false_missing (a b : Run) (hb : b.status = some 404) (hp : b.packOnly = false) :
    [a, b].foldl publish none = some [⟨b.version, b.date⟩] := by
  simp only [List.foldl_cons, List.foldl_nil]
  generalize publish none a = pub
  unfold publish releases getLatest
  simp [hb, hp]

/-- C127 is false with the variable: the earlier releases are gone, although the server has them. -/
theorem C127_false_skip (a b : Run) (hb : b.skip = true) (hp : b.packOnly = false) :
    [a, b].foldl publish none = some [⟨b.version, b.date⟩] := by
  simp only [List.foldl_cons, List.foldl_nil]
  generalize publish none a = pub
  unfold publish releases getLatest
  simp [hb, hp]

/-- C127 is false for a version that is made again: it is listed twice. -/
theorem C127_false_twice : ∃ r : Run, [r, r].foldl publish none = some [⟨r.version, r.date⟩, ⟨r.version, r.date⟩] :=
  ⟨⟨['1'], ['d'], none, false, false⟩, by decide +kernel⟩

/-- The header of the SDK. -/
example : sdkVersion none "#define MEMFAULT_SDK_VERSION { .major = 1, .minor = 20, .patch = 0 }\n".toList =
    some "1.20.0".toList := by
  decide +kernel

/-- Three releases; the second try fails and is done again. -/
example : (([⟨['1'], ['d'], none, false, false⟩, ⟨['2'], ['d'], some 503, false, false⟩,
      ⟨['2'], ['e'], none, false, false⟩] : List Run).foldl publish none) =
    some [⟨['2'], ['e']⟩, ⟨['1'], ['d']⟩] := by
  decide +kernel

/-- A source one directory below a component is in the description, one directly in it is not. -/
example : files (fun d => if d = [['s'], "components".toList, "core".toList] then
      [d ++ ["src".toList, "a.c".toList], d ++ ["top.c".toList]] else []) [['s']] ["core".toList] none =
    some ["components/core/src/a.c".toList] := by
  decide +kernel

end Mflt.Props
