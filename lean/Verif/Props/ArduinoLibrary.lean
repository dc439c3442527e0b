import Verif.Model.ArduinoLibrary

/-!
# C126: making an Arduino library of the SDK
-/

namespace Mflt.Props

open Mflt.Spec.ArduinoLibrary Mflt.ArduinoLibrary

namespace ArduinoLibraryAux

theorem space_iff (c : Char) : isSpace c = true ↔ Space c := by
  unfold isSpace Space
  simp only [Bool.or_eq_true, beq_iff_eq, List.mem_cons, List.not_mem_nil, or_false, or_assoc]
  have h : ∀ n, n = 11 ∨ n = 12 → (c.toNat = n ↔ c = Char.ofNat n) := by
    intro n hn
    constructor
    · intro e; rw [← e, Char.ofNat_toNat]
    · rintro rfl; rcases hn with rfl | rfl <;> decide
  rw [h 11 (by simp), h 12 (by simp)]

theorem matchHere_iff (s : Text) : matchHere s = true ↔ Starts s := by
  unfold matchHere Starts oldInclude
  have hl : "#include".toList.length = 8 := by decide +kernel
  constructor
  · intro h
    rw [Bool.and_eq_true, List.isPrefixOf_iff_prefix] at h
    obtain ⟨⟨t, rfl⟩, h⟩ := h
    rw [List.drop_append_of_le_length (by omega), List.drop_of_length_le (by omega), List.nil_append] at h
    cases t with
    | nil => exact nomatch h
    | cons w r =>
      rw [Bool.and_eq_true, List.isPrefixOf_iff_prefix, space_iff] at h
      obtain ⟨hw, t, rfl⟩ := h
      exact ⟨w, t, hw, by simp only [List.append_assoc, List.cons_append]⟩
  · rintro ⟨w, r, hw, rfl⟩
    rw [Bool.and_eq_true, List.isPrefixOf_iff_prefix]
    refine ⟨⟨_, (List.append_assoc _ _ _).symm⟩, ?_⟩
    rw [List.append_assoc, List.drop_append_of_le_length (by omega), List.drop_of_length_le (by omega), List.nil_append]
    simp only [List.cons_append, Bool.and_eq_true, List.isPrefixOf_iff_prefix, space_iff]
    exact ⟨hw, List.prefix_append _ _⟩

theorem old_length (w : Char) : (oldInclude w).length = 19 := by
  unfold oldInclude
  have h1 : "#include".toList.length = 8 := by decide +kernel
  have h2 : "\"memfault/".toList.length = 10 := by decide +kernel
  simp only [List.length_append, List.length_cons, h1, h2]

theorem sub_skip : ∀ (n : Nat) (s : Text), sub n s = sub 0 (s.drop n)
  | 0, s => rfl
  | n + 1, [] => by simp [sub]
  | n + 1, c :: s => by simp only [sub, List.drop_succ_cons]; exact sub_skip n s

theorem sub_no {c : Char} {s : Text} (h : ¬ Starts (c :: s)) : sub 0 (c :: s) = c :: sub 0 s := by
  have : matchHere (c :: s) = false := Bool.eq_false_iff.2 fun e => h ((matchHere_iff _).1 e)
  simp [sub, this]

theorem sub_yes {w : Char} (hw : Space w) (s : Text) : sub 0 (oldInclude w ++ s) = newInclude ++ sub 0 s := by
  have hm : matchHere (oldInclude w ++ s) = true := (matchHere_iff _).2 ⟨w, s, hw, rfl⟩
  have hl := old_length w
  cases hx : oldInclude w with
  | nil => rw [hx] at hl; exact nomatch hl
  | cons c r =>
    rw [hx] at hm hl
    simp only [List.cons_append] at hm ⊢
    simp only [sub, hm, if_true]
    rw [sub_skip]
    have hr : r.length = 18 := by simpa using hl
    rw [List.drop_append_of_le_length (by omega), List.drop_of_length_le (by omega), List.nil_append]
    rfl

theorem sub_replaced : ∀ (n : Nat) (s : Text), s.length ≤ n → Replaced s (sub 0 s)
  | _, [], _ => by simp only [sub]; exact .done
  | 0, c :: s, h => by simp at h
  | n + 1, c :: s, h => by
    by_cases hs : Starts (c :: s)
    · obtain ⟨w, r, hw, e⟩ := hs
      rw [e, sub_yes hw]
      refine .swap w r _ hw (sub_replaced n r ?_)
      have := congrArg List.length e
      rw [List.length_append, old_length] at this
      simp only [List.length_cons] at this h
      omega
    · rw [sub_no hs]
      exact .keep c s _ hs (sub_replaced n s (by simpa using h))

theorem old_hash {w : Char} (hw : Space w) : ∃ p, oldInclude w = '#' :: p ∧ '#' ∉ p := by
  refine ⟨"include".toList ++ w :: "\"memfault/".toList, ?_, ?_⟩
  · have : "#include".toList = '#' :: "include".toList := by decide +kernel
    unfold oldInclude
    rw [this]; rfl
  · have h1 : '#' ∉ "include".toList := by decide +kernel
    have h2 : '#' ∉ "\"memfault/".toList := by decide +kernel
    have h3 : '#' ≠ w := by rintro rfl; exact absurd hw (by unfold Space; decide)
    intro h
    rcases List.mem_append.1 h with h | h
    · exact h1 h
    · rcases List.mem_cons.1 h with h | h
      · exact h3 h
      · exact h2 h

theorem new_hash : ∃ p, newInclude = '#' :: p ∧ '#' ∉ p :=
  ⟨newInclude.tail, by decide +kernel, by decide +kernel⟩

theorem prefix_kept : ∀ (p r s : Text), '#' ∉ p → Replaced s (p ++ r) → ∃ r', s = p ++ r'
  | [], _, s, _, _ => ⟨s, rfl⟩
  | a :: p, r, s, hp, h => by
    have ha : a ≠ '#' := fun e => hp (by simp [e])
    generalize ht : (a :: p) ++ r = t at h
    cases h with
    | done => exact nomatch ht
    | keep c s t hs h =>
      injection ht with h1 h2
      subst h1 h2
      obtain ⟨r', rfl⟩ := prefix_kept p r s (fun e => hp (by simp [e])) h
      exact ⟨r', rfl⟩
    | swap w s t hw h =>
      obtain ⟨q, hq, _⟩ := new_hash
      rw [hq] at ht
      injection ht with h1 _
      exact absurd h1 ha

theorem replaced_none {s t : Text} (h : Replaced s t) : ∀ i, ¬ Starts (t.drop i) := by
  induction h with
  | done =>
    intro i ⟨w, r, _, e⟩
    have := congrArg List.length e
    rw [List.length_append, old_length] at this
    simp at this
    omega
  | keep c s t hs h ih =>
    intro i
    cases i with
    | succ i => simpa using ih i
    | zero =>
      rintro ⟨w, r, hw, e⟩
      obtain ⟨p, hp, hn⟩ := old_hash hw
      rw [hp] at e
      simp only [List.drop_zero, List.cons_append] at e
      injection e with e1 e2
      rw [e2] at h
      obtain ⟨r', rfl⟩ := prefix_kept p r s hn h
      exact hs ⟨w, r', hw, by rw [hp, e1]; rfl⟩
  | swap w s t hw h ih =>
    intro i
    obtain ⟨q, hq, hn⟩ := new_hash
    by_cases hi : i < newInclude.length
    · rw [List.drop_append_of_le_length (by omega)]
      rintro ⟨v, r, hv, e⟩
      obtain ⟨p, hp, _⟩ := old_hash hv
      cases i with
      | zero =>
        rw [List.drop_zero] at e
        have h1 : (newInclude ++ t)[18]? = some '-' := by
          rw [List.getElem?_append_left (by decide +kernel)]; decide +kernel
        have h2 : (oldInclude v ++ r)[18]? = some '/' := by
          rw [List.getElem?_append_left (by rw [old_length]; omega)]
          unfold oldInclude
          have hl : "#include".toList.length = 8 := by decide +kernel
          rw [List.getElem?_append_right (by omega), hl]
          have : "\"memfault/".toList[9]? = some '/' := by decide +kernel
          exact this
        rw [e, h2] at h1
        exact absurd h1 (by decide)
      | succ i =>
        rw [hq, List.drop_succ_cons] at e
        have hi' : i < q.length := by rw [hq] at hi; simpa using hi
        cases hd : q.drop i with
        | nil => have := List.length_drop (i := i) (l := q); rw [hd] at this; simp at this; omega
        | cons x y =>
          rw [hd, hp] at e
          injection e with e1 _
          subst e1
          exact hn (List.mem_of_mem_drop (i := i) (by rw [hd]; simp))
    · have : (newInclude ++ t).drop i = t.drop (i - newInclude.length) := by
        rw [List.drop_append, List.drop_of_length_le (by omega), List.nil_append]
      rw [this]
      exact ih _

theorem sub_same : ∀ t : Text, (∀ i, ¬ Starts (t.drop i)) → sub 0 t = t
  | [], _ => by simp [sub]
  | c :: t, h => by
    rw [sub_no (h 0), sub_same t fun i => by simpa using h (i + 1)]

theorem replaced_unique {s t : Text} (h : Replaced s t) : t = sub 0 s := by
  induction h with
  | done => simp [sub]
  | keep c s t hs _ ih => rw [sub_no hs, ih]
  | swap w s t hw _ ih => rw [sub_yes hw, ih]

theorem hidden_iff (p : Path) : hidden p = false ↔ Visible p := by
  unfold hidden Visible
  simp [List.any_eq_false]

theorem inDir_iff (d : Text) (f : File) : inDir [d] f = true ↔ ∃ x rest, f.1 = d :: x :: rest := by
  obtain ⟨p, t⟩ := f
  unfold inDir
  rw [Bool.and_eq_true, List.isPrefixOf_iff_prefix, decide_eq_true_eq]
  dsimp only
  constructor
  · rintro ⟨⟨r, rfl⟩, h⟩
    cases r with
    | nil => simp at h
    | cons x r => exact ⟨x, r, rfl⟩
  · rintro ⟨x, r, rfl⟩
    exact ⟨⟨_, rfl⟩, by simp⟩

end ArduinoLibraryAux

open ArduinoLibraryAux

/-- C126 (includes): in the text of a source all includes of headers of the SDK are replaced, and nothing else; none is
left, and to do it again changes nothing. -/
theorem C126_includes (s : Text) :
    Replaced s (sub 0 s) ∧ (∀ i, ¬ Starts ((sub 0 s).drop i)) ∧ sub 0 (sub 0 s) = sub 0 s := by
  have h := sub_replaced s.length s (Nat.le_refl _)
  exact ⟨h, replaced_none h, sub_same _ (replaced_none h)⟩

namespace ArduinoLibraryAux

/-- Where a file of the SDK goes. -/
def target (p : Path) : Path :=
  match moveList.find? fun m => p == [m.1] with
  | some m => [m.2]
  | none => "src".toList :: "memfault-firmware-sdk".toList :: p

/-- Whether the library takes a file. -/
def taken (f : File) : Bool := !otherPort f && !(removeList.any fun d => inDir [d] f)

def patched (f : File) : File := if toPatch f.1 then (f.1, sub 0 f.2) else f

theorem patched_path (f : File) : (patched f).1 = f.1 := by unfold patched; split <;> rfl

theorem library_mem {sdk lib : List File} {port : Option Path} (h : arduinoify sdk port = some lib) (x : File) :
    x ∈ lib ↔ (x ∈ portFiles sdk port ∧ ∀ m ∈ moveList, x.1 ≠ [m.2]) ∨
      ∃ f ∈ sdk, taken f = true ∧ x = (target f.1, (patched f).2) := by
  unfold arduinoify at h
  dsimp only at h
  split at h
  · exact nomatch h
  · split at h
    · exact nomatch h
    · have h := Option.some.inj h
      rw [← h, List.mem_append]
      apply or_congr
      · rw [List.mem_filter]
        simp only [Bool.not_eq_true', List.any_eq_false, beq_iff_eq]
      · rw [List.map_map, List.mem_map]
        simp only [List.mem_filter, Function.comp]
        constructor
        · rintro ⟨f, ⟨⟨hf, h1⟩, h2⟩, rfl⟩
          refine ⟨f, hf, by unfold taken; rw [h1, h2]; rfl, ?_⟩
          change _ = (target f.1, (patched f).2)
          unfold target
          have : (if toPatch f.1 = true then (f.1, sub 0 f.2) else f) = patched f := rfl
          rw [this, patched_path]
          cases moveList.find? fun m => f.1 == [m.1] <;> rfl
        · rintro ⟨f, hf, ht, rfl⟩
          unfold taken at ht
          rw [Bool.and_eq_true] at ht
          refine ⟨f, ⟨⟨hf, ht.1⟩, ht.2⟩, ?_⟩
          have : (if toPatch f.1 = true then (f.1, sub 0 f.2) else f) = patched f := rfl
          rw [this, patched_path]
          unfold target
          cases moveList.find? fun m => f.1 == [m.1] <;> rfl

theorem taken_iff (f : File) : taken f = true ↔ ¬ LeftOut f.1 := by
  have h1 : otherPort f = true ↔ ∃ a x rest, f.1 = "ports".toList :: a :: x :: rest ∧ a ≠ "panics".toList := by
    obtain ⟨p, t⟩ := f
    unfold otherPort
    dsimp only
    constructor
    · intro h
      split at h
      · rename_i a b x r
        rw [Bool.and_eq_true, beq_iff_eq, Bool.not_eq_true', beq_eq_false_iff_ne] at h
        exact ⟨b, x, r, by rw [h.1], h.2⟩
      · exact nomatch h
    · rintro ⟨a, x, r, rfl, ha⟩
      dsimp only
      rw [Bool.and_eq_true, beq_iff_eq, Bool.not_eq_true', beq_eq_false_iff_ne]
      exact ⟨rfl, ha⟩
  have h2 : (removeList.any fun d => inDir [d] f) = true ↔
      ∃ d x rest, f.1 = d :: x :: rest ∧ d ∈ [".circleci".toList, "examples".toList, "tests".toList] := by
    rw [List.any_eq_true]
    constructor
    · rintro ⟨d, hd, h⟩
      obtain ⟨x, r, e⟩ := (inDir_iff d f).1 h
      exact ⟨d, x, r, e, hd⟩
    · rintro ⟨d, x, r, e, hd⟩
      exact ⟨d, hd, (inDir_iff d f).2 ⟨x, r, e⟩⟩
  unfold taken LeftOut
  rw [Bool.and_eq_true, Bool.not_eq_true', Bool.not_eq_true', Bool.eq_false_iff, Bool.eq_false_iff]
  constructor
  · rintro ⟨a, b⟩ (h | h)
    · exact b (h2.2 h)
    · exact a (h1.2 h)
  · intro h
    exact ⟨fun e => h (Or.inr (h1.1 e)), fun e => h (Or.inl (h2.1 e))⟩

theorem target_deep {a b : Text} {r : Path} : target (a :: b :: r) = place (a :: b :: r) := by
  have : (moveList.find? fun m => (a :: b :: r) == [m.1]) = none := by
    rw [List.find?_eq_none]
    intro m _
    simp
  unfold target place
  rw [this]

theorem target_cases (p : Path) : target p = place p ∨ ∃ m ∈ moveList, target p = [m.2] := by
  unfold target
  cases h : moveList.find? fun m => p == [m.1] with
  | none => exact Or.inl rfl
  | some m => exact Or.inr ⟨m, List.mem_of_find?_eq_some h, rfl⟩

theorem patch_c {p : Path} {t : Text} (hv : Visible p) (h : EndsWith ".c" p ∨ EndsWith ".h" p) :
    (patched (p, t)).2 = sub 0 t := by
  have h1 := (hidden_iff p).2 hv
  have h2 : toPatch p = true := by
    unfold toPatch
    rw [h1]
    rcases h with h | h
    · rw [show (".c".toList.isSuffixOf (p.getLastD [])) = true from List.isSuffixOf_iff_suffix.2 h]; rfl
    · rw [show (".h".toList.isSuffixOf (p.getLastD [])) = true from List.isSuffixOf_iff_suffix.2 h, Bool.or_true]; rfl
  unfold patched
  dsimp only
  rw [if_pos h2]

theorem patched_or (f : File) : (patched f).2 = f.2 ∨ Replaced f.2 (patched f).2 := by
  unfold patched
  split
  · exact Or.inr (sub_replaced _ _ (Nat.le_refl _))
  · exact Or.inl rfl

end ArduinoLibraryAux

/-- C126 (sources): each source and header of the SDK in a directory that is not left out is in the library, at its place
below `src/memfault-firmware-sdk`, with its includes replaced. Missing: files with other endings keep their includes
(except the list of metrics), as do hidden ones. -/
theorem C126_sources_partial (sdk lib : List File) (port : Option Path) (h : arduinoify sdk port = some lib)
    (d x : Text) (rest : Path) (t : Text) (hf : (d :: x :: rest, t) ∈ sdk) (hl : ¬ LeftOut (d :: x :: rest)) :
    (∃ t', (place (d :: x :: rest), t') ∈ lib ∧ (t' = t ∨ Replaced t t')) ∧
    (Visible (d :: x :: rest) → EndsWith ".c" (d :: x :: rest) ∨ EndsWith ".h" (d :: x :: rest) →
      ∃ t', (place (d :: x :: rest), t') ∈ lib ∧ Replaced t t') := by
  have hm : (place (d :: x :: rest), (patched (d :: x :: rest, t)).2) ∈ lib := by
    rw [library_mem h]
    exact Or.inr ⟨_, hf, (taken_iff _).2 hl, by rw [target_deep]⟩
  refine ⟨⟨_, hm, patched_or _⟩, fun hv he => ⟨_, hm, ?_⟩⟩
  rw [patch_c hv he]
  exact sub_replaced _ _ (Nat.le_refl _)

/-- C126 (metrics): the includes of the SDK's list of metrics are replaced too. -/
theorem C126_metrics (sdk lib : List File) (port : Option Path) (h : arduinoify sdk port = some lib) (t : Text)
    (hf : (["components".toList, "include".toList, "memfault".toList, "metrics".toList, "heartbeat_config.def".toList], t) ∈
      sdk) :
    ∃ t', (place ["components".toList, "include".toList, "memfault".toList, "metrics".toList,
      "heartbeat_config.def".toList], t') ∈ lib ∧ Replaced t t' := by
  have hl : ¬ LeftOut ["components".toList, "include".toList, "memfault".toList, "metrics".toList,
      "heartbeat_config.def".toList] := by
    rintro (⟨d, x, r, e, hd⟩ | ⟨f, x, r, e, _⟩)
    · injection e with e1 _
      subst e1
      exact absurd hd (by decide +kernel)
    · injection e with e1 _
      exact absurd e1 (by decide +kernel)
  have hp : toPatch ["components".toList, "include".toList, "memfault".toList, "metrics".toList,
      "heartbeat_config.def".toList] = true := by decide +kernel
  refine ⟨sub 0 t, ?_, sub_replaced _ _ (Nat.le_refl _)⟩
  rw [library_mem h]
  refine Or.inr ⟨_, hf, (taken_iff _).2 hl, ?_⟩
  rw [target_deep]
  unfold patched
  dsimp only
  rw [if_pos hp]

/-- C126 (nothing else): each file of the library is one of the chosen port, without the way to it, or a file of the SDK
that is not left out, at its place or one of the three files at the top, with its own text or that with the includes
replaced. -/
theorem C126_only (sdk lib : List File) (port : Option Path) (h : arduinoify sdk port = some lib) (q : Path) (t' : Text)
    (hq : (q, t') ∈ lib) :
    (∃ p, port = some p ∧ ("ports".toList :: p ++ q, t') ∈ sdk ∧ q ≠ []) ∨
    ∃ p t, (p, t) ∈ sdk ∧ ¬ LeftOut p ∧ (t' = t ∨ Replaced t t') ∧
      (q = place p ∨ q ∈ [["LICENSE.txt".toList], ["VERSION".toList], ["CHANGELOG.md".toList]]) := by
  rcases (library_mem h _).1 hq with ⟨hp, _⟩ | ⟨f, hf, ht, e⟩
  · left
    cases port with
    | none => exact nomatch hp
    | some p =>
      obtain ⟨f, hf, e⟩ := List.mem_map.1 hp
      obtain ⟨hf, hd⟩ := List.mem_filter.1 hf
      unfold inDir at hd
      rw [Bool.and_eq_true, List.isPrefixOf_iff_prefix, decide_eq_true_eq] at hd
      obtain ⟨⟨r, hr⟩, hlen⟩ := hd
      have e1 : f.1.drop (p.length + 1) = q := congrArg Prod.fst e
      have e2 : f.2 = t' := congrArg Prod.snd e
      have e3 : r = q := by rw [← e1, ← hr]; simp
      subst e3
      refine ⟨p, rfl, ?_, ?_⟩
      · rw [hr, ← e2]; exact hf
      · rintro rfl
        rw [← hr] at hlen
        simp at hlen
  · right
    obtain ⟨p, t⟩ := f
    have e1 : q = target p := congrArg Prod.fst e
    have e2 : t' = (patched (p, t)).2 := congrArg Prod.snd e
    refine ⟨p, t, hf, (taken_iff _).1 ht, ?_, ?_⟩
    · rw [e2]; exact patched_or (p, t)
    · rcases target_cases p with h | ⟨m, hm, h⟩
      · exact Or.inl (e1.trans h)
      · refine Or.inr ?_
        rw [e1, h]
        simp only [moveList, List.mem_cons, List.not_mem_nil, or_false] at hm
        rcases hm with rfl | rfl | rfl <;> simp

/-- C126 is false for includes with more than one space, which the library does not find: they are not replaced. -/
theorem C126_false_spaces : sub 0 "#include  \"memfault/config.h\"".toList = "#include  \"memfault/config.h\"".toList := by
  decide +kernel

namespace ArduinoLibraryAux

/-- The least that the script needs. -/
def least : List File :=
  [([".circleci".toList, "x".toList], []), (["examples".toList, "x".toList], []), (["tests".toList, "x".toList], []),
    (["LICENSE".toList], []), (["VERSION".toList], []), (["CHANGELOG.md".toList], [])]

end ArduinoLibraryAux

/-- C126 is false for headers of ports: the include is replaced although the library does not have the header. -/
theorem C126_false_ports : ∃ sdk lib,
    (["ports".toList, "include".toList, "memfault".toList, "ports".toList, "v.h".toList], []) ∈ sdk ∧
    (["components".toList, "a.c".toList], "#include \"memfault/ports/v.h\"".toList) ∈ sdk ∧ arduinoify sdk none = some lib ∧
    (place ["components".toList, "a.c".toList],
      "#include \"memfault-firmware-sdk/components/include/memfault/ports/v.h\"".toList) ∈ lib ∧
    ∀ f ∈ lib, ¬ EndsWith ".h" f.1 := by
  refine ⟨(["ports".toList, "include".toList, "memfault".toList, "ports".toList, "v.h".toList], []) ::
    (["components".toList, "a.c".toList], "#include \"memfault/ports/v.h\"".toList) :: least,
    [(place ["components".toList, "a.c".toList],
      "#include \"memfault-firmware-sdk/components/include/memfault/ports/v.h\"".toList), (["LICENSE.txt".toList], []),
      (["VERSION".toList], []), (["CHANGELOG.md".toList], [])], by simp, by simp, by decide +kernel, by simp, ?_⟩
  have : ∀ f ∈ [(place ["components".toList, "a.c".toList],
      "#include \"memfault-firmware-sdk/components/include/memfault/ports/v.h\"".toList), (["LICENSE.txt".toList], []),
      (["VERSION".toList], []), (["CHANGELOG.md".toList], [])], ".h".toList.isSuffixOf (f.1.getLastD []) = false := by
    decide +kernel
  intro f hf he
  have := this f hf
  rw [List.isSuffixOf_iff_suffix.2 he] at this
  exact nomatch this

/-- C126 is false for a port that the SDK does not have: the library is made, without it. -/
theorem C126_false_port : ∃ sdk lib, (∀ f ∈ sdk, ¬ ["ports".toList] <+: f.1) ∧
    arduinoify sdk (some ["arduino".toList]) = some lib := by
  refine ⟨least, [(["LICENSE.txt".toList], []), (["VERSION".toList], []), (["CHANGELOG.md".toList], [])], ?_,
    by decide +kernel⟩
  have : ∀ f ∈ least, ["ports".toList].isPrefixOf f.1 = false := by decide +kernel
  intro f hf he
  have := this f hf
  rw [List.isPrefixOf_iff_prefix.2 he] at this
  exact nomatch this

/-- C126 is false for an SDK without one of the directories that are removed: an exception. -/
theorem C126_false_directory :
    arduinoify [(["examples".toList, "x".toList], []), (["tests".toList, "x".toList], []), (["LICENSE".toList], []),
      (["VERSION".toList], []), (["CHANGELOG.md".toList], [])] none = none := by
  decide +kernel

/-- A source, a test and a port: the test is left out, the port is at the top. -/
example : arduinoify ((["components".toList, "a.c".toList], "x\n#include \"memfault/b.h\"\n".toList) ::
      (["ports".toList, "p".toList, "p.c".toList], "y".toList) :: least) (some ["p".toList]) =
    some [(["p.c".toList], "y".toList),
      (["src".toList, "memfault-firmware-sdk".toList, "components".toList, "a.c".toList],
        "x\n#include \"memfault-firmware-sdk/components/include/memfault/b.h\"\n".toList),
      (["LICENSE.txt".toList], []), (["VERSION".toList], []), (["CHANGELOG.md".toList], [])] := by
  decide +kernel

end Mflt.Props
