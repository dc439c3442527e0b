import Verif.Model.GdbUpload

/-!
# C129: sending a coredump with GDB
-/

namespace Mflt.Props

open Mflt.Spec.GdbUpload Mflt.GdbUpload

namespace GdbUploadAux

theorem agrees_iff (y : Text) : agrees y = true ↔ 'y' ∈ y ∨ 'Y' ∈ y := by
  unfold agrees
  rw [List.any_eq_true]
  constructor
  · rintro ⟨c, hc, h⟩
    rw [Bool.or_eq_true, beq_iff_eq, beq_iff_eq] at h
    rcases h with rfl | rfl
    · exact Or.inl hc
    · exact Or.inr hc
  · rintro (h | h)
    · exact ⟨_, h, rfl⟩
    · exact ⟨_, h, rfl⟩

theorem good_iff (s : Nat) : isGood s = true ↔ good s := by
  unfold isGood good
  simp

/-- What the permission can be. -/
theorem permission_cases (allowed : Bool) (r : Run) :
    (allowed = true ∧ permission allowed r = ([], true, true)) ∨
    (allowed = false ∧ agrees r.answer = true ∧ r.canSave = true ∧ permission allowed r = ([.answer r.answer], true, true)) ∨
    (allowed = false ∧ (agrees r.answer = false ∨ r.canSave = false) ∧
      permission allowed r = ([.answer r.answer], false, false)) := by
  unfold permission
  cases allowed <;> cases agrees r.answer <;> cases r.canSave <;> simp

/-- From a state in which nothing is stored, data is sent only after a `y`. -/
theorem consent_from : ∀ (l : List Run) (pre : List Event) (e : Event) (post : List Event),
    history false l = pre ++ e :: post → e.Sends → ∃ t, Event.answer t ∈ pre ∧ ('y' ∈ t ∨ 'Y' ∈ t) := by
  intro l
  induction l with
  | nil => intro pre e post h; simp [history] at h
  | cons r l ih =>
    intro pre e post h he
    unfold history command at h
    rcases permission_cases false r with ⟨h1, _⟩ | ⟨_, h2, _, hp⟩ | ⟨_, _, hp⟩
    · exact nomatch h1
    · rw [hp] at h
      simp only [if_true, List.singleton_append, List.cons_append, List.append_assoc] at h
      cases pre with
      | nil =>
        injection h with h _
        rw [← h] at he
        exact he.elim
      | cons x pre =>
        injection h with h _
        exact ⟨r.answer, by rw [← h]; exact List.mem_cons_self .., (agrees_iff _).1 h2⟩
    · rw [hp] at h
      simp only [Bool.false_eq_true, if_false, List.append_nil, List.singleton_append] at h
      cases pre with
      | nil =>
        injection h with h _
        rw [← h] at he
        exact he.elim
      | cons x pre =>
        injection h with _ h
        obtain ⟨t, ht, hy⟩ := ih pre e post h he
        exact ⟨t, List.mem_cons_of_mem _ ht, hy⟩

theorem no_answer_symbols (r : Run) (v : Text) : ∀ t, Event.answer t ∉ (uploadIfNeeded r v).1 := by
  intro t h
  unfold uploadIfNeeded uploadSymbols at h
  repeat' split at h
  all_goals simp at h

theorem no_answer_uploads (r : Run) : ∀ t, Event.answer t ∉ uploads r := by
  intro t h
  have key := no_answer_symbols r (r.version ++ "-md5+".toList ++ r.hash.take 8) t
  unfold uploads at h
  generalize r.version ++ "-md5+".toList ++ r.hash.take 8 = v at h key
  split at h
  · exact nomatch h
  split at h
  · exact nomatch h
  split at h
  · exact nomatch h
  simp only at h
  by_cases hc : (!r.noSymbols && r.loggedIn) = true
  · rw [if_pos hc] at h
    split at h
    · split at h
      · exact key h
      · rcases List.mem_append.1 h with h | h
        · exact key h
        · simp at h
    · exact key h
  · rw [if_neg hc] at h
    simp only [if_true] at h
    split at h
    · exact nomatch h
    · simp at h

theorem stored (r : Run) (allowed : Bool) (h : (command allowed r).2 = true) (l : List Run) :
    ∀ t, Event.answer t ∉ history (command allowed r).2 l := by
  rw [h]
  clear h
  intro t
  induction l with
  | nil => intro h; exact nomatch h
  | cons x l ih =>
    intro ht
    have e : command true x = (uploads x, true) := rfl
    unfold history at ht
    rw [e] at ht
    rcases List.mem_append.1 ht with ht | ht
    · exact no_answer_uploads x t ht
    · exact ih ht

/-- What is sent before the coredump. -/
def before (r : Run) (v : Text) : List Event × Bool :=
  if !r.noSymbols && r.loggedIn then uploadIfNeeded r v else ([], true)

theorem uploads_eq {r : Run} {data : List Byte} (ha : r.argsOk = true) (hk : r.loggedIn = true ∨ r.key ≠ none)
    (hm : r.memory = some data) (v : Text) (hv : v = r.version ++ "-md5+".toList ++ r.hash.take 8) :
    uploads r = if (before r v).2 then (match projectKey r with
      | none => (before r v).1
      | some k => (before r v).1 ++ [.coredump k v data]) else (before r v).1 := by
  subst hv
  unfold uploads
  have h2 : (!r.loggedIn && r.key.isNone) = false := by
    rcases hk with h | h
    · rw [h]; rfl
    · cases hh : r.key with
      | none => exact absurd hh h
      | some k => simp
  rw [ha, h2, hm]
  rfl

theorem uploads_data {r : Run} (h : uploads r ≠ []) : r.argsOk = true ∧ (r.loggedIn = true ∨ r.key ≠ none) ∧
    ∃ data, r.memory = some data := by
  unfold uploads at h
  split at h
  · exact absurd rfl h
  rename_i h1
  split at h
  · exact absurd rfl h
  rename_i h2
  split at h
  · exact absurd rfl h
  rename_i data hm
  refine ⟨by simpa using h1, ?_, data, hm⟩
  cases hl : r.loggedIn
  · refine Or.inr fun e => h2 ?_
    rw [hl, e]
    rfl
  · exact Or.inl rfl

/-- What can be sent before the coredump. -/
theorem before_cases (r : Run) (v : Text) :
    (before r v).1 = [] ∨
    ((before r v).1 = [.program r.program] ∨ (before r v).1 = [.program r.program, .symbols v]) ∧
      r.noSymbols = false ∧ r.loggedIn = true ∧ r.hasSymbols = some false := by
  unfold before
  cases hn : r.noSymbols
  · cases hl : r.loggedIn
    · exact Or.inl rfl
    · simp only [Bool.not_false, Bool.and_self, if_true]
      unfold uploadIfNeeded
      split
      · exact Or.inl rfl
      · exact Or.inl rfl
      · rename_i hs
        unfold uploadSymbols
        split
        · exact Or.inl rfl
        split
        · exact Or.inl rfl
        split
        · exact Or.inl rfl
        split
        · exact Or.inr ⟨Or.inl rfl, trivial, trivial, hs⟩
        split
        · exact Or.inr ⟨Or.inl rfl, trivial, trivial, hs⟩
        · rename_i c _
          refine Or.inr ⟨?_, trivial, trivial, hs⟩
          cases isGood c
          · exact Or.inl rfl
          · exact Or.inr rfl
  · exact Or.inl rfl

end GdbUploadAux

open GdbUploadAux

/-- C129: whatever the user does with the command, nothing is sent before they typed an answer with a `y` in it.
Missing: an answer with a `y` need not be a yes (`C129_false_answer`). -/
theorem C129_consent_partial (l : List Run) (pre : List Event) (e : Event) (post : List Event)
    (h : history false l = pre ++ e :: post) (he : e.Sends) : ∃ t, Event.answer t ∈ pre ∧ ('y' ∈ t ∨ 'Y' ∈ t) :=
  consent_from l pre e post h he

/-- C129: an answer without a `y` ends the command, and the user is asked again the next time. -/
theorem C129_refused (r : Run) (h : 'y' ∉ r.answer ∧ 'Y' ∉ r.answer) (l : List Run) :
    history false (r :: l) = .answer r.answer :: history false l := by
  have : agrees r.answer = false := Bool.eq_false_iff.2 fun e => by
    rcases (agrees_iff _).1 e with e | e
    · exact h.1 e
    · exact h.2 e
  have hc : command false r = ([.answer r.answer], false) := by
    unfold command permission
    simp [this]
  show (command false r).1 ++ history (command false r).2 l = _
  rw [hc]
  rfl

/-- C129: after an answer with a `y` that could be stored, the user is never asked again. -/
theorem C129_asked_once (r : Run) (h : 'y' ∈ r.answer ∨ 'Y' ∈ r.answer) (hs : r.canSave = true) (l : List Run) :
    ∃ sent, history false (r :: l) = .answer r.answer :: sent ∧ ∀ t, Event.answer t ∉ sent := by
  have ha := (agrees_iff _).2 h
  have hp : permission false r = ([.answer r.answer], true, true) := by
    unfold permission
    simp [ha, hs]
  have hc : command false r = (.answer r.answer :: uploads r, true) := by
    unfold command
    rw [hp]
    rfl
  refine ⟨uploads r ++ history true l, ?_, ?_⟩
  · show (command false r).1 ++ history (command false r).2 l = _
    rw [hc]
    rfl
  · intro t ht
    rcases List.mem_append.1 ht with ht | ht
    · exact no_answer_uploads r t ht
    · have := stored r false (by rw [hc]) l t
      rw [hc] at this
      exact this ht

/-- C129: the program is sent only if the user is logged in, did not say `--no-symbols`, and the server said that it does
not have it; then it is the program that was given. -/
theorem C129_program (allowed : Bool) (r : Run) (p : List Byte) (h : Event.program p ∈ history allowed [r]) :
    p = r.program ∧ r.loggedIn = true ∧ r.noSymbols = false ∧ r.hasSymbols = some false := by
  have hu : Event.program p ∈ uploads r := by
    have h : Event.program p ∈ (command allowed r).1 ++ [] := h
    rw [List.append_nil] at h
    unfold command at h
    rcases permission_cases allowed r with ⟨_, e⟩ | ⟨_, _, _, e⟩ | ⟨_, _, e⟩ <;> rw [e] at h <;> simpa using h
  have hne : uploads r ≠ [] := fun e => by rw [e] at hu; exact nomatch hu
  obtain ⟨ha, hk, data, hm⟩ := uploads_data hne
  rw [uploads_eq ha hk hm _ rfl] at hu
  generalize r.version ++ "-md5+".toList ++ r.hash.take 8 = v at hu
  have hb : Event.program p ∈ (before r v).1 := by
    split at hu
    · split at hu
      · exact hu
      · rcases List.mem_append.1 hu with hu | hu
        · exact hu
        · simp at hu
    · exact hu
  rcases before_cases r v with e | ⟨e | e, h1, h2, h3⟩
  · rw [e] at hb; exact nomatch hb
  · rw [e] at hb
    simp at hb
    exact ⟨hb, h2, h1, h3⟩
  · rw [e] at hb
    simp at hb
    exact ⟨hb, h2, h1, h3⟩

/-- C129: each coredump has the memory of the device, goes to the project that was given or else to the one of the user, and
has the same version as the program that was sent with it, with the first eight digits of the hash. -/
theorem C129_coredump (allowed : Bool) (r : Run) (k v : Text) (d : List Byte)
    (h : Event.coredump k v d ∈ history allowed [r]) :
    r.memory = some d ∧ (r.key = some k ∨ r.key = none ∧ r.loggedIn = true ∧ r.serverKey = some (some k)) ∧
      v = r.version ++ "-md5+".toList ++ r.hash.take 8 ∧ ∀ w, Event.symbols w ∈ history allowed [r] → w = v := by
  have to : ∀ e : Event, (∀ t, e ≠ .answer t) → e ∈ history allowed [r] → e ∈ uploads r := by
    intro e hne h
    have h : e ∈ (command allowed r).1 ++ [] := h
    rw [List.append_nil] at h
    unfold command at h
    have := hne r.answer
    rcases permission_cases allowed r with ⟨_, e⟩ | ⟨_, _, _, e⟩ | ⟨_, _, e⟩ <;> rw [e] at h <;> simp_all
  have hu := to _ (fun t => by simp) h
  have hne : uploads r ≠ [] := fun e => by rw [e] at hu; exact nomatch hu
  obtain ⟨ha, hk, data, hm⟩ := uploads_data hne
  have hsym : ∀ w, Event.symbols w ∈ history allowed [r] → Event.symbols w ∈ uploads r := fun w hw =>
    to _ (fun t => by simp) hw
  rw [uploads_eq ha hk hm _ rfl] at hu hsym
  generalize r.version ++ "-md5+".toList ++ r.hash.take 8 = u at hu hsym
  have nocd : Event.coredump k v d ∉ (before r u).1 := by
    rcases before_cases r u with e | ⟨e | e, _⟩ <;> rw [e] <;> simp
  have sym : ∀ w, Event.symbols w ∈ (before r u).1 → w = u := by
    intro w hw
    rcases before_cases r u with e | ⟨e | e, _⟩ <;> rw [e] at hw <;> simp at hw
    exact hw
  split at hu
  · rename_i hb
    cases hp : projectKey r with
    | none => rw [hp] at hu; exact absurd hu nocd
    | some k' =>
      rw [hp] at hu
      rw [if_pos hb, hp] at hsym
      rcases List.mem_append.1 hu with hu | hu
      · exact absurd hu nocd
      · simp at hu
        obtain ⟨rfl, rfl, rfl⟩ := hu
        refine ⟨hm, ?_, rfl, ?_⟩
        · unfold projectKey at hp
          cases hkey : r.key with
          | some x => rw [hkey] at hp; exact Or.inl hp
          | none =>
            rw [hkey] at hp hk
            refine Or.inr ⟨rfl, ?_, ?_⟩
            · rcases hk with hk | hk
              · exact hk
              · exact absurd rfl hk
            · cases hs : r.serverKey with
              | none => rw [hs] at hp; exact nomatch hp
              | some x => rw [hs] at hp; exact congrArg some hp
        · intro w hw
          rcases List.mem_append.1 (hsym w hw) with hw | hw
          · exact sym w hw
          · simp at hw
  · exact absurd hu nocd

/-- C129: once the user agreed, a coredump is sent with each use of the command with a project key, once and last, if there is
a device and the server can be reached, even if the server refuses the program. -/
theorem C129_sent (r : Run) (ha : r.argsOk = true) (k : Text) (hk : r.key = some k) (d : List Byte)
    (hm : r.memory = some d)
    (hr : r.hasSymbols ≠ none ∧ r.prepare ≠ none ∧ r.put ≠ none ∧ r.register ≠ none) :
    ∃ pre, history true [r] = pre ++ [.coredump k (r.version ++ "-md5+".toList ++ r.hash.take 8) d] ∧
      ∀ k' v' d', Event.coredump k' v' d' ∉ pre := by
  have e : history true [r] = uploads r := List.append_nil _
  have hp : projectKey r = some k := by
    unfold projectKey
    rw [hk]
  rw [e, uploads_eq ha (Or.inr (by rw [hk]; simp)) hm _ rfl]
  generalize r.version ++ "-md5+".toList ++ r.hash.take 8 = u
  have hb : (before r u).2 = true := by
    unfold before uploadIfNeeded uploadSymbols
    obtain ⟨h1, h2, h3, h4⟩ := hr
    repeat' split
    all_goals first | rfl | (exfalso; simp_all; done)
  rw [if_pos hb, hp]
  refine ⟨(before r u).1, rfl, ?_⟩
  intro k' v' d'
  rcases before_cases r u with e | ⟨e | e, _⟩ <;> rw [e] <;> simp

/-- C129: a program that the server does not have is sent before the coredump, and named by its version. -/
theorem C129_symbols (r : Run) (ha : r.argsOk = true) (k : Text) (hk : r.key = some k) (d : List Byte)
    (hm : r.memory = some d) (hl : r.loggedIn = true) (hn : r.noSymbols = false) (hs : r.hasSymbols = some false)
    (a b c : Nat) (h1 : r.prepare = some a) (h2 : r.put = some b) (h3 : r.register = some c) (g1 : good a) (g2 : good b)
    (g3 : good c) :
    history true [r] = [.program r.program, .symbols (r.version ++ "-md5+".toList ++ r.hash.take 8),
      .coredump k (r.version ++ "-md5+".toList ++ r.hash.take 8) d] := by
  have e : history true [r] = uploads r := List.append_nil _
  have hp : projectKey r = some k := by
    unfold projectKey
    rw [hk]
  rw [e, uploads_eq ha (Or.inl hl) hm _ rfl]
  generalize r.version ++ "-md5+".toList ++ r.hash.take 8 = u
  have hb : before r u = ([.program r.program, .symbols u], true) := by
    unfold before uploadIfNeeded uploadSymbols
    rw [hl, hn, hs, h1, h2, h3]
    simp [(good_iff a).2 g1, (good_iff b).2 g2, (good_iff c).2 g3]
  rw [hb, hp]
  rfl

/-! ### Examples -/

namespace GdbUploadAux

/-- A user that is logged in. -/
def sample (answer : Text) : Run :=
  { answer := answer, canSave := true, argsOk := true, key := some ['k'], loggedIn := true, noSymbols := false,
    memory := some [1, 2], program := [3], version := ['v'], hash := ['a', 'b'], hasSymbols := some false,
    prepare := some 200, put := some 200, register := some 201, serverKey := none }

end GdbUploadAux

example : history true [sample []] = [.program [3], .symbols ("v".toList ++ "-md5+".toList ++ "ab".toList),
    .coredump ['k'] ("v".toList ++ "-md5+".toList ++ "ab".toList) [1, 2]] := by
  decide +kernel

example : ∃ t, Event.answer t ∈ [Event.answer ['n'], .answer ['y']] ∧ ('y' ∈ t ∨ 'Y' ∈ t) :=
  C129_consent_partial [sample ['n'], sample ['y']] [.answer ['n'], .answer ['y']] (.program [3])
    [.symbols "v-md5+ab".toList, .coredump ['k'] "v-md5+ab".toList [1, 2]] (by decide +kernel) trivial

/-- C129, a defect: the answer "no way" is taken for a yes. The program and the memory are sent, and the user is not asked
again. -/
theorem C129_false_answer : ∃ r : Run, r.answer = "no way".toList ∧
    history false [r, r] = [.answer "no way".toList, .program [3], .symbols "v-md5+ab".toList,
      .coredump ['k'] "v-md5+ab".toList [1, 2], .program [3], .symbols "v-md5+ab".toList,
      .coredump ['k'] "v-md5+ab".toList [1, 2]] :=
  ⟨sample "no way".toList, rfl, by decide +kernel⟩

end Mflt.Props
