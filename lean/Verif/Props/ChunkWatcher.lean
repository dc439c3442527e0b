import Verif.Model.ChunkWatcher

/-!
# C131: running the commands that a device prints
-/

namespace Mflt.Props

open Mflt.Spec.ChunkWatcher Mflt.ChunkWatcher

namespace ChunkWatcherAux

theorem find_none (w : Text) : ∀ s : Text, find w s = none ↔ ¬ Has w s := by
  intro s
  induction s with
  | nil =>
    unfold find
    constructor
    · intro h
      split at h
      · exact nomatch h
      · rename_i hw
        rintro ⟨a, b, e⟩
        have := (List.append_eq_nil_iff.1 (List.append_eq_nil_iff.1 e.symm).1).2
        exact hw (by simp [this])
    · intro h
      rw [if_neg]
      intro hw
      exact h ⟨[], [], by simpa using hw⟩
  | cons c s ih =>
    unfold find
    constructor
    · intro h
      split at h
      · exact nomatch h
      · rename_i hw
        rintro ⟨a, b, e⟩
        cases a with
        | nil => exact hw (List.isPrefixOf_iff_prefix.2 ⟨b, by simpa using e.symm⟩)
        | cons d a =>
          injection e with _ e
          exact ih.1 (Option.map_eq_none_iff.1 h) ⟨a, b, e⟩
    · intro h
      rw [if_neg, ih.2]
      · rfl
      · rintro ⟨a, b, e⟩
        exact h ⟨c :: a, b, by rw [e]; rfl⟩
      · intro hw
        obtain ⟨t, ht⟩ := List.isPrefixOf_iff_prefix.1 hw
        exact h ⟨[], t, by simpa using ht.symm⟩

theorem find_first {w : Text} : ∀ {s pre : Text}, FirstAt w s pre → find w s = some pre.length := by
  intro s
  induction s with
  | nil =>
    rintro pre ⟨⟨b, e⟩, _⟩
    obtain ⟨h1, h2⟩ := List.append_eq_nil_iff.1 (List.append_eq_nil_iff.1 e.symm).1
    unfold find
    simp [h1, h2]
  | cons c s ih =>
    rintro pre ⟨⟨b, e⟩, hmin⟩
    unfold find
    by_cases hw : w.isPrefixOf (c :: s) = true
    · rw [if_pos hw]
      obtain ⟨t, ht⟩ := List.isPrefixOf_iff_prefix.1 hw
      have := hmin [] t (by simpa using ht.symm)
      have : pre.length = 0 := Nat.le_zero.1 this
      rw [this]
    · rw [if_neg hw]
      cases pre with
      | nil => exact absurd (List.isPrefixOf_iff_prefix.2 ⟨b, by simpa using e.symm⟩) hw
      | cons d pre =>
        injection e with e1 e2
        rw [ih ⟨⟨b, e2⟩, fun a b' e' => by simpa using hmin (c :: a) b' (by rw [e']; rfl)⟩]
        rfl

theorem has_take {w a b : Text} (h : ¬ Has w (a ++ b)) : ¬ Has w a := by
  rintro ⟨x, y, e⟩
  exact h ⟨x, y ++ b, by rw [e]; simp⟩

/-- A read without the end of a command does nothing. -/
theorem submit_wait {w : Watcher} {stream : Text} (h : ¬ Has done (stream.drop w.idx)) :
    submit w stream = (w, none) := by
  have h1 : find "print_chunk done".toList (stream.drop w.idx) = none := (find_none _ _).2 h
  unfold submit
  simp only [h1]
  split
  · rename_i e; exact nomatch e
  · rfl

theorem cut {pre body s : Text} {post : Text} (e : s = pre ++ start ++ body ++ done ++ post) :
    (s.take (pre ++ start ++ body).length).drop pre.length = start ++ body := by
  have h1 : s.take (pre ++ start ++ body).length = pre ++ start ++ body := by
    rw [e, List.append_assoc (pre ++ start ++ body), List.take_left]
  rw [h1, List.append_assoc, List.drop_left]

/-- A read with the end of a command. -/
theorem submit_done {w : Watcher} {stream pre body : Text} (h1 : FirstAt start (stream.drop w.idx) pre)
    (h2 : FirstAt done (stream.drop w.idx) (pre ++ start ++ body)) (hk : ¬ Has noKey (start ++ body)) :
    submit w stream = (⟨stream.length, w.stdin.drop 1⟩, some ⟨script (start ++ body), isYes w.stdin⟩) := by
  have e1 : find "echo \\".toList (stream.drop w.idx) = some pre.length := find_first h1
  have e2 : find "print_chunk done".toList (stream.drop w.idx) = some (pre ++ start ++ body).length := find_first h2
  obtain ⟨post, ep⟩ := h2.1
  have e3 := cut ep
  have e4 : find "<YOUR PROJECT KEY HERE>".toList (start ++ body) = none := (find_none _ _).2 hk
  unfold submit
  simp only [e1, e2, e3, e4]
  rfl

theorem submit_key {w : Watcher} {stream pre body : Text} (h1 : FirstAt start (stream.drop w.idx) pre)
    (h2 : FirstAt done (stream.drop w.idx) (pre ++ start ++ body)) (hk : Has noKey (start ++ body)) :
    submit w stream = (⟨stream.length, w.stdin⟩, none) := by
  have e1 : find "echo \\".toList (stream.drop w.idx) = some pre.length := find_first h1
  have e2 : find "print_chunk done".toList (stream.drop w.idx) = some (pre ++ start ++ body).length := find_first h2
  obtain ⟨post, ep⟩ := h2.1
  have e3 := cut ep
  have e4 : (find "<YOUR PROJECT KEY HERE>".toList (start ++ body)).isSome = true := by
    cases h : find "<YOUR PROJECT KEY HERE>".toList (start ++ body) with
    | none => exact absurd hk ((find_none _ _).1 h)
    | some n => rfl
  unfold submit
  simp only [e1, e2, e3, e4, if_true]

/-- Reads without the end of a command do nothing. -/
theorem watch_wait (rest : List Text) : ∀ (reads : List Text) (w : Watcher) (stream : Text), w.idx ≤ stream.length →
    ¬ Has done (stream.drop w.idx ++ reads.flatten) →
    watch w stream (reads ++ rest) = watch w (stream ++ reads.flatten) rest := by
  intro reads
  induction reads with
  | nil => intro w stream _ _; simp
  | cons r l ih =>
    intro w stream hi h
    have hd : (stream ++ r).drop w.idx = stream.drop w.idx ++ r := List.drop_append_of_le_length hi
    have hs : submit w (stream ++ r) = (w, none) := by
      apply submit_wait
      rw [hd]
      rw [List.flatten_cons, ← List.append_assoc] at h
      exact has_take h
    show (submit w (stream ++ r)).2.toList ++ watch (submit w (stream ++ r)).1 (stream ++ r) (l ++ rest) = _
    rw [hs]
    have := ih w (stream ++ r) (by simp; omega) (by rw [hd, List.append_assoc, ← List.flatten_cons]; exact h)
    simp only [Option.toList_none, List.nil_append]
    rw [this, List.flatten_cons, List.append_assoc]

/-- A printed command, with all before it done. -/
theorem watch_printed (p : Printed) (hp : p.Ok) (hk : ¬ Has noKey (start ++ p.body)) (stream stdin : Text)
    (rest : List Text) :
    watch ⟨stream.length, stdin⟩ stream (p.reads ++ p.last :: rest) =
      ⟨script (start ++ p.body), isYes stdin⟩ ::
        watch ⟨(stream ++ p.text).length, stdin.drop 1⟩ (stream ++ p.text) rest := by
  obtain ⟨⟨pre, h1, h2⟩, h3⟩ := hp
  rw [watch_wait (p.last :: rest) p.reads ⟨stream.length, stdin⟩ stream (Nat.le_refl _) (by simpa using h3)]
  have ht : stream ++ p.reads.flatten ++ p.last = stream ++ p.text := by
    unfold Printed.text
    rw [List.append_assoc]
  have hd : (stream ++ p.text).drop stream.length = p.text := List.drop_left
  have hs : submit ⟨stream.length, stdin⟩ (stream ++ p.text) = _ :=
    submit_done (w := ⟨stream.length, stdin⟩) (by simpa [hd] using h1) (by simpa [hd] using h2) hk
  show (submit _ (stream ++ p.reads.flatten ++ p.last)).2.toList ++ watch _ _ rest = _
  rw [ht, hs]
  rfl

theorem watch_key (p : Printed) (hp : p.Ok) (hk : Has noKey (start ++ p.body)) (stream stdin : Text)
    (rest : List Text) :
    watch ⟨stream.length, stdin⟩ stream (p.reads ++ p.last :: rest) =
      watch ⟨(stream ++ p.text).length, stdin⟩ (stream ++ p.text) rest := by
  obtain ⟨⟨pre, h1, h2⟩, h3⟩ := hp
  rw [watch_wait (p.last :: rest) p.reads ⟨stream.length, stdin⟩ stream (Nat.le_refl _) (by simpa using h3)]
  have ht : stream ++ p.reads.flatten ++ p.last = stream ++ p.text := by
    unfold Printed.text
    rw [List.append_assoc]
  have hd : (stream ++ p.text).drop stream.length = p.text := List.drop_left
  have hs : submit ⟨stream.length, stdin⟩ (stream ++ p.text) = _ :=
    submit_key (w := ⟨stream.length, stdin⟩) (by simpa [hd] using h1) (by simpa [hd] using h2) hk
  show (submit _ (stream ++ p.reads.flatten ++ p.last)).2.toList ++ watch _ _ rest = _
  rw [ht, hs]
  rfl

/-! ### Script -/

theorem eol_iff (c : Char) : (c = '\n' ∨ c = '\r') ↔ EndOfLine c := Iff.rfl

theorem lines_go : ∀ (s cur : Text), (∀ c ∈ cur, ¬ EndOfLine c) →
    Lines (cur ++ s) ((splitLines cur s).filter fun l => !l.isEmpty) := by
  intro s
  induction s with
  | nil =>
    intro cur hc
    unfold splitLines
    by_cases h : cur = []
    · subst h; exact Lines.nil
    · rw [if_neg h]
      have : ([cur].filter fun l => !l.isEmpty) = [cur] := by
        simp [h]
      rw [this]
      exact Lines.line cur [] [] h hc (fun c r e => nomatch e) Lines.nil
  | cons c s ih =>
    intro cur hc
    unfold splitLines
    by_cases h : c = '\n' ∨ c = '\r'
    · rw [if_pos h]
      have hs := ih [] fun c hc => nomatch hc
      rw [List.nil_append] at hs
      have hskip := Lines.skip c s _ h hs
      by_cases hcur : cur = []
      · subst hcur
        have : (([] : Text) :: splitLines [] s).filter (fun l => !l.isEmpty) =
            (splitLines [] s).filter fun l => !l.isEmpty := rfl
        rw [this]
        exact hskip
      · rw [List.filter_cons_of_pos (by simp [hcur])]
        refine Lines.line cur (c :: s) _ hcur hc ?_ hskip
        intro d r e
        injection e with e _
        exact e ▸ h
    · rw [if_neg h]
      have := ih (cur ++ [c]) (by
        intro d hd
        rcases List.mem_append.1 hd with hd | hd
        · exact hc d hd
        · rw [List.mem_singleton.1 hd]; exact h)
      simpa using this

theorem flat_filter (l : List Text) : (l.flatMap fun x => if x.length = 0 then [] else x ++ ['\n']) =
    (l.filter fun x => !x.isEmpty).flatMap fun p => p ++ ['\n'] := by
  induction l with
  | nil => rfl
  | cons x l ih =>
    rw [List.flatMap_cons, ih]
    cases x with
    | nil => rfl
    | cons c x => rfl

theorem script_ok (cmd : Text) : Script cmd (script cmd) := by
  refine ⟨(splitLines [] cmd).filter fun x => !x.isEmpty, ?_, flat_filter _⟩
  have := lines_go cmd [] fun c hc => nomatch hc
  simpa using this

/-- The lines of a text are known. -/
theorem lines_unique : ∀ {s : Text} {l : List Text}, Lines s l → ∀ {m : List Text}, Lines s m → l = m := by
  intro s l h
  induction h with
  | nil =>
    intro m h
    generalize hs : ([] : Text) = s at h
    cases h with
    | nil => rfl
    | skip c s l _ _ => exact nomatch hs
    | line p s l hp _ _ _ => exact absurd (List.append_eq_nil_iff.1 hs.symm).1 hp
  | skip c s l hc _ ih =>
    intro m h
    generalize hs : c :: s = t at h
    cases h with
    | nil => exact nomatch hs
    | skip d t m _ h =>
      injection hs with _ hs
      subst hs
      exact ih h
    | line p t m hp hpn _ _ =>
      cases p with
      | nil => exact absurd rfl hp
      | cons d p =>
        injection hs with hs _
        exact absurd (hs ▸ hc) (hpn d (List.mem_cons_self ..))
  | line p s l hp hpn hstop _ ih =>
    intro m h
    generalize hs : p ++ s = t at h
    cases h with
    | nil => exact absurd (List.append_eq_nil_iff.1 hs).1 hp
    | skip d t m hd _ =>
      cases p with
      | nil => exact absurd rfl hp
      | cons c p =>
        injection hs with hs _
        exact absurd (hs ▸ hd) (hpn c (List.mem_cons_self ..))
    | line q t m hq hqn htstop h =>
      have key : p = q ∧ s = t := by
        rcases List.append_eq_append_iff.1 hs with ⟨x, e1, e2⟩ | ⟨x, e1, e2⟩
        · cases x with
          | nil => exact ⟨by simpa using e1.symm, by simpa using e2⟩
          | cons c x => exact absurd (hstop c _ e2) (hqn c (by rw [e1]; simp))
        · cases x with
          | nil => exact ⟨by simpa using e1, by simpa using e2.symm⟩
          | cons c x => exact absurd (htstop c _ e2) (hpn c (by rw [e1]; simp))
      obtain ⟨rfl, rfl⟩ := key
      rw [ih h]

theorem script_unique {cmd a b : Text} (ha : Script cmd a) (hb : Script cmd b) : a = b := by
  obtain ⟨l, hl, rfl⟩ := ha
  obtain ⟨m, hm, rfl⟩ := hb
  rw [lines_unique hl hm]

theorem run_from : ∀ (l : List Printed) (stream stdin : Text), (∀ p ∈ l, p.Ok ∧ ¬ Has noKey (start ++ p.body)) →
    (watch ⟨stream.length, stdin⟩ stream (l.flatMap fun p => p.reads ++ [p.last])).length = l.length ∧
    ∀ i (h : i < l.length), ∃ a, (watch ⟨stream.length, stdin⟩ stream (l.flatMap fun p => p.reads ++ [p.last]))[i]? =
      some a ∧ Script (start ++ l[i].body) a.script ∧ (a.ran = true ↔ stdin[i]? = some 'y' ∨ stdin[i]? = some 'Y') := by
  intro l
  induction l with
  | nil => intro stream stdin _; exact ⟨rfl, fun i h => absurd h (Nat.not_lt_zero _)⟩
  | cons p l ih =>
    intro stream stdin h
    obtain ⟨hp, hk⟩ := h p (List.mem_cons_self ..)
    have e : ((p :: l).flatMap fun p => p.reads ++ [p.last]) =
        p.reads ++ p.last :: l.flatMap fun p => p.reads ++ [p.last] := by
      rw [List.flatMap_cons]
      simp
    rw [e, watch_printed p hp hk]
    obtain ⟨h1, h2⟩ := ih (stream ++ p.text) (stdin.drop 1) fun q hq => h q (List.mem_cons_of_mem _ hq)
    refine ⟨by rw [List.length_cons, h1, List.length_cons], ?_⟩
    intro i hi
    cases i with
    | zero =>
      refine ⟨_, rfl, script_ok _, ?_⟩
      unfold isYes
      cases stdin with
      | nil => simp
      | cons c s => simp
    | succ i =>
      obtain ⟨a, ha, hs, hr⟩ := h2 i (by simpa using hi)
      refine ⟨a, by simpa using ha, hs, ?_⟩
      rw [hr, List.getElem?_drop, Nat.add_comm 1 i]

end ChunkWatcherAux

open ChunkWatcherAux

/-- C131: however the output of the device is cut into reads, the user is asked once for each command that is printed, in
order, for a script with exactly its lines; it is run exactly if the next character of the input is a `y` or a `Y`.
Missing: reads with the end of one command and a part of the next (`C131_false_next`), the end of a command before its
start (`C131_false_done`), and that this character is the answer of the user (`C131_false_newline`). -/
theorem C131_commands_partial (stdin : Text) (l : List Printed) (h : ∀ p ∈ l, p.Ok ∧ ¬ Has noKey (start ++ p.body)) :
    (run stdin (l.flatMap fun p => p.reads ++ [p.last])).length = l.length ∧
    ∀ i (hi : i < l.length), ∃ a, (run stdin (l.flatMap fun p => p.reads ++ [p.last]))[i]? = some a ∧
      Script (start ++ l[i].body) a.script ∧ (a.ran = true ↔ stdin[i]? = some 'y' ∨ stdin[i]? = some 'Y') :=
  run_from l [] stdin h

/-- C131: there is only one script for a command. -/
theorem C131_script {cmd a b : Text} (ha : Script cmd a) (hb : Script cmd b) : a = b := script_unique ha hb

/-- C131: a command without a project key is neither asked for nor run, and takes no answer; commands after it are found. -/
theorem C131_no_key (stdin : Text) (p : Printed) (hp : p.Ok) (hk : Has noKey (start ++ p.body)) (q : Printed) (hq : q.Ok)
    (hqk : ¬ Has noKey (start ++ q.body)) :
    run stdin (p.reads ++ [p.last]) = [] ∧
      ∃ a, run stdin (p.reads ++ [p.last] ++ (q.reads ++ [q.last])) = [a] ∧ Script (start ++ q.body) a.script ∧
        (a.ran = true ↔ stdin[0]? = some 'y' ∨ stdin[0]? = some 'Y') := by
  refine ⟨watch_key p hp hk [] stdin [], ?_⟩
  have e : run stdin (p.reads ++ [p.last] ++ (q.reads ++ [q.last])) =
      watch ⟨(([] : Text) ++ p.text).length, stdin⟩ ([] ++ p.text) (q.reads ++ q.last :: []) := by
    rw [← watch_key p hp hk [] stdin]
    unfold run
    simp
  rw [e, watch_printed q hq hqk]
  refine ⟨_, rfl, script_ok _, ?_⟩
  unfold isYes
  cases stdin with
  | nil => simp
  | cons c s => simp

/-- C131: without the end of a command nothing is asked and nothing is run. -/
theorem C131_quiet (stdin : Text) (reads : List Text) (h : ¬ Has done reads.flatten) : run stdin reads = [] := by
  have := watch_wait [] reads ⟨0, stdin⟩ [] (Nat.le_refl _) (by simpa using h)
  rw [List.append_nil] at this
  unfold run
  rw [this]
  rfl

/-! ### Examples -/

namespace ChunkWatcherAux

theorem first_of_find {w s : Text} (pre b : Text) (h : s = pre ++ w ++ b) (hf : find w s = some pre.length) :
    FirstAt w s pre := by
  refine ⟨⟨b, h⟩, ?_⟩
  clear h b
  intro a b h
  subst h
  revert pre
  induction a with
  | nil =>
    intro pre hf
    cases hw : ([] ++ w ++ b : Text) with
    | nil =>
      rw [hw] at hf
      unfold find at hf
      split at hf
      · injection hf with hf; omega
      · exact nomatch hf
    | cons c t =>
      rw [hw] at hf
      unfold find at hf
      have : w.isPrefixOf (c :: t) = true := List.isPrefixOf_iff_prefix.2 ⟨b, by simpa using hw⟩
      rw [if_pos this] at hf
      injection hf with hf
      omega
  | cons c a ih =>
    intro pre hf
    have e : (c :: a ++ w ++ b : Text) = c :: (a ++ w ++ b) := rfl
    rw [e] at hf
    unfold find at hf
    split at hf
    · injection hf with hf; omega
    · obtain ⟨n, hn, he⟩ := Option.map_eq_some_iff.1 hf
      cases pre with
      | nil => simp at he
      | cons d pre =>
        have := ih pre (by rw [hn]; simp at he; rw [he])
        simpa using this

/-- A command, in three reads. -/
def sample : Printed where
  reads := ["> ec".toList, "ho \\\r\nAB".toList]
  last := "\nprint_chunk done\n".toList
  body := "\r\nAB\n".toList

theorem sample_ok : sample.Ok := by
  refine ⟨⟨"> ".toList, first_of_find _ "\r\nAB\nprint_chunk done\n".toList (by decide +kernel) (by decide +kernel),
    first_of_find _ "\n".toList (by decide +kernel) (by decide +kernel)⟩, ?_⟩
  exact (find_none _ _).1 (by decide +kernel)

end ChunkWatcherAux

example : run "yn".toList (([sample, sample]).flatMap fun p => p.reads ++ [p.last]) =
    [⟨"echo \\\nAB\n".toList, true⟩, ⟨"echo \\\nAB\n".toList, false⟩] := by
  decide +kernel

example : ∀ p ∈ [sample, sample], p.Ok ∧ ¬ Has noKey (start ++ p.body) := by
  intro p hp
  have : p = sample := by simpa using hp
  subst this
  exact ⟨sample_ok, (find_none _ _).1 (by decide +kernel)⟩

/-- C131, a defect: if the start of the next command is read together with the end of one, the next is lost. -/
theorem C131_false_next : run "yy".toList ["echo \\\nA\nprint_chunk done\necho \\\n".toList,
    "B\nprint_chunk done\n".toList] = [⟨"echo \\\nA\n".toList, true⟩] := by
  decide +kernel

/-- C131, a defect: the words `print_chunk done` before a command lead to an empty script, and the command is lost. -/
theorem C131_false_done : run "yy".toList ["print_chunk done\necho \\\n".toList, "A\nprint_chunk done\n".toList] =
    [⟨[], true⟩] := by
  decide +kernel

/-- C131, a defect: the end of the line after the first answer is taken for the second answer. -/
theorem C131_false_newline : run "y\ny\n".toList ["echo \\\nA\nprint_chunk done\n".toList,
    "echo \\\nB\nprint_chunk done\n".toList] = [⟨"echo \\\nA\n".toList, true⟩, ⟨"echo \\\nB\n".toList, false⟩] := by
  decide +kernel

end Mflt.Props
