import Verif.Lemmas.LogStep

/-! # Invariants of the log's specification -/

namespace Mflt.Spec.Log

open Mflt.Log

/-- The room taken by lines. -/
def size (ls : List Line) : Nat := (ls.map lineSize).sum

def lines (es : List Entry) : List Line := es.map Entry.line

theorem size_lines (es : List Entry) : size (lines es) = total es := by
  simp [size, lines, total, Function.comp_def]

theorem size_append (a b : List Line) : size (a ++ b) = size a + size b := by simp [size]

theorem size_suffix {a b : List Line} (h : a <:+ b) : size a ≤ size b := by
  obtain ⟨t, rfl⟩ := h; rw [size_append]; omega

theorem suffix_total {X A B : List Line} (hX : X <:+ A) (hB : B <:+ A) (h : X.length ≤ B.length) :
    X <:+ B := List.suffix_of_suffix_length_le hX hB h

/-- `makeRoom` keeps the longest suffix that leaves enough room. -/
theorem makeRoom_longest (cap need : Nat) (es : List Entry) (X : List Line)
    (hX : X <:+ lines es) (hfit : size X + need ≤ cap) : X <:+ lines (makeRoom cap need es) := by
  induction es with
  | nil => simpa [makeRoom] using hX
  | cons e es ih =>
    unfold makeRoom
    split
    · exact hX
    · rename_i hn
      rcases List.suffix_cons_iff.mp (show X <:+ e.line :: lines es from hX) with h | h
      · exfalso
        apply hn
        rw [← size_lines]
        subst h
        exact hfit
      · exact ih h

structure Inv (S : State) : Prop where
  fits : total S.entries ≤ S.cap
  suffix : lines S.entries <:+ S.accepted
  longest : ∀ X, X <:+ S.accepted → size X ≤ S.cap → X <:+ lines S.entries
  reads : S.lost = false → ∃ rd un, S.entries = rd ++ un ∧ (∀ e ∈ rd, e.read = true) ∧
    (∀ e ∈ un, e.read = false) ∧ (S.returned ++ lines un).Sublist S.accepted ∧
    S.accepted.length = S.returned.length + un.length + S.forgotten

theorem init_inv (minLevel cap : Nat) : Inv (init minLevel cap) := by
  refine ⟨by simp [init, total], by simp [init, lines], fun X h _ => by simpa [init, lines] using h, ?_⟩
  intro _
  exact ⟨[], [], rfl, by simp, by simp, by simp [init, lines], rfl⟩

theorem lines_append (a b : List Entry) : lines (a ++ b) = lines a ++ lines b := by simp [lines]

theorem suffix_snoc {X A : List Line} {l : Line} (h : X <:+ A ++ [l]) :
    X = [] ∨ ∃ Y, X = Y ++ [l] ∧ Y <:+ A := by
  obtain ⟨t, ht⟩ := h
  rcases List.eq_nil_or_concat X with h0 | ⟨Y, y, hY⟩
  · exact .inl h0
  · rw [List.concat_eq_append] at hY
    subst hY
    rw [← List.append_assoc] at ht
    have := List.append_inj' ht rfl
    simp only [List.cons.injEq, and_true] at this
    exact .inr ⟨Y, by rw [this.2], ⟨t, this.1⟩⟩

theorem suffix_append_right {A B : List Line} (h : A <:+ B) (l : Line) : A ++ [l] <:+ B ++ [l] := by
  obtain ⟨t, rfl⟩ := h; exact ⟨t, by simp⟩

theorem evict_reads (cap need : Nat) : ∀ (es : List Entry) (ret acc : List Line) (k : Nat),
    ((evicted cap need es).any fun e => e.sent && !e.read) = false →
    (∃ rd un, es = rd ++ un ∧ (∀ e ∈ rd, e.read = true) ∧ (∀ e ∈ un, e.read = false) ∧
      (ret ++ lines un).Sublist acc ∧ acc.length = ret.length + un.length + k) →
    ∃ rd un, makeRoom cap need es = rd ++ un ∧ (∀ e ∈ rd, e.read = true) ∧
      (∀ e ∈ un, e.read = false) ∧ (ret ++ lines un).Sublist acc ∧
      acc.length = ret.length + un.length +
        (k + (evicted cap need es).countP fun e => !e.read && !e.sent) := by
  intro es
  induction es with
  | nil =>
    rintro ret acc k - ⟨rd, un, h1, h2, h3, h4, h5⟩
    exact ⟨rd, un, h1, h2, h3, h4, by simpa [evicted] using h5⟩
  | cons e es ih =>
    rintro ret acc k hl ⟨rd, un, h1, h2, h3, h4, h5⟩
    by_cases hfit : total (e :: es) + need ≤ cap
    · obtain ⟨m1, m2⟩ := makeRoom_of_fits hfit
      rw [m1, m2]
      exact ⟨rd, un, h1, h2, h3, h4, by simpa using h5⟩
    · rw [evicted_cons hfit] at hl ⊢
      have hmr : makeRoom cap need (e :: es) = makeRoom cap need es := by
        rw [makeRoom, if_neg hfit]
      rw [hmr]
      simp only [List.any_cons, Bool.or_eq_false_iff] at hl
      cases rd with
      | cons x rd =>
        simp only [List.cons_append, List.cons.injEq] at h1
        obtain ⟨rfl, h1⟩ := h1
        obtain ⟨rd', un', i1, i2, i3, i4, i5⟩ := ih ret acc k hl.2
          ⟨rd, un, h1, fun y hy => h2 y (by simp [hy]), h3, h4, h5⟩
        refine ⟨rd', un', i1, i2, i3, i4, ?_⟩
        rw [List.countP_cons, h2 e (by simp)]
        simpa using i5
      | nil =>
        simp only [List.nil_append] at h1
        subst h1
        have hr := h3 e (by simp)
        have hs : e.sent = false := by
          have := hl.1
          rw [hr] at this
          simpa using this
        have hsub : (ret ++ lines es).Sublist acc := by
          refine List.Sublist.trans ?_ h4
          exact List.Sublist.append_left (List.sublist_cons_self _ _) ret
        obtain ⟨rd', un', i1, i2, i3, i4, i5⟩ := ih ret acc (k + 1) hl.2
          ⟨[], es, rfl, by simp, fun y hy => h3 y (by simp [hy]), hsub, by
            simp only [List.length_cons] at h5; omega⟩
        refine ⟨rd', un', i1, i2, i3, i4, ?_⟩
        rw [List.countP_cons, hr, hs]
        simp only [Bool.not_false, Bool.and_self, if_true]
        omega

theorem save_inv {cfg : Config} {S : State} (h : Inv S) (level type : Nat) (text : Bytes)
    (now : Option Nat) : Inv (save cfg S level type text now) := by
  unfold save
  by_cases hm : level < S.minLevel
  · rw [if_pos hm]; exact h
  simp only [if_neg hm]
  generalize lineOf cfg level type text now = l
  by_cases hfit : total S.entries + lineSize l ≤ S.cap
  · rw [if_pos hfit]
    refine ⟨?_, ?_, ?_, ?_⟩
    · simpa [total] using hfit
    · simp only [lines_append]; exact suffix_append_right h.suffix l
    · intro X hX hs
      simp only [lines_append]
      rcases suffix_snoc hX with rfl | ⟨Y, rfl, hY⟩
      · simp
      · simp only [size_append] at hs
        exact suffix_append_right (h.longest Y hY (by omega)) l
    · intro hl
      obtain ⟨rd, un, p1, p2, p3, p4, p5⟩ := h.reads hl
      refine ⟨rd, un ++ [⟨l, false, false⟩], by simp only [p1, List.append_assoc], p2, ?_, ?_, ?_⟩
      · intro e he
        rcases List.mem_append.mp he with he | he
        · exact p3 e he
        · simp only [List.mem_singleton] at he; subst he; rfl
      · simp only [lines_append, ← List.append_assoc]
        exact List.Sublist.append p4 (List.Sublist.refl _)
      · simp only [List.length_append, p5, List.length_cons, List.length_nil]; omega
  · rw [if_neg hfit]
    by_cases href : S.cap < lineSize l ∨ S.frozen.isSome
    · rw [if_pos href]; exact ⟨h.fits, h.suffix, h.longest, h.reads⟩
    · rw [if_neg href]
      have hcap : lineSize l ≤ S.cap := by
        have := (not_or.mp href).1; omega
      have hmr := makeRoom_suffix S.cap (lineSize l) S.entries
      have hms : lines (makeRoom S.cap (lineSize l) S.entries) <:+ lines S.entries :=
        ⟨lines (evicted S.cap (lineSize l) S.entries), by rw [← lines_append, ← hmr]⟩
      refine ⟨?_, ?_, ?_, ?_⟩
      · simp only [total_append, total_cons, total_nil]
        exact makeRoom_fits hcap _
      · simp only [lines_append]; exact suffix_append_right (hms.trans h.suffix) l
      · intro X hX hs
        simp only [lines_append]
        rcases suffix_snoc hX with rfl | ⟨Y, rfl, hY⟩
        · simp
        · have h1 : size [l] = lineSize l := by simp [size]
          simp only [size_append, h1] at hs
          exact suffix_append_right
            (makeRoom_longest _ _ _ Y (h.longest Y hY (by omega)) (by omega)) l
      · intro hl
        simp only [Bool.or_eq_false_iff] at hl
        obtain ⟨rd, un, q1, q2, q3, q4, q5⟩ := evict_reads S.cap (lineSize l) S.entries S.returned
          S.accepted S.forgotten hl.2 (h.reads hl.1)
        refine ⟨rd, un ++ [⟨l, false, false⟩], by simp only [q1, List.append_assoc], q2, ?_, ?_, ?_⟩
        · intro e he
          rcases List.mem_append.mp he with he | he
          · exact q3 e he
          · simp only [List.mem_singleton] at he; subst he; rfl
        · simp only [lines_append, ← List.append_assoc]
          exact List.Sublist.append q4 (List.Sublist.refl _)
        · simp only [List.length_append, q5, List.length_cons, List.length_nil]; omega

theorem readLine_inv {S : State} (h : Inv S) (hl : S.lost = false) : Inv (readLine S).2 := by
  obtain ⟨rd, un, p1, p2, p3, p4, p5⟩ := h.reads hl
  unfold readLine
  rw [p1, takeUnread_split p2 p3]
  cases un with
  | nil => exact h
  | cons e un =>
    simp only
    have hlines : lines (rd ++ { e with read := true } :: un) = lines S.entries := by
      rw [p1]; simp [lines]
    refine ⟨?_, ?_, ?_, ?_⟩
    · rw [← size_lines, hlines, size_lines]; exact h.fits
    · rw [hlines]; exact h.suffix
    · simp only [hlines]; exact h.longest
    · intro _
      refine ⟨rd ++ [{ e with read := true }], un, by simp, ?_, fun x hx => p3 x (by simp [hx]), ?_, ?_⟩
      · intro x hx
        rcases List.mem_append.mp hx with hx | hx
        · exact p2 x hx
        · simp only [List.mem_singleton] at hx; subst hx; rfl
      · simpa [lines] using p4
      · simp only [List.length_append, p5, List.length_cons, List.length_nil]; omega

theorem lines_markSent (es : List Entry) (n : Nat) : lines (markSent n es) = lines es :=
  markSent_map Entry.line (fun _ _ => rfl) es n

theorem step_inv {cfg : Config} {S S' : State} {op : Op} {o : Out} (h : Inv S)
    (hs : step cfg S op = some (o, S')) : Inv S' := by
  cases op with
  | save level type text now =>
    simp only [step] at hs
    split at hs
    · simp only [Option.some.injEq, Prod.mk.injEq] at hs
      obtain ⟨-, rfl⟩ := hs
      exact save_inv h level type text now
    · cases hs
  | setMinLevel level =>
    simp only [step, Option.some.injEq, Prod.mk.injEq] at hs
    obtain ⟨-, rfl⟩ := hs
    exact ⟨h.fits, h.suffix, h.longest, h.reads⟩
  | read =>
    simp only [step] at hs
    by_cases hl : S.lost = true
    · simp [hl] at hs
    rw [if_neg hl] at hs
    have h' : Inv { S with reported := dropped S } := ⟨h.fits, h.suffix, h.longest, h.reads⟩
    split at hs
    · simp only [Option.some.injEq, Prod.mk.injEq] at hs
      obtain ⟨-, rfl⟩ := hs
      exact h'
    · simp only [Option.some.injEq] at hs
      have := readLine_inv h' (by simpa using hl)
      rw [hs] at this
      exact this
  | trigger now =>
    simp only [step] at hs
    split at hs
    · cases hs
    · split at hs
      · simp only [Option.some.injEq, Prod.mk.injEq] at hs
        obtain ⟨-, rfl⟩ := hs
        exact h
      · simp only [Option.some.injEq, Prod.mk.injEq] at hs
        obtain ⟨-, rfl⟩ := hs
        exact ⟨h.fits, h.suffix, h.longest, h.reads⟩
  | markSent =>
    simp only [step, Option.map_eq_some_iff, Prod.mk.injEq] at hs
    obtain ⟨⟨n, now⟩, -, -, rfl⟩ := hs
    refine ⟨?_, ?_, ?_, ?_⟩
    · simp only [total_markSent]; exact h.fits
    · simp only [lines_markSent]; exact h.suffix
    · simp only [lines_markSent]; exact h.longest
    · intro hl
      obtain ⟨rd, un, p1, p2, p3, p4, p5⟩ := h.reads hl
      obtain ⟨m, hm⟩ := markSent_split rd un n
      refine ⟨markSent n rd, markSent m un, by simp only [p1, hm], ?_, ?_, ?_, ?_⟩
      · exact markSent_forall (p := fun e => e.read = true) (fun _ _ x => x) p2 n
      · exact markSent_forall (p := fun e => e.read = false) (fun _ _ x => x) p3 m
      · rw [lines_markSent]; exact p4
      · have := congrArg List.length (lines_markSent un m)
        simp only [lines, List.length_map] at this
        simp only [this]; exact p5
  | unsentCount =>
    simp only [step, Option.some.injEq, Prod.mk.injEq] at hs; obtain ⟨-, rfl⟩ := hs; exact h
  | droppedCount =>
    simp only [step, Option.some.injEq, Prod.mk.injEq] at hs; obtain ⟨-, rfl⟩ := hs; exact h
  | recordedCount =>
    simp only [step, Option.some.injEq, Prod.mk.injEq] at hs; obtain ⟨-, rfl⟩ := hs; exact h

/-- Induction over runs. -/
theorem run_induct {cfg : Config} {P : State → Prop}
    (hstep : ∀ S op o S', P S → step cfg S op = some (o, S') → P S') (ops : List Op) :
    ∀ {S S' : State} {outs : List Out}, P S → run cfg S ops = some (outs, S') → P S' := by
  induction ops with
  | nil =>
    intro S S' outs h hs
    simp only [run, Option.some.injEq, Prod.mk.injEq] at hs
    obtain ⟨-, rfl⟩ := hs
    exact h
  | cons op ops ih =>
    intro S S' outs h hs
    simp only [run, Option.bind_eq_some_iff, Option.map_eq_some_iff] at hs
    obtain ⟨⟨o, S1⟩, a1, ⟨os, S2⟩, a2, a3⟩ := hs
    simp only [Prod.mk.injEq] at a3
    obtain ⟨-, rfl⟩ := a3
    exact ih (hstep _ _ _ _ h a1) a2

theorem run_inv {cfg : Config} (ops : List Op) {S S' : State} {outs : List Out} (h : Inv S)
    (hs : run cfg S ops = some (outs, S')) : Inv S' :=
  run_induct (fun _ _ _ _ => step_inv) ops h hs

/-- The lines in a sequence of results. -/
def logsIn (outs : List Out) : List Record :=
  outs.filterMap fun | .log r => some r | _ => none

theorem step_returned {cfg : Config} {S S' : State} {op : Op} {o : Out}
    (hs : step cfg S op = some (o, S')) :
    S'.returned.map record = S.returned.map record ++ logsIn [o] := by
  cases op with
  | save level type text now =>
    simp only [step] at hs
    split at hs
    · simp only [Option.some.injEq, Prod.mk.injEq] at hs
      obtain ⟨rfl, rfl⟩ := hs
      unfold save
      split
      · simp [logsIn]
      · simp only
        split
        · simp [logsIn]
        · split <;> simp [logsIn]
    · cases hs
  | setMinLevel level =>
    simp only [step, Option.some.injEq, Prod.mk.injEq] at hs
    obtain ⟨rfl, rfl⟩ := hs
    simp [logsIn]
  | read =>
    simp only [step] at hs
    split at hs
    · cases hs
    · split at hs
      · simp only [Option.some.injEq, Prod.mk.injEq] at hs
        obtain ⟨rfl, rfl⟩ := hs
        simp [logsIn]
      · simp only [readLine, Option.some.injEq] at hs
        split at hs
        · simp only [Prod.mk.injEq] at hs
          obtain ⟨rfl, rfl⟩ := hs
          simp [logsIn]
        · simp only [Prod.mk.injEq] at hs
          obtain ⟨rfl, rfl⟩ := hs
          simp [logsIn]
  | trigger now =>
    simp only [step] at hs
    split at hs
    · cases hs
    · split at hs <;> (simp only [Option.some.injEq, Prod.mk.injEq] at hs; obtain ⟨rfl, rfl⟩ := hs; simp [logsIn])
  | markSent =>
    simp only [step, Option.map_eq_some_iff, Prod.mk.injEq] at hs
    obtain ⟨⟨n, now⟩, -, rfl, rfl⟩ := hs
    simp [logsIn]
  | unsentCount =>
    simp only [step, Option.some.injEq, Prod.mk.injEq] at hs; obtain ⟨rfl, rfl⟩ := hs; simp [logsIn]
  | droppedCount =>
    simp only [step, Option.some.injEq, Prod.mk.injEq] at hs; obtain ⟨rfl, rfl⟩ := hs; simp [logsIn]
  | recordedCount =>
    simp only [step, Option.some.injEq, Prod.mk.injEq] at hs; obtain ⟨rfl, rfl⟩ := hs; simp [logsIn]

theorem run_returned {cfg : Config} (ops : List Op) : ∀ {S S' : State} {outs : List Out},
    run cfg S ops = some (outs, S') →
    S'.returned.map record = S.returned.map record ++ logsIn outs := by
  induction ops with
  | nil =>
    intro S S' outs hs
    simp only [run, Option.some.injEq, Prod.mk.injEq] at hs
    obtain ⟨rfl, rfl⟩ := hs
    simp [logsIn]
  | cons op ops ih =>
    intro S S' outs hs
    simp only [run, Option.bind_eq_some_iff, Option.map_eq_some_iff] at hs
    obtain ⟨⟨o, S1⟩, a1, ⟨os, S2⟩, a2, a3⟩ := hs
    simp only [Prod.mk.injEq] at a3
    obtain ⟨rfl, rfl⟩ := a3
    rw [ih a2, step_returned a1, List.append_assoc]
    congr 1
    simp only [logsIn, List.filterMap_cons, List.filterMap_nil]
    cases o <;> simp

/-- The number of saves that pass the level filter. -/
def attempts : Nat → List Op → Nat
  | _, [] => 0
  | m, .save level _ _ _ :: ops => (if level < m then 0 else 1) + attempts m ops
  | _, .setMinLevel level :: ops => attempts level ops
  | m, _ :: ops => attempts m ops

theorem run_attempts {cfg : Config} (ops : List Op) : ∀ {S S' : State} {outs : List Out},
    run cfg S ops = some (outs, S') →
    S'.accepted.length + S'.refused = S.accepted.length + S.refused + attempts S.minLevel ops := by
  induction ops with
  | nil =>
    intro S S' outs hs
    simp only [run, Option.some.injEq, Prod.mk.injEq] at hs
    obtain ⟨-, rfl⟩ := hs
    rfl
  | cons op ops ih =>
    intro S S' outs hs
    simp only [run, Option.bind_eq_some_iff, Option.map_eq_some_iff] at hs
    obtain ⟨⟨o, S1⟩, a1, ⟨os, S2⟩, a2, a3⟩ := hs
    simp only [Prod.mk.injEq] at a3
    obtain ⟨-, rfl⟩ := a3
    have hi := ih a2
    rw [hi]
    cases op with
    | save level type text now =>
      simp only [step] at a1
      split at a1
      · simp only [Option.some.injEq, Prod.mk.injEq] at a1
        obtain ⟨-, rfl⟩ := a1
        have hat : attempts S.minLevel (.save level type text now :: ops) =
            (if level < S.minLevel then 0 else 1) + attempts S.minLevel ops := rfl
        rw [hat]
        clear hi hat a2
        unfold save
        split
        · simp
        · simp only
          split
          · simp; omega
          · split <;> simp <;> omega
      · cases a1
    | setMinLevel level =>
      simp only [step, Option.some.injEq, Prod.mk.injEq] at a1
      obtain ⟨-, rfl⟩ := a1
      rfl
    | read =>
      simp only [step] at a1
      split at a1
      · cases a1
      · split at a1
        · simp only [Option.some.injEq, Prod.mk.injEq] at a1
          obtain ⟨-, rfl⟩ := a1
          rfl
        · simp only [readLine, Option.some.injEq] at a1
          split at a1 <;> (simp only [Prod.mk.injEq] at a1; obtain ⟨-, rfl⟩ := a1; rfl)
    | trigger now =>
      simp only [step] at a1
      split at a1
      · cases a1
      · split at a1 <;> (simp only [Option.some.injEq, Prod.mk.injEq] at a1; obtain ⟨-, rfl⟩ := a1; rfl)
    | markSent =>
      simp only [step, Option.map_eq_some_iff, Prod.mk.injEq] at a1
      obtain ⟨⟨n, now⟩, -, -, rfl⟩ := a1
      rfl
    | unsentCount =>
      simp only [step, Option.some.injEq, Prod.mk.injEq] at a1; obtain ⟨-, rfl⟩ := a1; rfl
    | droppedCount =>
      simp only [step, Option.some.injEq, Prod.mk.injEq] at a1; obtain ⟨-, rfl⟩ := a1; rfl
    | recordedCount =>
      simp only [step, Option.some.injEq, Prod.mk.injEq] at a1; obtain ⟨-, rfl⟩ := a1; rfl

end Mflt.Spec.Log
