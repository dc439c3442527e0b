import Verif.Spec.ZephyrLog
import Verif.Props.Log

/-!
# C92: Zephyr's log messages in the log of the SDK
-/

namespace Mflt.Props

open Mflt.ZephyrLog
open Mflt.Spec.ZephyrLog

private theorem map_level (z : Nat) : mapLevel z = Spec.ZephyrLog.level z := by
  unfold mapLevel Spec.ZephyrLog.level
  split
  · rename_i h; subst h; rfl
  · split
    · rename_i h; subst h; rfl
    · split
      · rename_i h; subst h; rfl
      · split <;> first | rfl | (exfalso; omega)

/-! ## Immediate mode -/

/-- A non-empty text without the ends of line behind its first character. -/
private def trim : Bytes → Bytes
  | [] => []
  | c :: cs => c :: (cs.reverse.dropWhile eol).reverse

private theorem trim_snoc (xs : Bytes) (c : UInt8) (h : xs ≠ []) :
    trim (xs ++ [c]) = if eol c = true then trim xs else xs ++ [c] := by
  cases xs with
  | nil => exact absurd rfl h
  | cons x xs =>
    simp only [trim, List.cons_append, List.reverse_append, List.reverse_cons, List.reverse_nil, List.nil_append,
      List.dropWhile_cons]
    split
    · rfl
    · simp

private theorem strip_spec (buf : Bytes) : ∀ n, 0 < n → n ≤ buf.length →
    ∃ k, strip buf n = some k ∧ k ≤ n ∧ buf.take k = trim (buf.take n) := by
  intro n
  induction n with
  | zero => intro h; omega
  | succ n ih =>
    intro _ hn
    cases n with
    | zero =>
      refine ⟨1, rfl, Nat.le_refl _, ?_⟩
      cases buf with
      | nil => simp at hn
      | cons b bs => simp [trim]
    | succ n =>
      have hlt : n + 1 < buf.length := by omega
      have e : buf.take (n + 2) = buf.take (n + 1) ++ [buf[n + 1]] := by rw [List.take_add_one, List.getElem?_eq_getElem hlt]; rfl
      rw [e, trim_snoc _ _ (by
        intro h
        have := congrArg List.length h
        rw [List.length_take, List.length_nil] at this
        omega)]
      rw [strip, List.getElem?_eq_getElem hlt, Option.bind_some]
      by_cases hc : buf[n + 1] = 13 ∨ buf[n + 1] = 10
      · rw [if_pos hc, if_pos (by simpa [eol] using hc)]
        obtain ⟨k, h1, h2, h3⟩ := ih (by omega) (by omega)
        exact ⟨k, h1, by omega, h3⟩
      · rw [if_neg hc, if_neg (by simpa [eol] using hc)]
        exact ⟨n + 2, rfl, Nat.le_refl _, e⟩

private theorem left_step (i : Bool) (c : Bytes → Nat) (k : Nat) (ops : List Op) :
    left i c k (.step :: ops) = left i c (k - 1) ops := by cases k <;> rfl

private theorem taken_step (i : Bool) (c : Bytes → Nat) (k : Nat) (ops : List Op) :
    taken i c k (.step :: ops) = taken i c (k - 1) ops := by cases k <;> rfl

private theorem left_dropped (i : Bool) (c : Bytes → Nat) (k n : Nat) (ops : List Op) :
    left i c k (.dropped n :: ops) = left i c k ops := by cases k <;> rfl

private theorem taken_dropped (i : Bool) (c : Bytes → Nat) (k n : Nat) (ops : List Op) :
    taken i c k (.dropped n :: ops) = taken i c k ops := by cases k <;> rfl

private theorem left_log (c : Bytes → Nat) (isr : Bool) (l : Nat) (t : Bytes) (ops : List Op) :
    left true c 0 (.log isr l t :: ops) = left true c (c t) ops := by rw [left, if_neg (by simp)]

private theorem taken_log (c : Bytes → Nat) (isr : Bool) (l : Nat) (t : Bytes) (ops : List Op) :
    taken true c 0 (.log isr l t :: ops) = (l, t) :: taken true c (c t) ops := by rw [taken, if_neg (by simp)]

private theorem taken_nil (ops : List Op) : taken false perCharacter 0 ops = [] → left false perCharacter 0 ops = 0 := by
  induction ops with
  | nil => intro _; rfl
  | cons o os ih =>
    intro h
    cases o with
    | log isr l t =>
      rw [taken] at h
      split at h
      · rename_i hc
        rw [left, if_pos hc]
        exact ih h
      · cases h
    | step => exact ih h
    | dropped n => exact ih h

/-- What is known while a message is processed. -/
private structure ImmAt (s : Imm) (k : Nat) (l : Nat) (t : Bytes) : Prop where
  len : s.buf.length = 128
  busy : s.busy = true
  cur : ∃ done rest, t = done ++ rest ∧ k = rest.length + 1 ∧
    s.active = some ⟨Spec.ZephyrLog.level l, rest, min done.length 128⟩ ∧
    s.buf.take (min done.length 128) = done.take 128

private theorem imm_run (maxLine : Nat) (ops : List Op) : ∀ (s : Imm) (k : Nat),
    (∀ m ∈ logged ops, m.2 ≠ []) → s.buf.length = 128 →
    (k = 0 → s.busy = false ∧ s.active = none →
      ∃ s', immRun maxLine s ops = some s' ∧
        s'.calls = s.calls ++ ((if left false perCharacter 0 ops = 0 then taken false perCharacter 0 ops
          else (taken false perCharacter 0 ops).dropLast).map fun m => ⟨Spec.ZephyrLog.level m.1, (line m.2).take maxLine⟩)) ∧
    (∀ l t, t ≠ [] → ImmAt s k l t →
      ∃ s', immRun maxLine s ops = some s' ∧
        s'.calls = s.calls ++ ((if left false perCharacter k ops = 0 then (l, t) :: taken false perCharacter k ops
          else ((l, t) :: taken false perCharacter k ops).dropLast).map fun m => ⟨Spec.ZephyrLog.level m.1, (line m.2).take maxLine⟩)) := by
  induction ops with
  | nil =>
    intro s k _ _
    refine ⟨?_, ?_⟩
    · intro _ _
      exact ⟨s, rfl, by simp [left, taken]⟩
    · intro l t _ h
      obtain ⟨d, r, _, hk, _, _⟩ := h.cur
      refine ⟨s, rfl, ?_⟩
      rw [left, if_neg (by omega)]
      simp [taken]
  | cons op ops ih =>
    intro s k hne hlen
    cases op with
    | log isr l t =>
      have hne' : ∀ m ∈ logged ops, m.2 ≠ [] := fun m hm => hne m (by simp [logged, hm])
      have ht : t ≠ [] := hne (l, t) (by simp [logged])
      refine ⟨?_, ?_⟩
      · intro hk0 ⟨hb, ha⟩
        cases isr with
        | true =>
          obtain ⟨s', h1, h2⟩ := (ih s 0 hne' hlen).1 rfl ⟨hb, ha⟩
          refine ⟨s', ?_, ?_⟩
          · simp only [immRun, immStep, if_true, Option.bind_some]; exact h1
          · simp only [left, taken, and_self, if_true]; exact h2
        | false =>
          have hat : ImmAt { s with busy := true, active := some ⟨mapLevel l, t, 0⟩ } (perCharacter t) l t :=
            ⟨hlen, rfl, [], t, rfl, rfl, by simp [map_level], by simp⟩
          obtain ⟨s', h1, h2⟩ := (ih { s with busy := true, active := some ⟨mapLevel l, t, 0⟩ } (perCharacter t) hne'
            hlen).2 l t ht hat
          refine ⟨s', ?_, ?_⟩
          · simp only [immRun, immStep, hb, Bool.false_eq_true, if_false, Option.bind_some]; exact h1
          · simp only [left, taken, Bool.false_eq_true, false_and, if_false]; exact h2
      · intro l' t' ht' h
        obtain ⟨d, r, _, hk, _, _⟩ := h.cur
        obtain ⟨s', h1, h2⟩ := (ih s k hne' hlen).2 l' t' ht' h
        refine ⟨s', ?_, ?_⟩
        · simp only [immRun, immStep, h.busy, if_true]
          cases isr <;> simp only [Bool.false_eq_true, if_true, if_false, Option.bind_some] <;> exact h1
        · subst hk
          simp only [left, taken]; exact h2
    | step =>
      have hne' : ∀ m ∈ logged ops, m.2 ≠ [] := hne
      refine ⟨?_, ?_⟩
      · intro hk0 ⟨hb, ha⟩
        obtain ⟨s', h1, h2⟩ := (ih s 0 hne' hlen).1 rfl ⟨hb, ha⟩
        refine ⟨s', ?_, ?_⟩
        · simp only [immRun, immStep, ha, Option.bind_some]; exact h1
        · simp only [left, taken, Nat.zero_sub]; exact h2
      · intro l t ht h
        obtain ⟨d, r, htd, hk, hact, hbuf⟩ := h.cur
        cases r with
        | nil =>
          rw [List.append_nil] at htd
          subst htd
          have hpos : 0 < t.length := List.length_pos_iff.2 ht
          obtain ⟨n, e1, e2, e3⟩ := strip_spec s.buf (min t.length 128) (by omega) (by omega)
          rw [hbuf] at e3
          have eline : trim (t.take 128) = line t := by
            unfold line trim
            cases t.take 128 <;> rfl
          rw [eline] at e3
          have er : readLine maxLine s.buf n = some ((line t).take maxLine) := by
            unfold readLine
            rw [if_pos (by omega), ← e3, List.take_take, Nat.min_comm]
          obtain ⟨s', h1, h2⟩ := (ih { s with busy := false, active := none, calls := s.calls ++
            [⟨Spec.ZephyrLog.level l, (line t).take maxLine⟩] } 0 hne' hlen).1 rfl ⟨rfl, rfl⟩
          refine ⟨s', ?_, ?_⟩
          · simp only [immRun, immStep, hact, e1, Option.bind_some, er, Option.map_some]; exact h1
          · rw [h2]
            subst hk
            simp only [left, taken, List.length_nil, Nat.zero_add, Nat.sub_self, List.append_assoc]
            congr 1
            split
            · simp
            · rename_i hl
              cases htk : taken false perCharacter 0 ops with
              | nil => exact absurd (taken_nil ops htk) hl
              | cons a as => simp
        | cons c r =>
          have hat : ∀ s2 : Imm, s2.buf = (if min d.length 128 < 128 then s.buf.set (min d.length 128) c else s.buf) →
              s2.busy = true → s2.active = some ⟨Spec.ZephyrLog.level l, r, min (d ++ [c]).length 128⟩ →
              ImmAt s2 (k - 1) l t := by
            intro s2 hb2 hbs ha2
            refine ⟨by rw [hb2]; split <;> simp [hlen], hbs, d ++ [c], r, by rw [htd]; simp, by rw [hk]; simp, ha2, ?_⟩
            rw [hb2]
            by_cases hd : d.length < 128
            · have hl1 : (d ++ [c]).length = d.length + 1 := by simp
              rw [if_pos (by omega), Nat.min_eq_left (show d.length ≤ 128 by omega),
                Nat.min_eq_left (show (d ++ [c]).length ≤ 128 by omega)]
              rw [Nat.min_eq_left (by omega)] at hbuf
              rw [hl1, List.take_add_one, List.take_set_of_le (Nat.le_refl _), hbuf,
                List.getElem?_set_self (by omega), List.take_of_length_le (by omega), List.take_of_length_le (by simp; omega)]
              rfl
            · rw [if_neg (by omega), Nat.min_eq_right (by simp; omega)]
              rw [Nat.min_eq_right (by omega)] at hbuf
              rw [hbuf, List.take_append_of_le_length (by omega)]
          by_cases hd : min d.length 128 < 128
          · obtain ⟨s', h1, h2⟩ := (ih ⟨s.busy, some ⟨Spec.ZephyrLog.level l, r, min d.length 128 + 1⟩,
              s.buf.set (min d.length 128) c, s.calls⟩ (k - 1) hne' (by simp [hlen])).2 l t ht
              (hat _ (by rw [if_pos hd]) h.busy (by
                simp only [Option.some.injEq, Active.mk.injEq, true_and, List.length_append, List.length_singleton]; omega))
            refine ⟨s', ?_, ?_⟩
            · simp only [immRun, immStep, hact, if_pos hd, Option.bind_some]; exact h1
            · rw [h2, left_step, taken_step]
          · obtain ⟨s', h1, h2⟩ := (ih { s with active := some ⟨Spec.ZephyrLog.level l, r, min d.length 128⟩ } (k - 1)
              hne' hlen).2 l t ht (hat _ (by rw [if_neg hd]) h.busy (by
                simp only [Option.some.injEq, Active.mk.injEq, true_and, List.length_append, List.length_singleton]; omega))
            refine ⟨s', ?_, ?_⟩
            · simp only [immRun, immStep, hact, if_neg hd, Option.bind_some]; exact h1
            · rw [h2, left_step, taken_step]
    | dropped n =>
      have hne' : ∀ m ∈ logged ops, m.2 ≠ [] := hne
      refine ⟨?_, ?_⟩
      · intro hk0 hh
        obtain ⟨s', h1, h2⟩ := (ih s 0 hne' hlen).1 rfl hh
        exact ⟨s', h1, by rw [left_dropped, taken_dropped]; exact h2⟩
      · intro l t ht h
        obtain ⟨s', h1, h2⟩ := (ih s k hne' hlen).2 l t ht h
        exact ⟨s', h1, by rw [left_dropped, taken_dropped]; exact h2⟩

/-- **C92 (immediate mode)**: for every schedule of threads and interrupts, the lines that are saved are the
messages that came while none was processed and not from an interrupt, in order, each as one line with its
level; a message that is not finished yet is not saved. Characters of different messages never mix. Missing:
empty messages (`C92_false_empty`), and text after a newline (`C92_false_newline`). -/
theorem C92_immediate_partial (maxLine : Nat) (ops : List Op) (hne : ∀ m ∈ logged ops, m.2 ≠ []) :
    let ms := taken false perCharacter 0 ops
    ∃ s, immRun maxLine immInit ops = some s ∧
      s.calls = (if left false perCharacter 0 ops = 0 then ms else ms.dropLast).map fun m =>
        ⟨Spec.ZephyrLog.level m.1, (line m.2).take maxLine⟩ := by
  obtain ⟨s, h1, h2⟩ := (imm_run maxLine ops immInit 0 hne (by simp [immInit])).1 rfl ⟨rfl, rfl⟩
  exact ⟨s, h1, by simpa [immInit] using h2⟩

private theorem taken_steps (i : Bool) (c : Bytes → Nat) (n : Nat) : ∀ k ops,
    taken i c k (List.replicate n .step ++ ops) = taken i c (k - n) ops ∧
      left i c k (List.replicate n .step ++ ops) = left i c (k - n) ops := by
  induction n with
  | zero => intro k ops; exact ⟨rfl, rfl⟩
  | succ n ih =>
    intro k ops
    rw [List.replicate_succ, List.cons_append, taken_step, left_step, (ih (k - 1) ops).1, (ih (k - 1) ops).2,
      show k - 1 - n = k - (n + 1) by omega]
    exact ⟨rfl, rfl⟩

private theorem taken_oneByOne (i : Bool) (c : Bytes → Nat) (ms : List (Nat × Bytes)) :
    taken i c 0 (oneByOne c ms) = ms ∧ left i c 0 (oneByOne c ms) = 0 := by
  induction ms with
  | nil => exact ⟨rfl, rfl⟩
  | cons m ms ih =>
    have e : oneByOne c (m :: ms) = .log false m.1 m.2 :: (List.replicate (c m.2) .step ++ oneByOne c ms) := by
      simp [oneByOne]
    rw [e, taken, left, if_neg (by simp), if_neg (by simp), (taken_steps i c _ _ _).1, (taken_steps i c _ _ _).2,
      Nat.sub_self, ih.1, ih.2]
    exact ⟨rfl, rfl⟩

private theorem logged_oneByOne (c : Bytes → Nat) (ms : List (Nat × Bytes)) : logged (oneByOne c ms) = ms := by
  have steps : ∀ n ops, logged (List.replicate n .step ++ ops) = logged ops := by
    intro n ops
    induction n with
    | zero => rfl
    | succ n ih => exact ih
  induction ms with
  | nil => rfl
  | cons m ms ih =>
    have e : oneByOne c (m :: ms) = .log false m.1 m.2 :: (List.replicate (c m.2) .step ++ oneByOne c ms) := by
      simp [oneByOne]
    rw [e, logged, steps, ih]

/-- **C92 (nothing is made up)**: the messages that are taken are some of those that were logged, each at most
once and in order. -/
theorem C92_taken (i : Bool) (c : Bytes → Nat) (ops : List Op) : ∀ k, (taken i c k ops).Sublist (logged ops) := by
  induction ops with
  | nil => intro k; simp [taken]
  | cons op ops ih =>
    intro k
    cases op with
    | log isr l t =>
      rw [logged]
      cases k with
      | zero =>
        rw [taken]
        split
        · exact (ih 0).cons _
        · exact (ih _).cons₂ _
      | succ k => rw [taken]; exact (ih _).cons _
    | step => rw [taken_step]; exact ih _
    | dropped n => rw [taken_dropped]; exact ih _

/-- **C92 (immediate mode, one by one)**: if every message is processed before the next one, none is lost. -/
theorem C92_immediate_all (maxLine : Nat) (ms : List (Nat × Bytes)) (hne : ∀ m ∈ ms, m.2 ≠ []) :
    ∃ s, immRun maxLine immInit (oneByOne perCharacter ms) = some s ∧
      s.calls = ms.map fun m => ⟨Spec.ZephyrLog.level m.1, (line m.2).take maxLine⟩ := by
  obtain ⟨s, h1, h2⟩ := C92_immediate_partial maxLine (oneByOne perCharacter ms) (by rw [logged_oneByOne]; exact hne)
  refine ⟨s, h1, ?_⟩
  rw [h2, (taken_oneByOne _ _ _).1, (taken_oneByOne _ _ _).2, if_pos rfl]

/-- A message of another thread in the middle of one is lost, one of an interrupt too; the ends of line go. -/
example : (immRun 128 immInit [.log false 1 [72, 105, 13, 10], .step, .log false 2 [88], .step, .log true 1 [89],
    .step, .step, .step, .log false 4 [90, 10], .step, .step, .step]).map (·.calls) =
    some [⟨3, [72, 105]⟩, ⟨0, [90]⟩] := by
  decide +kernel

/-- **C92 (immediate mode, false)**: an empty message, such as `printk("")`, makes the backend read in front of its
buffer. -/
theorem C92_false_empty (maxLine l : Nat) : immRun maxLine immInit [.log false l [], .step] = none := rfl

/-- **C92 (immediate mode, false)**: the end of line is not stripped of a message that has nothing else. -/
theorem C92_false_newline (maxLine l : Nat) (h : 0 < maxLine) :
    ∃ s, immRun maxLine immInit (oneByOne perCharacter [(l, [13, 10])]) = some s ∧
      s.calls = [⟨Spec.ZephyrLog.level l, [13]⟩] := by
  obtain ⟨s, h1, h2⟩ := C92_immediate_all maxLine [(l, [13, 10])] (by simp)
  refine ⟨s, h1, ?_⟩
  rw [h2]
  obtain ⟨n, rfl⟩ : ∃ n, maxLine = n + 1 := ⟨maxLine - 1, by omega⟩
  simp [line, eol, List.dropWhile]

/-! ## Deferred mode -/

private theorem readLine_all (maxLine : Nat) (t : Bytes) : readLine maxLine t t.length = some (t.take maxLine) := by
  unfold readLine
  rw [if_pos (by omega)]
  congr 1
  by_cases h : t.length ≤ maxLine
  · rw [Nat.min_eq_left h, List.take_length, List.take_of_length_le h]
  · rw [Nat.min_eq_right (by omega)]

private theorem pieces_spec (rest : Bytes) : ∀ pending : Bytes, pending.length ≤ 128 →
    (pieces pending rest).flatten = pending ++ rest ∧ ∃ full last, pieces pending rest = full ++ [last] ∧
      (∀ p ∈ full, p.length = 128) ∧ last.length ≤ 128 ∧ (last = [] → full = [] ∧ pending = []) := by
  induction rest with
  | nil =>
    intro p hp
    exact ⟨by simp [pieces], [], p, rfl, by simp, hp, fun h => ⟨rfl, h⟩⟩
  | cons c rest ih =>
    intro p hp
    rw [pieces]
    split
    · rename_i h
      obtain ⟨i1, full, last, i2, i3, i4, i5⟩ := ih [c] (by simp)
      refine ⟨by rw [List.flatten_cons, i1]; simp, p :: full, last, by rw [i2]; rfl, ?_, i4, ?_⟩
      · intro q hq
        rcases List.mem_cons.1 hq with rfl | hq
        · exact h
        · exact i3 q hq
      · intro hl
        exact absurd (i5 hl).2 (by simp)
    · rename_i h
      obtain ⟨i1, full, last, i2, i3, i4, i5⟩ := ih (p ++ [c]) (by simp; omega)
      refine ⟨by rw [i1]; simp, full, last, i2, i3, i4, ?_⟩
      intro hl
      exact absurd (i5 hl).2 (by simp)

private theorem pieces_ok (t : Bytes) : Pieces t (pieces [] t) := by
  obtain ⟨h1, full, last, h2, h3, h4, h5⟩ := pieces_spec t [] (by simp)
  exact ⟨by simpa using h1, full, last, h2, h3, h4, fun h => (h5 h).1⟩

/-- A message as it is saved. -/
private def cut (maxLine : Nat) (l : Nat) (ps : List Bytes) : List Call :=
  ps.map fun p => ⟨Spec.ZephyrLog.level l, p.take maxLine⟩

private theorem savedAs_flatMap (maxLine : Nat) (ms : List (Nat × Bytes)) :
    SavedAs maxLine ms (ms.flatMap fun m => cut maxLine m.1 (pieces [] m.2)) := by
  induction ms with
  | nil => rfl
  | cons m ms ih => exact ⟨pieces [] m.2, _, pieces_ok m.2, rfl, ih⟩

private theorem def_run (maxLine : Nat) (ops : List Op) : ∀ (s : Def) (k : Nat),
    (∀ n, .dropped n ∉ ops) →
    (k = 0 → s.busy = false ∧ s.active = none ∧ s.buf = [] →
      ∃ s', defRun maxLine s ops = some s' ∧ (left true perCharacter 0 ops = 0 → s'.active = none ∧
        s'.calls = s.calls ++ (taken true perCharacter 0 ops).flatMap fun m => cut maxLine m.1 (pieces [] m.2))) ∧
    (∀ l rest i, s.busy = true → s.active = some ⟨Spec.ZephyrLog.level l, rest, i⟩ → k = rest.length + 1 →
      s.buf.length ≤ 128 →
      ∃ s', defRun maxLine s ops = some s' ∧ (left true perCharacter k ops = 0 → s'.active = none ∧
        s'.calls = s.calls ++ (cut maxLine l (pieces s.buf rest) ++
          (taken true perCharacter k ops).flatMap fun m => cut maxLine m.1 (pieces [] m.2)))) := by
  induction ops with
  | nil =>
    intro s k _
    refine ⟨fun _ h => ⟨s, rfl, fun _ => ⟨h.2.1, by simp [taken]⟩⟩, ?_⟩
    intro l rest i _ _ hk _
    refine ⟨s, rfl, fun h => ?_⟩
    rw [left] at h
    omega
  | cons op ops ih =>
    intro s k hnd
    have hnd' : ∀ n, .dropped n ∉ ops := fun n h => hnd n (List.mem_cons_of_mem _ h)
    cases op with
    | dropped n => exact absurd List.mem_cons_self (hnd n)
    | log isr l t =>
      refine ⟨?_, ?_⟩
      · intro _ ⟨hb, ha, hbuf⟩
        obtain ⟨s', h1, h2⟩ := (ih { s with busy := true, active := some ⟨Spec.ZephyrLog.level l, t, 0⟩ } (perCharacter t)
          hnd').2 l t 0 rfl rfl rfl (by rw [hbuf]; simp)
        refine ⟨s', ?_, ?_⟩
        · rw [defRun, defStep, if_neg (by simp [hb]), Option.bind_some, map_level]; exact h1
        · rw [left, taken, if_neg (by simp), if_neg (by simp)]
          intro hl
          obtain ⟨h3, h4⟩ := h2 hl
          refine ⟨h3, ?_⟩
          rw [h4, hbuf, List.flatMap_cons]
      · intro l' rest i hb ha hk hbuf
        obtain ⟨s', h1, h2⟩ := (ih s k hnd').2 l' rest i hb ha hk hbuf
        refine ⟨s', ?_, ?_⟩
        · rw [defRun, defStep, if_pos hb, Option.bind_some]; exact h1
        · subst hk
          rw [left, taken]; exact h2
    | step =>
      refine ⟨?_, ?_⟩
      · intro _ ⟨hb, ha, hbuf⟩
        obtain ⟨s', h1, h2⟩ := (ih s 0 hnd').1 rfl ⟨hb, ha, hbuf⟩
        refine ⟨s', ?_, ?_⟩
        · rw [defRun, defStep, ha]; exact h1
        · rw [left_step, taken_step]; exact h2
      · intro l rest i hb ha hk hbuf
        rw [left_step, taken_step, defRun, defStep, ha]
        cases rest with
        | nil =>
          dsimp only
          rw [defOut, readLine_all, Option.map_some, Option.map_some, Option.bind_some]
          obtain ⟨s', h1, h2⟩ := (ih ⟨false, none, [], s.calls ++ [⟨Spec.ZephyrLog.level l, s.buf.take maxLine⟩]⟩ 0
            hnd').1 rfl ⟨rfl, rfl, rfl⟩
          subst hk
          refine ⟨s', h1, fun hl => ?_⟩
          obtain ⟨h3, h4⟩ := h2 hl
          refine ⟨h3, ?_⟩
          rw [h4]
          simp [pieces, cut]
        | cons c rest =>
          dsimp only
          by_cases hf : s.buf.length = 128
          · rw [if_pos hf, defOut, readLine_all, Option.map_some, Option.map_some, Option.bind_some]
            obtain ⟨s', h1, h2⟩ := (ih ⟨s.busy, some ⟨Spec.ZephyrLog.level l, rest, i⟩, [c],
              s.calls ++ [⟨Spec.ZephyrLog.level l, s.buf.take maxLine⟩]⟩ (k - 1) hnd').2 l rest i hb rfl
              (by rw [hk]; simp) (by simp)
            refine ⟨s', h1, fun hl => ?_⟩
            obtain ⟨h3, h4⟩ := h2 hl
            refine ⟨h3, ?_⟩
            rw [h4]
            simp [pieces, cut, hf]
          · rw [if_neg hf, Option.bind_some]
            obtain ⟨s', h1, h2⟩ := (ih ⟨s.busy, some ⟨Spec.ZephyrLog.level l, rest, i⟩, s.buf ++ [c], s.calls⟩ (k - 1)
              hnd').2 l rest i hb rfl (by rw [hk]; simp) (by simp; omega)
            refine ⟨s', h1, fun hl => ?_⟩
            obtain ⟨h3, h4⟩ := h2 hl
            refine ⟨h3, ?_⟩
            rw [h4]
            simp [pieces, hf]

/-- **C92 (deferred mode)**: without reports of dropped messages, for every schedule in which the last message is
finished, what is saved are the messages that came while none was processed, in order, with their levels, in
pieces of 128 bytes of which at most a line is kept. Missing: reports of dropped messages (`C92_false_dropped`),
and messages of more than 128 bytes as one line (`C92_false_pieces`). -/
theorem C92_deferred_partial (maxLine : Nat) (ops : List Op) (hnd : ∀ n, .dropped n ∉ ops)
    (hl : left true perCharacter 0 ops = 0) :
    ∃ s, defRun maxLine defInit ops = some s ∧ SavedAs maxLine (taken true perCharacter 0 ops) s.calls := by
  obtain ⟨s, h1, h2⟩ := (def_run maxLine ops defInit 0 hnd).1 rfl ⟨rfl, rfl, rfl⟩
  refine ⟨s, h1, ?_⟩
  rw [(h2 hl).2]
  exact savedAs_flatMap maxLine _

private theorem no_drops (c : Bytes → Nat) (ms : List (Nat × Bytes)) : ∀ n, .dropped n ∉ oneByOne c ms := by
  intro n h
  unfold oneByOne at h
  obtain ⟨m, _, hm⟩ := List.mem_flatMap.1 h
  rcases List.mem_cons.1 hm with hm | hm
  · cases hm
  · have := (List.mem_replicate.1 hm).2
    cases this

/-- **C92 (deferred mode, one by one)**: none is lost. -/
theorem C92_deferred_all (maxLine : Nat) (ms : List (Nat × Bytes)) :
    ∃ s, defRun maxLine defInit (oneByOne perCharacter ms) = some s ∧ SavedAs maxLine ms s.calls := by
  obtain ⟨s, h1, h2⟩ := C92_deferred_partial maxLine (oneByOne perCharacter ms) (no_drops _ ms) (taken_oneByOne _ _ _).2
  exact ⟨s, h1, by rw [(taken_oneByOne _ _ _).1] at h2; exact h2⟩

example : (defRun 100 defInit (oneByOne perCharacter [(1, List.replicate 130 65), (3, [66, 13, 10])])).map (·.calls) =
    some [⟨3, List.replicate 100 65⟩, ⟨3, [65, 65]⟩, ⟨1, [66, 13, 10]⟩] := by
  decide +kernel

/-- **C92 (deferred mode, false)**: a long message is not one line, and if lines are shorter than 128 bytes (as they
are with time stamps), bytes in its middle are lost although later ones are saved. -/
theorem C92_false_pieces (maxLine l : Nat) (t : Bytes) (h1 : 128 < t.length) (h2 : t.length ≤ 256) :
    ∃ s, defRun maxLine defInit (oneByOne perCharacter [(l, t)]) = some s ∧
      s.calls = [⟨Spec.ZephyrLog.level l, (t.take 128).take maxLine⟩, ⟨Spec.ZephyrLog.level l, (t.drop 128).take maxLine⟩] := by
  obtain ⟨s, e1, ps, rest, ⟨e2, full, last, e3, e4, e5, e6⟩, e7, e8⟩ := C92_deferred_all maxLine [(l, t)]
  refine ⟨s, e1, ?_⟩
  rw [e7, show rest = [] from e8, e3]
  rw [e3] at e2
  cases full with
  | nil =>
    simp at e2
    rw [e2] at e5
    omega
  | cons a full =>
    cases full with
    | nil =>
      have ha := e4 a (by simp)
      simp at e2
      rw [← e2]
      rw [show (a ++ last).take 128 = a by rw [List.take_append_of_le_length (by omega), List.take_of_length_le (by omega)],
        show (a ++ last).drop 128 = last by rw [← ha, List.drop_left]]
      rfl
    | cons b full =>
      exfalso
      have ha := e4 a (by simp)
      have hb := e4 b (by simp)
      have hz : last ≠ [] := fun h => absurd (e6 h) (by simp)
      have hz' := List.length_pos_iff.2 hz
      have := congrArg List.length e2
      simp at this
      omega

/-- **C92 (deferred mode, false)**: a report of dropped messages, which comes between messages, is written with the
context of an earlier message, whose stack frame is gone, or without any. -/
theorem C92_false_dropped (maxLine n : Nat) (ops : List Op) (hnd : ∀ n, .dropped n ∉ ops)
    (hl : left true perCharacter 0 ops = 0) : defRun maxLine defInit (ops ++ [.dropped n]) = none := by
  obtain ⟨s, h1, h2⟩ := (def_run maxLine ops defInit 0 hnd).1 rfl ⟨rfl, rfl, rfl⟩
  have happ : ∀ (ops : List Op) (s : Def), defRun maxLine s (ops ++ [.dropped n]) =
      (defRun maxLine s ops).bind fun s => defRun maxLine s [.dropped n] := by
    intro ops
    induction ops with
    | nil => intro s; rfl
    | cons op ops ih =>
      intro s
      rw [List.cons_append, defRun, defRun]
      cases defStep maxLine s op with
      | none => rfl
      | some s => exact ih s
  rw [happ, h1, Option.bind_some, defRun, defStep, (h2 hl).1]
  rfl

/-- **C92 (levels, false)**: what `printk` writes has no level, becomes a debug message and is below the default
level of the log. -/
theorem C92_false_printk (maxLine : Nat) (t : Bytes) (ht : t ≠ []) (cfg : Log.Config) (L : Log.State)
    (hL : L.minLevel = 1) :
    ∃ s c, immRun maxLine immInit (oneByOne perCharacter [(0, t)]) = some s ∧ s.calls = [c] ∧
      ∀ now, Log.save cfg L c.level 0 c.text now = some L := by
  obtain ⟨s, h1, h2⟩ := C92_immediate_all maxLine [(0, t)] (by simpa using ht)
  refine ⟨s, _, h1, h2, ?_⟩
  intro now
  unfold Log.save
  rw [if_pos (show Spec.ZephyrLog.level 0 < L.minLevel by rw [hL]; decide)]

/-! ## Legacy logging -/

private theorem legacy_run (maxLine : Nat) (ops : List LegacyOp) : ∀ s : Legacy,
    (∀ op ∈ ops, (∃ i l t, op = .put i l t) ∨ op = .panic true ∨ ∃ n, op = .dropped true n) →
    ∃ s', legacyRun maxLine s ops = some s' ∧
      s'.calls = s.calls ++ (legacyTaken ops).flatMap fun m => cut maxLine m.1 (pieces [] m.2) := by
  induction ops with
  | nil => intro s _; exact ⟨s, rfl, by simp [legacyTaken]⟩
  | cons op ops ih =>
    intro s h
    have h' := fun o ho => h o (List.mem_cons_of_mem _ ho)
    rcases h op List.mem_cons_self with ⟨i, l, t, rfl⟩ | rfl | ⟨n, rfl⟩
    · rw [legacyRun, legacyStep, legacyTaken]
      by_cases hl : l = 0
      · rw [if_pos hl, if_pos (.inr hl), Option.bind_some]
        exact ih s h'
      · rw [if_neg hl, Option.bind_some]
        obtain ⟨s', h1, h2⟩ := ih ⟨true, s.calls ++ legacyOut maxLine i (mapLevel l) (pieces [] t)⟩ h'
        refine ⟨s', h1, ?_⟩
        rw [h2]
        cases i with
        | true => simp [legacyOut]
        | false => simp [legacyOut, hl, cut, map_level]
    · obtain ⟨s', h1, h2⟩ := ih s h'
      exact ⟨s', h1, h2⟩
    · obtain ⟨s', h1, h2⟩ := ih s h'
      exact ⟨s', h1, h2⟩

/-- **C92 (legacy logging)**: with panics and reports of dropped messages in interrupts only, the messages with a
level that do not come from an interrupt are saved in order. Missing: panics and reports of dropped messages
outside of interrupts (`C92_false_legacy_stale`). -/
theorem C92_legacy_partial (maxLine : Nat) (ops : List LegacyOp)
    (h : ∀ op ∈ ops, (∃ i l t, op = .put i l t) ∨ op = .panic true ∨ ∃ n, op = .dropped true n) :
    ∃ s, legacyRun maxLine ⟨false, []⟩ ops = some s ∧ SavedAs maxLine (legacyTaken ops) s.calls := by
  obtain ⟨s, h1, h2⟩ := legacy_run maxLine ops ⟨false, []⟩ h
  refine ⟨s, h1, ?_⟩
  rw [h2]
  exact savedAs_flatMap maxLine _

/-- **C92 (legacy logging, immediate)**: every message that is not empty and not from an interrupt is saved, with
its level, in order. -/
theorem C92_legacy_immediate (maxLine : Nat) (ms : List (Bool × Nat × Bytes)) : ∀ s : Legacy,
    ∃ s', legacyRun maxLine s (ms.map fun m => .sync m.1 m.2.1 m.2.2) = some s' ∧
      s'.calls = s.calls ++ (ms.filter fun m => !m.1 && !m.2.2.isEmpty).map fun m =>
        ⟨Spec.ZephyrLog.level m.2.1, m.2.2.take maxLine⟩ := by
  induction ms with
  | nil => intro s; exact ⟨s, rfl, by simp⟩
  | cons m ms ih =>
    intro s
    obtain ⟨isr, l, t⟩ := m
    rw [List.map_cons, legacyRun, legacyStep]
    cases isr with
    | true =>
      obtain ⟨s', h1, h2⟩ := ih s
      exact ⟨s', h1, by rw [h2]; simp⟩
    | false =>
      by_cases ht : t = []
      · obtain ⟨s', h1, h2⟩ := ih s
        exact ⟨s', by simp [ht]; exact h1, by rw [h2]; simp [ht]⟩
      · obtain ⟨s', h1, h2⟩ := ih { s with calls := s.calls ++ [⟨mapLevel l, t.take maxLine⟩] }
        refine ⟨s', by simp [ht]; exact h1, ?_⟩
        rw [h2]
        simp [ht, map_level]

example : (legacyRun 128 ⟨false, []⟩ [.put false 1 [65], .put true 1 [66], .put false 0 [67], .panic true]).map (·.calls) =
    some [⟨3, [65]⟩] := by
  decide +kernel

/-- **C92 (legacy logging, before the first message)**: a report of dropped messages is saved as errors, and a
panic as an empty one; in an interrupt nothing is saved. -/
theorem C92_legacy_first (maxLine n : Nat) (calls : List Call) :
    (legacyRun maxLine ⟨false, calls⟩ [.dropped false n]).map (·.calls) =
      some (calls ++ [⟨3, ("--- ".toUTF8.data.toList).take maxLine⟩,
        ⟨3, ((toString (min n 9999)).toUTF8.data.toList).take maxLine⟩,
        ⟨3, (" messages dropped ---\r\n".toUTF8.data.toList).take maxLine⟩]) ∧
    (legacyRun maxLine ⟨false, calls⟩ [.panic false]).map (·.calls) = some (calls ++ [⟨3, []⟩]) ∧
    (legacyRun maxLine ⟨false, calls⟩ [.dropped true n]).map (·.calls) = some calls := by
  refine ⟨rfl, ?_, rfl⟩
  simp [legacyRun, legacyStep, legacyStale, legacyOut]

/-- **C92 (legacy logging, false)**: a panic or a report of dropped messages outside of an interrupt, after any
message, uses a dead stack frame. -/
theorem C92_false_legacy_stale (maxLine : Nat) (s : Legacy) (i : Bool) (l : Nat) (t : Bytes) (hl : l ≠ 0) (n : Nat) :
    legacyRun maxLine s [.put i l t, .panic false] = none ∧ legacyRun maxLine s [.put i l t, .dropped false n] = none := by
  simp [legacyRun, legacyStep, legacyStale, hl]

/-! ## Minimal logging -/

private theorem minimal_nil (ops : List Op) : taken true (fun _ => 1) 0 ops = [] → left true (fun _ => 1) 0 ops = 0 := by
  induction ops with
  | nil => intro _; rfl
  | cons o os ih =>
    intro h
    cases o with
    | log isr l t => rw [taken, if_neg (by simp)] at h; cases h
    | step => exact ih h
    | dropped n => exact ih h

private theorem minimal_run {maxLine : Nat} (hm : maxLine ≤ 127) (ops : List Op) : ∀ s : Minimal, s.buf.length = 128 →
    (s.busy = false → s.active = none →
      ∃ s', minimalRun maxLine s ops = some s' ∧
        s'.calls = s.calls ++ (((if left true (fun _ => 1) 0 ops = 0 then taken true (fun _ => 1) 0 ops
          else (taken true (fun _ => 1) 0 ops).dropLast).filter fun m => !m.2.isEmpty).map fun m =>
            ⟨1, m.2.take maxLine⟩)) ∧
    (∀ l t, s.busy = true → s.active = some t →
      ∃ s', minimalRun maxLine s ops = some s' ∧
        s'.calls = s.calls ++ (((if left true (fun _ => 1) 1 ops = 0 then (l, t) :: taken true (fun _ => 1) 1 ops
          else ((l, t) :: taken true (fun _ => 1) 1 ops).dropLast).filter fun m => !m.2.isEmpty).map fun m =>
            ⟨1, m.2.take maxLine⟩)) := by
  induction ops with
  | nil =>
    intro s _
    exact ⟨fun _ _ => ⟨s, rfl, by simp [left, taken]⟩, fun l t _ _ => ⟨s, rfl, by simp [left, taken]⟩⟩
  | cons op ops ih =>
    intro s hlen
    cases op with
    | log isr l t =>
      refine ⟨?_, ?_⟩
      · intro hb ha
        obtain ⟨s', h1, h2⟩ := (ih { s with busy := true, active := some t } hlen).2 l t rfl rfl
        refine ⟨s', ?_, ?_⟩
        · rw [minimalRun, minimalStep, if_neg (by simp [hb])]; exact h1
        · rw [left_log, taken_log]; exact h2
      · intro l' t' hb ha
        obtain ⟨s', h1, h2⟩ := (ih s hlen).2 l' t' hb ha
        refine ⟨s', ?_, ?_⟩
        · rw [minimalRun, minimalStep, if_pos hb]; exact h1
        · rw [left, taken]; exact h2
    | dropped n =>
      refine ⟨fun hb ha => ?_, fun l t hb ha => ?_⟩
      · obtain ⟨s', h1, h2⟩ := (ih s hlen).1 hb ha
        exact ⟨s', h1, by rw [left_dropped, taken_dropped]; exact h2⟩
      · obtain ⟨s', h1, h2⟩ := (ih s hlen).2 l t hb ha
        exact ⟨s', h1, by rw [left_dropped, taken_dropped]; exact h2⟩
    | step =>
      refine ⟨fun hb ha => ?_, fun l t hb ha => ?_⟩
      · obtain ⟨s', h1, h2⟩ := (ih s hlen).1 hb ha
        refine ⟨s', ?_, by rw [left_step, taken_step]; exact h2⟩
        rw [minimalRun, minimalStep, ha]; exact h1
      · rw [left_step, taken_step, minimalRun, minimalStep, ha]
        dsimp only
        have hr : (render s.buf t).length = 128 := by
          unfold render
          simp only [List.length_append, List.length_take, List.length_drop, List.length_singleton, hlen]
          omega
        have hd : ∀ (X : List Call), (((if left true (fun _ => 1) (1 - 1) ops = 0 then (l, t) :: taken true (fun _ => 1) (1 - 1) ops
          else ((l, t) :: taken true (fun _ => 1) (1 - 1) ops).dropLast).filter fun m => !m.2.isEmpty).map fun m =>
            (⟨1, m.2.take maxLine⟩ : Call)) = (if t = [] then [] else [⟨1, t.take maxLine⟩]) ++
            (((if left true (fun _ => 1) 0 ops = 0 then taken true (fun _ => 1) 0 ops
          else (taken true (fun _ => 1) 0 ops).dropLast).filter fun m => !m.2.isEmpty).map fun m =>
            (⟨1, m.2.take maxLine⟩ : Call)) := by
          intro _
          rw [Nat.sub_self]
          by_cases hl : left true (fun _ => 1) 0 ops = 0
          · rw [if_pos hl, if_pos hl, List.filter_cons]
            cases t <;> simp
          · rw [if_neg hl, if_neg hl]
            cases htk : taken true (fun _ => 1) 0 ops with
            | nil => exact absurd (minimal_nil ops htk) hl
            | cons a as =>
              rw [List.dropLast_cons_of_ne_nil (by simp), List.filter_cons]
              cases t <;> simp
        rw [hd []]
        cases t with
        | nil =>
          rw [if_pos (show ([] : Bytes).length = 0 from rfl), if_pos rfl, Option.bind_some]
          obtain ⟨s', h1, h2⟩ := (ih ⟨false, none, render s.buf [], s.calls⟩ hr).1 rfl rfl
          exact ⟨s', h1, by rw [h2]; rfl⟩
        | cons c t =>
          rw [if_neg (show ¬ (c :: t).length = 0 by simp), if_neg (show ¬ c :: t = [] by simp)]
          have hrd : readLine maxLine (render s.buf (c :: t)) (c :: t).length = some ((c :: t).take maxLine) := by
            unfold readLine
            rw [if_pos (by rw [hr]; omega)]
            unfold render
            rw [List.append_assoc]
            by_cases hl : (c :: t).length ≤ maxLine
            · rw [Nat.min_eq_left hl, List.take_of_length_le (show (c :: t).length ≤ 127 by omega), List.take_left,
                List.take_of_length_le hl]
            · rw [Nat.min_eq_right (by omega), List.take_append_of_le_length (by rw [List.length_take]; omega),
                List.take_take, Nat.min_eq_left hm]
          rw [hrd, Option.map_some, Option.bind_some]
          obtain ⟨s', h1, h2⟩ := (ih ⟨false, none, render s.buf (c :: t), s.calls ++ [⟨1, (c :: t).take maxLine⟩]⟩ hr).1 rfl rfl
          refine ⟨s', h1, ?_⟩
          rw [h2, List.append_assoc]

/-- **C92 (minimal logging)**: with lines of at most 127 bytes, for every schedule of threads and interrupts, what is
saved are the messages that came while none was rendered and are not empty, in order. Missing: longer lines
(`C92_false_minimal`). -/
theorem C92_minimal_partial (maxLine : Nat) (hm : maxLine ≤ 127) (ops : List Op) :
    let ms := taken true (fun _ => 1) 0 ops
    ∃ s, minimalRun maxLine minimalInit ops = some s ∧
      s.calls = ((if left true (fun _ => 1) 0 ops = 0 then ms else ms.dropLast).filter fun m => !m.2.isEmpty).map fun m =>
        ⟨1, m.2.take maxLine⟩ := by
  obtain ⟨s, h1, h2⟩ := (minimal_run hm ops minimalInit (by simp [minimalInit])).1 rfl rfl
  exact ⟨s, h1, by simpa [minimalInit] using h2⟩

/-- **C92 (minimal logging, false)**: with lines of 128 bytes, the default, a message of 128 characters or more is
saved with a NUL in place of its last character, and with longer lines memory behind the buffer is read. -/
theorem C92_false_minimal (t : Bytes) (ht : 128 < t.length) :
    (∃ s, minimalRun 128 minimalInit (oneByOne (fun _ => 1) [(1, t)]) = some s ∧ s.calls = [⟨1, t.take 127 ++ [0]⟩]) ∧
      ∀ maxLine, 128 < maxLine → minimalRun maxLine minimalInit (oneByOne (fun _ => 1) [(1, t)]) = none := by
  have hr : (render minimalInit.buf t).length = 128 := by
    unfold render minimalInit
    simp only [List.length_append, List.length_take, List.length_drop, List.length_singleton, List.length_replicate]
    omega
  have e : render minimalInit.buf t = t.take 127 ++ [0] := by
    unfold render minimalInit
    rw [List.drop_of_length_le (by simp only [List.length_replicate, List.length_take]; omega), List.append_nil]
  have hne : t.length ≠ 0 := by omega
  have run : ∀ maxLine, minimalRun maxLine minimalInit (oneByOne (fun _ => 1) [(1, t)]) =
      (readLine maxLine (render minimalInit.buf t) t.length).map fun x =>
        ⟨false, none, render minimalInit.buf t, [⟨1, x⟩]⟩ := by
    intro maxLine
    simp only [oneByOne, List.flatMap_cons, List.flatMap_nil, List.append_nil, List.replicate_one, minimalRun,
      minimalStep, minimalInit, Bool.false_eq_true, if_false, Option.bind_some, if_neg hne, List.nil_append]
    cases readLine maxLine (render (List.replicate 128 0) t) t.length <;> rfl
  refine ⟨?_, fun maxLine h => ?_⟩
  · refine ⟨_, by rw [run, readLine, if_pos (by rw [hr]; omega)]; rfl, ?_⟩
    dsimp only
    rw [Nat.min_eq_right (by omega), List.take_of_length_le (Nat.le_of_eq hr), e]
  · rw [run, readLine, if_neg (by rw [hr]; omega)]
    rfl

/-! ## No lock -/

/-- Three lines in a buffer of 15 bytes: "aaaa" (error), "b" (info), "cccc" (warning). -/
def zephyrLines : Option Log.State :=
  (Log.boot 0 15).bind fun s => (Log.save ⟨8, false, false⟩ s 3 0 [97, 97, 97, 97] none).bind fun s =>
    (Log.save ⟨8, false, false⟩ s 1 0 [98] none).bind fun s => Log.save ⟨8, false, false⟩ s 2 0 [99, 99, 99, 99] none

/-- **C92 (no lock, false)**: the lines are saved without the lock that a reader of the log holds. A message that comes
while a thread reads the log makes that read return something that was never logged: bytes of the second line,
the header of the third one and its first byte, as an error. -/
theorem C92_false_unlocked :
    (zephyrLines.bind fun s => preemptedRead ⟨8, false, false⟩ s fun s =>
      Log.save ⟨8, false, false⟩ s 1 0 [100, 100, 100] none).map (·.1) = some (some ⟨3, 0, 0, [98, 2, 4, 99]⟩) := by
  decide +kernel

private theorem iterate_one {σ : Type} (cbk : Log.Walk σ → Option (Bool × Log.Walk σ)) (w : Log.Walk σ) :
    Log.iterate cbk 1 w = (Log.read32 w.cb w.iter.readOffset 2).bind fun r =>
      match r with
      | none => some w
      | some d =>
        (cbk { w with iter := ⟨w.iter.readOffset, d.getD 0 0, d.getD 1 0⟩ }).bind fun q =>
          if q.1 then Log.iterate cbk 0 { q.2 with iter :=
            { q.2.iter with readOffset := add32 q.2.iter.readOffset (2 + q.2.iter.len.toNat) } }
          else some { q.2 with iter :=
            { q.2.iter with readOffset := add32 q.2.iter.readOffset (2 + q.2.iter.len.toNat) } } := by
  rw [Log.iterate]
  congr 1

private theorem preempted_entry {cfg : Log.Config} {s s' : Log.State} {r : Log.Record}
    (h : Log.readEntry cfg s = some (.log r, s')) : preemptedRead cfg s some = some (some r, s') := by
  unfold Log.readEntry at h
  rw [iterate_one, Option.map_eq_some_iff] at h
  obtain ⟨w, h, hw⟩ := h
  rw [Option.bind_eq_some_iff] at h
  obtain ⟨d, h1, h⟩ := h
  cases d with
  | none =>
    cases h
    simp at hw
  | some d =>
    replace h := Option.bind_eq_some_iff.1 h
    obtain ⟨q, h2, h⟩ := h
    unfold Log.readCallback at h2
    obtain ⟨u, h3, h2⟩ := Option.bind_eq_some_iff.1 h2
    obtain ⟨ok, u⟩ := u
    have hu : u.ctx = none := by
      unfold Log.updateEntry at h3
      obtain ⟨x, _, h4⟩ := Option.map_eq_some_iff.1 h3
      rw [← (Prod.mk.inj h4).2]
    have hq : q.1 = false ∧ (q.2 = u ∨ ∃ m, Log.read32 u.cb (add32 u.iter.readOffset 2) u.iter.len.toNat
        = some (some m) ∧ q.2 = { u with ctx := some (Log.toRecord cfg u.iter.hdr m) }) := by
      split at h2
      · cases h2; exact ⟨rfl, Or.inl rfl⟩
      · obtain ⟨m, h4, h2⟩ := Option.bind_eq_some_iff.1 h2
        cases m with
        | none => cases h2; exact ⟨rfl, Or.inl rfl⟩
        | some m =>
          replace h2 : (if cfg.maxLine < m.length then none else
            some (false, { u with ctx := some (Log.toRecord cfg u.iter.hdr m) })) = some q := h2
          split at h2
          · cases h2
          · cases h2; exact ⟨rfl, Or.inr ⟨m, h4, rfl⟩⟩
    obtain ⟨hq1, hq2⟩ := hq
    rw [hq1, if_neg (by simp)] at h
    replace h := Option.some.inj h
    rcases hq2 with e | ⟨m, e1, e2⟩
    · rw [← h, e] at hw
      simp [hu] at hw
    · rw [← h, e2] at hw
      unfold preemptedRead
      rw [h1, Option.bind_some]
      show Option.bind (Log.updateEntry _) _ = _
      have h3' : Log.updateEntry (⟨s.cb, ⟨s.logReadOffset, (d.getD 0 0) ||| 0x80, d.getD 1 0⟩, none⟩ :
        Log.Walk (Option Log.Record)) = some (ok, u) := h3
      rw [h3', Option.bind_some, Option.bind_some]
      show Option.map _ (Log.read32 u.cb (add32 u.iter.readOffset 2) u.iter.len.toNat) = _
      rw [e1]
      have h5 := Prod.mk.inj hw
      rw [Option.map_some, ← h5.2, ← Log.ReadOut.log.inj h5.1]
      rfl

/-- **C92 (no lock)**: what is preempted there is the read of the SDK: when no message comes in between, it returns the
same line and leaves the same log as `memfault_log_read`, for every log. -/
theorem C92_preempted_read {cfg : Log.Config} {s s' : Log.State} {r : Log.Record}
    (hd : s.lastDropped = s.dropped) (h : Log.read cfg s = some (.log r, s')) :
    preemptedRead cfg s some = some (some r, s') := by
  refine preempted_entry ?_
  unfold Log.read at h
  rw [if_neg (by simp [hd])] at h
  exact h

/-- Without the preemption it returns the first line, as the model of the SDK's log does. -/
example : (zephyrLines.bind fun s => preemptedRead ⟨8, false, false⟩ s some).map (·.1) = some (some ⟨3, 0, 0, [97, 97, 97, 97]⟩) ∧
    (zephyrLines.bind fun s => Log.read ⟨8, false, false⟩ s).map (·.1) = some (.log ⟨3, 0, 0, [97, 97, 97, 97]⟩) := by
  decide +kernel

end Mflt.Props
