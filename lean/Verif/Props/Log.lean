import Verif.Lemmas.LogSpec

/-!
# C23, C24, C28: what the RAM log keeps, returns and counts

`Spec.Log.run` is the specification (`Spec/Log.lean`), `Log.run` the model of the code.
-/

namespace Mflt.Props

open Log
open Spec.Log (Op Out Line Entry lines size logsIn record attempts dropped)

/-- For every history of calls the code returns what the specification returns, and its buffer
holds the specification's lines, in the format of `Spec/LogFormat.lean`. -/
theorem log_refines_spec {cfg : Config} (hmin : 4 ≤ cfg.maxLine) (hmax : cfg.maxLine ≤ 255)
    {minLevel cap : Nat} (h0 : 0 < cap) (hcap : cap < 2 ^ 31 - 8) {ops : List Op} {outs : List Out}
    {S : Spec.Log.State} (h : Spec.Log.run cfg (Spec.Log.init minLevel cap) ops = some (outs, S)) :
    ∃ s s', boot minLevel cap = some s ∧ run cfg s ops = some (outs, s') ∧
      s'.cb.contents = encAll S.entries := by
  obtain ⟨s, b1, b2⟩ := boot_rel cfg minLevel h0 hcap
  obtain ⟨s', r1, r2⟩ := run_rel ⟨hmin, hmax⟩ ops b2 h
  obtain ⟨ro, hr⟩ := r2.core.ring
  exact ⟨s, s', b1, r1, hr.contents⟩

/-- C23. After any history the buffer holds the newest of the accepted lines, intact and in order:
a suffix of them, and the longest one that fits. -/
theorem C23_log_keeps_newest {cfg : Config} (hmin : 4 ≤ cfg.maxLine) (hmax : cfg.maxLine ≤ 255)
    {minLevel cap : Nat} (h0 : 0 < cap) (hcap : cap < 2 ^ 31 - 8) {ops : List Op} {outs : List Out}
    {S : Spec.Log.State} (h : Spec.Log.run cfg (Spec.Log.init minLevel cap) ops = some (outs, S)) :
    (∃ s s', boot minLevel cap = some s ∧ run cfg s ops = some (outs, s') ∧
      s'.cb.contents = encAll S.entries) ∧
    lines S.entries <:+ S.accepted ∧
    ∀ X, X <:+ S.accepted → size X ≤ cap → X <:+ lines S.entries := by
  have hi := Spec.Log.run_inv ops (Spec.Log.init_inv minLevel cap) h
  have hc : S.cap = cap := by
    refine Spec.Log.run_induct (cfg := cfg) (P := fun T => T.cap = cap) ?_ ops rfl h
    intro T op o T' hT hs
    cases op <;> simp only [Spec.Log.step, Spec.Log.save, Spec.Log.readLine] at hs <;>
      (repeat' split at hs) <;> simp_all <;> (try (obtain ⟨-, rfl⟩ := hs; rfl)) <;>
      (try (rw [← hs.2]; assumption)) <;>
      (try (obtain ⟨_, _, _, rfl⟩ := hs; rfl))
  refine ⟨log_refines_spec hmin hmax h0 hcap h, hi.suffix, ?_⟩
  rw [← hc]; exact hi.longest

/-- C23. Which lines are accepted: a line at or above the level is kept, cut to the maximum
length, unless it is larger than the buffer, or does not fit while an upload is in progress. -/
theorem C23_save_accepts (cfg : Config) (S : Spec.Log.State) (level type : Nat) (text : Bytes)
    (now : Option Nat) (hl : S.minLevel ≤ level) :
    (Spec.Log.save cfg S level type text now).accepted =
      if Spec.Log.lineSize (Spec.Log.lineOf cfg level type text now) ≤ S.cap ∧
          (S.frozen = none ∨ Spec.Log.total S.entries +
            Spec.Log.lineSize (Spec.Log.lineOf cfg level type text now) ≤ S.cap)
      then S.accepted ++ [Spec.Log.lineOf cfg level type text now] else S.accepted := by
  unfold Spec.Log.save
  rw [if_neg (by omega)]
  simp only
  cases hf : S.frozen with
  | none => split <;> (try split) <;> (try split) <;> (first | rfl | (exfalso; simp_all; done) | (exfalso; simp_all; omega))
  | some p => split <;> (try split) <;> (try split) <;> (first | rfl | (exfalso; simp_all; done) | (exfalso; simp_all; omega))

/-- C24, for histories in which no line is forgotten that was uploaded but not yet read. The lines
returned so far, followed by the unread ones still held, are accepted lines in the order in which
they were saved, each at most once; the others are exactly the forgotten ones, counted as dropped. Missing:
histories in which an uploaded line is forgotten before it is read (`C24_reads_stop_after_upload`,
`C24_read_overflows_after_empty_upload`). -/
theorem C24_reads_in_order_once_partial {cfg : Config} (hmin : 4 ≤ cfg.maxLine)
    (hmax : cfg.maxLine ≤ 255) {minLevel cap : Nat} (h0 : 0 < cap) (hcap : cap < 2 ^ 31 - 8)
    {ops : List Op} {outs : List Out} {S : Spec.Log.State}
    (h : Spec.Log.run cfg (Spec.Log.init minLevel cap) ops = some (outs, S)) (hl : S.lost = false) :
    (∃ s s', boot minLevel cap = some s ∧ run cfg s ops = some (outs, s')) ∧
    logsIn outs = S.returned.map record ∧
    (S.returned ++ lines (S.entries.filter fun e => !e.read)).Sublist S.accepted ∧
    S.accepted.length =
      S.returned.length + (S.entries.filter fun e => !e.read).length + S.forgotten := by
  have hi := Spec.Log.run_inv ops (Spec.Log.init_inv minLevel cap) h
  obtain ⟨s, s', r1, r2, -⟩ := log_refines_spec hmin hmax h0 hcap h
  obtain ⟨rd, un, p1, p2, p3, p4, p5⟩ := hi.reads hl
  have hf : (S.entries.filter fun e => !e.read) = un := by
    rw [p1, List.filter_append, List.filter_eq_nil_iff.mpr fun e he => by simp [p2 e he],
      List.filter_eq_self.mpr fun e he => by simp [p3 e he], List.nil_append]
  refine ⟨⟨s, s', r1, r2⟩, ?_, ?_, ?_⟩
  · have := Spec.Log.run_returned ops h
    simpa [Spec.Log.init] using this.symm
  · rw [hf]; exact p4
  · rw [hf]; exact p5

/-- C24. As long as no logs are uploaded, no history is excluded. -/
theorem C24_never_lost_without_upload (cfg : Config) (minLevel cap : Nat) {ops : List Op}
    {outs : List Out} {S : Spec.Log.State} (hup : Op.markSent ∉ ops)
    (h : Spec.Log.run cfg (Spec.Log.init minLevel cap) ops = some (outs, S)) : S.lost = false := by
  have key : ∀ (ops : List Op) (S S' : Spec.Log.State) (outs : List Out), Op.markSent ∉ ops →
      (S.lost = false ∧ ∀ e ∈ S.entries, e.sent = false) →
      Spec.Log.run cfg S ops = some (outs, S') → S'.lost = false := by
    intro ops
    induction ops with
    | nil =>
      intro S S' outs _ hS h
      simp only [Spec.Log.run, Option.some.injEq, Prod.mk.injEq] at h
      rw [← h.2]; exact hS.1
    | cons op ops ih =>
      intro S S' outs hup hS h
      simp only [Spec.Log.run, Option.bind_eq_some_iff, Option.map_eq_some_iff] at h
      obtain ⟨⟨o, S1⟩, a1, ⟨os, S2⟩, a2, a3⟩ := h
      simp only [Prod.mk.injEq] at a3
      obtain ⟨-, rfl⟩ := a3
      refine ih S1 S2 os (fun hx => hup (by simp [hx])) ?_ a2
      cases op with
      | save level type text now =>
        simp only [Spec.Log.step] at a1
        split at a1
        · simp only [Option.some.injEq, Prod.mk.injEq] at a1
          obtain ⟨-, rfl⟩ := a1
          unfold Spec.Log.save
          split
          · exact hS
          · simp only
            split
            · refine ⟨hS.1, fun e he => ?_⟩
              rcases List.mem_append.mp he with he | he
              · exact hS.2 e he
              · simp only [List.mem_singleton] at he; subst he; rfl
            · split
              · exact hS
              · generalize Spec.Log.lineOf cfg level type text now = l
                have hmr := makeRoom_suffix S.cap (Spec.Log.lineSize l) S.entries
                refine ⟨?_, fun e he => ?_⟩
                · simp only [hS.1, Bool.false_or, List.any_eq_false]
                  intro e he
                  rw [hS.2 e (by rw [hmr]; simp [he])]; simp
                · rcases List.mem_append.mp he with he | he
                  · exact hS.2 e (by rw [hmr]; simp [he])
                  · simp only [List.mem_singleton] at he; subst he; rfl
        · cases a1
      | setMinLevel level =>
        simp only [Spec.Log.step, Option.some.injEq, Prod.mk.injEq] at a1
        obtain ⟨-, rfl⟩ := a1
        exact hS
      | read =>
        simp only [Spec.Log.step] at a1
        split at a1
        · cases a1
        · split at a1
          · simp only [Option.some.injEq, Prod.mk.injEq] at a1
            obtain ⟨-, rfl⟩ := a1
            exact hS
          · simp only [Spec.Log.readLine, Option.some.injEq] at a1
            split at a1
            · simp only [Prod.mk.injEq] at a1
              obtain ⟨-, rfl⟩ := a1
              exact hS
            · rename_i l es hes
              simp only [Prod.mk.injEq] at a1
              obtain ⟨-, rfl⟩ := a1
              refine ⟨hS.1, ?_⟩
              have hgen : ∀ (xs : List Entry) l es, Spec.Log.takeUnread xs = some (l, es) →
                  (∀ e ∈ xs, e.sent = false) → ∀ e ∈ es, e.sent = false := by
                intro xs
                induction xs with
                | nil => intro l es h; simp [Spec.Log.takeUnread] at h
                | cons x xs ihx =>
                  intro l es h hx
                  simp only [Spec.Log.takeUnread] at h
                  split at h
                  · simp only [Option.map_eq_some_iff, Prod.mk.injEq] at h
                    obtain ⟨⟨l', es'⟩, q1, -, rfl⟩ := h
                    intro e he
                    rcases List.mem_cons.mp he with he | he
                    · subst he; exact hx _ (by simp)
                    · exact ihx l' es' q1 (fun e he => hx e (by simp [he])) e he
                  · simp only [Option.some.injEq, Prod.mk.injEq] at h
                    obtain ⟨-, rfl⟩ := h
                    intro e he
                    rcases List.mem_cons.mp he with he | he
                    · subst he; exact hx x (by simp)
                    · exact hx e (by simp [he])
              exact hgen _ _ _ hes hS.2
      | trigger now =>
        simp only [Spec.Log.step] at a1
        split at a1
        · cases a1
        · split at a1 <;>
            (simp only [Option.some.injEq, Prod.mk.injEq] at a1; obtain ⟨-, rfl⟩ := a1; exact hS)
      | markSent => simp at hup
      | unsentCount =>
        simp only [Spec.Log.step, Option.some.injEq, Prod.mk.injEq] at a1; obtain ⟨-, rfl⟩ := a1; exact hS
      | droppedCount =>
        simp only [Spec.Log.step, Option.some.injEq, Prod.mk.injEq] at a1; obtain ⟨-, rfl⟩ := a1; exact hS
      | recordedCount =>
        simp only [Spec.Log.step, Option.some.injEq, Prod.mk.injEq] at a1; obtain ⟨-, rfl⟩ := a1; exact hS
  exact key ops _ S outs hup ⟨rfl, by simp [Spec.Log.init]⟩ h

/-- C24 is false of the code with uploads: one line is saved and uploaded, two more are saved and the
first is evicted unread. Reading now returns nothing, although two unread lines are held, and leaves
the state as it was, so that this never changes. -/
theorem C24_reads_stop_after_upload :
    let a : Bytes := [97, 97, 97, 97]
    let ops : List Op := [.save 1 0 a none, .trigger none, .markSent, .save 1 0 a none,
      .save 1 0 a none]
    ∃ s, ((boot 0 12).bind fun s => run ⟨8, false, true⟩ s ops) =
        some (List.replicate 5 .unit, s) ∧
      s.cb.contents = [1, 4, 97, 97, 97, 97, 1, 4, 97, 97, 97, 97] ∧
      ∀ n, run ⟨8, false, true⟩ s (List.replicate n .read) = some (List.replicate n .nothing, s) := by
  refine ⟨⟨0, 4294967290, 0, 3, ⟨6, 12, 12, [1, 4, 97, 97, 97, 97, 1, 4, 97, 97, 97, 97]⟩, 0, ⟨false, 0, none⟩⟩, ?_, ?_, ?_⟩
  · decide +kernel
  · decide +kernel
  · intro n
    induction n with
    | zero => rfl
    | succ n ih =>
      rw [List.replicate_succ, List.replicate_succ]
      simp only [run]
      have h1 : step ⟨8, false, true⟩ ⟨0, 4294967290, 0, 3, ⟨6, 12, 12, [1, 4, 97, 97, 97, 97, 1, 4, 97, 97, 97, 97]⟩, 0, ⟨false, 0, none⟩⟩ .read =
        some (.nothing, ⟨0, 4294967290, 0, 3, ⟨6, 12, 12, [1, 4, 97, 97, 97, 97, 1, 4, 97, 97, 97, 97]⟩, 0, ⟨false, 0, none⟩⟩) := by
        decide +kernel
      rw [h1, Option.bind_some, ih]; rfl

/-- C24: if the evicted line was empty, later reads start in the middle of a message and write
outside of the caller's message buffer (undefined behaviour). -/
theorem C24_read_overflows_after_empty_upload :
    let ops : List Op := [.save 1 0 [] none, .trigger none, .markSent,
      .save 1 0 [97, 97, 97, 97, 9, 97, 97, 97] none, .save 1 0 [98, 98, 98, 98, 98, 98, 98, 98] none,
      .save 1 0 [5] none, .read]
    ((boot 0 23).bind fun s => run ⟨8, false, true⟩ s ops).map Prod.fst =
        some (List.replicate 6 .unit ++ [.nothing]) ∧
    ((boot 0 23).bind fun s => run ⟨8, false, true⟩ s (ops ++ [.read])) = none := by
  decide +kernel

/-- C28. The counters: `memfault_log_get_recorded_count` is the number of accepted lines,
`memfault_log_get_dropped_count` the number of lines refused or forgotten before they were read or
uploaded (both modulo 2^32), and every line that passed the level filter was accepted or refused. -/
theorem C28_log_counters {cfg : Config} (hmin : 4 ≤ cfg.maxLine) (hmax : cfg.maxLine ≤ 255)
    {minLevel cap : Nat} (h0 : 0 < cap) (hcap : cap < 2 ^ 31 - 8) {ops : List Op} {outs : List Out}
    {S : Spec.Log.State} (h : Spec.Log.run cfg (Spec.Log.init minLevel cap) ops = some (outs, S)) :
    (∃ s s', boot minLevel cap = some s ∧ run cfg s ops = some (outs, s') ∧
      s'.recorded = S.accepted.length % 2 ^ 32 ∧
      s'.dropped = (S.refused + S.forgotten) % 2 ^ 32) ∧
    S.accepted.length + S.refused = attempts minLevel ops := by
  obtain ⟨s, b1, b2⟩ := boot_rel cfg minLevel h0 hcap
  obtain ⟨s', r1, r2⟩ := run_rel ⟨hmin, hmax⟩ ops b2 h
  refine ⟨⟨s, s', b1, r1, r2.recorded, r2.core.drop⟩, ?_⟩
  have := Spec.Log.run_attempts ops h
  simpa [Spec.Log.init] using this

/-- A run with a level filter, a timestamp, an eviction, an upload, a cut line and reads. -/
example :
    ((Spec.Log.run ⟨8, true, true⟩ (Spec.Log.init 1 24)
      [.save 1 0 [97, 97, 97, 97] (some 7), .save 0 0 [97] none,
       .save 2 1 [97, 97, 97, 97, 97, 97, 97, 97, 98] none, .save 3 0 [99] none, .save 3 0 [100, 101] none, .read, .droppedCount,
       .trigger none, .save 4 0 [102] none, .markSent, .read, .read, .read, .recordedCount]).map
      fun r => (r.1, r.2.lost, r.2.returned.length)) =
    some ([.unit, .unit, .unit, .unit, .unit, .droppedLine 1, .count 1, .unit, .unit, .unit,
      .log ⟨2, 1, 0, [97, 97, 97, 97, 97, 97, 97, 97]⟩, .log ⟨3, 0, 0, [99]⟩,
      .log ⟨3, 0, 0, [100, 101]⟩, .count 5], false, 3) := by
  decide +kernel

end Mflt.Props
