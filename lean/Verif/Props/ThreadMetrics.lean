import Verif.Spec.ThreadMetrics

/-! # C107: thread metrics -/

namespace Mflt.Props

open ThreadMetrics Spec.ThreadMetrics

namespace ThreadM

variable {ν κ : Type} [DecidableEq ν] [DecidableEq κ]

/-- The loop sets the metric of the first entry with the name of the thread. -/
theorem recordLoop_other (t : Thread ν) (k : κ) : ∀ (es : List (Entry ν κ)) (m : Values κ),
    (∀ e ∈ es, e.key = k → e.name ≠ t.name) → recordLoop m t es k = m k := by
  intro es
  induction es with
  | nil => intro m _; rfl
  | cons e es ih =>
    intro m h
    simp only [recordLoop]
    split
    · rename_i he
      have : ¬ k = e.key := fun x => h e (by simp) x.symm he
      simp [setUnsigned, this]
    · exact ih m fun x hx => h x (by simp [hx])

theorem recordLoop_same (t : Thread ν) (es : List (Entry ν κ)) (m : Values κ) (e : Entry ν κ) (he : e ∈ es)
    (hn : (es.map Entry.name).Nodup) (h : e.name = t.name) : recordLoop m t es e.key = some t.usage := by
  induction es with
  | nil => simp at he
  | cons x es ih =>
    simp only [List.map_cons, List.nodup_cons] at hn
    simp only [recordLoop]
    rcases List.mem_cons.1 he with rfl | he
    · simp [h, setUnsigned]
    · have : ¬ x.name = t.name := by
        intro hx
        exact hn.1 (by rw [hx, ← h]; exact List.mem_map_of_mem he)
      rw [if_neg this]
      exact ih he hn.2

end ThreadM

open ThreadM

variable {ν κ : Type} [DecidableEq ν] [DecidableEq κ]

/-- **C107 (Zephyr, partial).** If no two metrics are for threads of the same name, and no metric is listed twice,
each metric gets the stack usage of the thread with its name, and stays unset if there is none. Missing: two metrics
for the same name (`C107_false_same_name`). -/
theorem C107_zephyr_partial (index : List (Entry ν κ)) (threads : List (Thread ν))
    (hn : (index.map Entry.name).Nodup) (hk : (index.map Entry.key).Nodup) :
    ∀ e ∈ index, zephyrRecord index threads (fun _ => none) e.key = usageNamed threads e.name := by
  intro e he
  have key : ∀ (ts : List (Thread ν)) (m : Values κ),
      zephyrRecord index ts m e.key =
        match usageNamed ts e.name with | some u => some u | none => m e.key := by
    intro ts
    induction ts with
    | nil => intro m; rfl
    | cons t ts ih =>
      intro m
      show zephyrRecord index ts (recordLoop m t index) e.key = _
      rw [ih]
      by_cases ht : t.name = e.name
      · have h1 := recordLoop_same t index m e he hn ht.symm
        cases hu : usageNamed ts e.name with
        | none =>
          have : usageNamed (t :: ts) e.name = some t.usage := by
            simp [usageNamed] at hu
            simp [usageNamed, ht]
            rw [List.filter_eq_nil_iff.2 (by simpa using hu)]
            rfl
          rw [this]; exact h1
        | some u =>
          have : usageNamed (t :: ts) e.name = some u := by
            simp only [usageNamed, List.filter_cons, ht, decide_true, if_true, List.map_cons] at hu ⊢
            rw [List.getLast?_cons, hu]; rfl
          rw [this]
      · have h1 : recordLoop m t index e.key = m e.key := by
          apply recordLoop_other
          intro x hx hxk
          have : x = e := by
            clear ih
            induction index with
            | nil => simp at hx
            | cons y ys ihy =>
              simp only [List.map_cons, List.nodup_cons] at hk hn
              rcases List.mem_cons.1 hx with hx' | hx' <;> rcases List.mem_cons.1 he with he' | he'
              · rw [hx', he']
              · exact absurd (by rw [← hx', hxk]; exact List.mem_map_of_mem he') hk.1
              · exact absurd (by rw [← he', ← hxk]; exact List.mem_map_of_mem hx') hk.1
              · exact ihy hn.2 hk.2 he' hx'
          rw [this]; exact fun h => ht h.symm
        have h2 : usageNamed (t :: ts) e.name = usageNamed ts e.name := by
          simp [usageNamed, ht]
        rw [h1, h2]
  have h := key threads fun _ => none
  rw [h]
  cases usageNamed threads e.name <;> rfl

/-- **C107 (Zephyr, other metrics).** Metrics that are not listed are not touched. -/
theorem C107_zephyr_others (index : List (Entry ν κ)) (threads : List (Thread ν)) (m : Values κ) (k : κ)
    (hk : ∀ e ∈ index, e.key ≠ k) : zephyrRecord index threads m k = m k := by
  induction threads generalizing m with
  | nil => rfl
  | cons t ts ih =>
    show zephyrRecord index ts (recordLoop m t index) k = _
    rw [ih, recordLoop_other t k index m fun e he hx => absurd hx (hk e he)]

/-- **C107 is false (Zephyr, two metrics for a name).** The second is never set, whatever threads there are. -/
theorem C107_false_same_name (n : ν) (a b : κ) (hab : a ≠ b) (threads : List (Thread ν)) :
    zephyrRecord [⟨n, a⟩, ⟨n, b⟩] threads (fun _ => none) b = none := by
  have : ∀ (ts : List (Thread ν)) (m : Values κ), zephyrRecord [⟨n, a⟩, ⟨n, b⟩] ts m b = m b := by
    intro ts
    induction ts with
    | nil => intro m; rfl
    | cons t ts ih =>
      intro m
      show zephyrRecord _ ts (recordLoop m t _) b = _
      rw [ih]
      simp only [recordLoop]
      have hba : ¬ b = a := fun h => hab h.symm
      split
      · simp [setUnsigned, hba]
      · rfl
  exact this threads _

/-- **C107 (FreeRTOS).** If functions of entries tell handles of tasks that exist (`hh`), the tasks' handles differ,
and no metric is listed twice, the call does nothing undefined. Each metric then has the stack usage of the task its
entry stands for; it stays unset exactly if there is no such task; metrics not listed are not touched. -/
theorem C107_freertos (tasks : List (FTask ν)) (index : List (TaskEntry ν κ))
    (hd : (tasks.map FTask.handle).Nodup) (hk : (index.map TaskEntry.key).Nodup)
    (hh : ∀ e ∈ index, ∀ h, e.handle = some (some h) → ∃ t ∈ tasks, t.handle = h) (m0 : Values κ)
    (h0 : ∀ e ∈ index, m0 e.key = none) :
    ∃ m, freertosRecord tasks index m0 = some m ∧
      (∀ e ∈ index, ∀ u, m e.key = some u ↔ ∃ t, IsTask tasks e t ∧ t.usage = u) ∧
      (∀ e ∈ index, m e.key = none ↔ ¬ ∃ t, IsTask tasks e t) ∧
      ∀ k, (∀ e ∈ index, e.key ≠ k) → m k = m0 k := by
  have uniq : ∀ {ts : List (FTask ν)}, (ts.map FTask.handle).Nodup → ∀ {t t'}, t ∈ ts → t' ∈ ts →
      t.handle = t'.handle → t = t' := by
    intro ts
    induction ts with
    | nil => intro _ t t' h; simp at h
    | cons x xs ih =>
      intro hn t t' h h' he
      simp only [List.map_cons, List.nodup_cons] at hn
      rcases List.mem_cons.1 h with h | h <;> rcases List.mem_cons.1 h' with h' | h'
      · rw [h, h']
      · exact absurd (by rw [← h, he]; exact List.mem_map_of_mem h') hn.1
      · exact absurd (by rw [← h', ← he]; exact List.mem_map_of_mem h) hn.1
      · exact ih hn.2 h h' he
  have usage : ∀ t ∈ tasks, usageOf tasks t.handle = some t.usage := by
    intro t ht
    unfold usageOf
    cases hf : tasks.find? fun x => decide (x.handle = t.handle) with
    | none =>
      have := List.find?_eq_none.1 hf t ht
      simp at this
    | some x =>
      have hx := List.mem_of_find?_eq_some hf
      have hxe := List.find?_some hf
      have := uniq hd hx ht (by simpa using hxe)
      rw [this]; rfl
  have unique_task : ∀ e t t', IsTask tasks e t → IsTask (κ := κ) tasks e t' → t = t' := by
    intro e t t' h h'
    rcases h with ⟨a, ha, hm, hx⟩ | ⟨ha, b, c, hb, hn, hx⟩ <;> rcases h' with ⟨a', ha', hm', hx'⟩ | ⟨ha', b', c', hb', hn', hx'⟩
    · rw [ha] at ha'
      exact uniq hd hm hm' (by rw [hx, hx']; simpa using ha')
    · rw [ha] at ha'; rcases ha' with h | h <;> simp at h
    · rw [ha'] at ha; rcases ha with h | h <;> simp at h
    · have h1 : tasks.find? (fun x => decide (x.name = e.name)) = some t := by
        rw [hb, List.find?_append, List.find?_eq_none.2 (by simpa using hx)]
        simp [hn]
      have h2 : tasks.find? (fun x => decide (x.name = e.name)) = some t' := by
        rw [hb', List.find?_append, List.find?_eq_none.2 (by simpa using hx')]
        simp [hn']
      rw [h1] at h2; exact Option.some.inj h2
  -- What an entry does.
  have step : ∀ e : TaskEntry ν κ, (∀ h, e.handle = some (some h) → ∃ t ∈ tasks, t.handle = h) →
      ∀ es m, (∃ t, IsTask tasks e t ∧ freertosRecord tasks (e :: es) m = freertosRecord tasks es (setUnsigned m e.key t.usage)) ∨
        ((¬ ∃ t, IsTask tasks e t) ∧ freertosRecord tasks (e :: es) m = freertosRecord tasks es m) := by
    intro e hh es m
    have byName : (e.handle = none ∨ e.handle = some none) →
        (∃ t, IsTask tasks e t ∧ taskGetHandle tasks e.name = some t.handle) ∨
        ((¬ ∃ t, IsTask tasks e t) ∧ taskGetHandle tasks e.name = none) := by
      intro hn
      unfold taskGetHandle
      cases hf : tasks.find? fun x => decide (x.name = e.name) with
      | none =>
        right
        refine ⟨?_, rfl⟩
        rintro ⟨t, h | ⟨_, b, c, hb, hn', _⟩⟩
        · obtain ⟨a, ha, _⟩ := h
          rw [ha] at hn; rcases hn with h | h <;> simp at h
        · have := List.find?_eq_none.1 hf t (by rw [hb]; simp)
          simp [hn'] at this
      | some t =>
        left
        refine ⟨t, Or.inr ⟨hn, ?_⟩, rfl⟩
        obtain ⟨h1, b, c, h2, h3⟩ := List.find?_eq_some_iff_append.1 hf
        exact ⟨b, c, h2, by simpa using h1, by simpa using h3⟩
    cases he : e.handle with
    | none =>
      rcases byName (Or.inl he) with ⟨t, ht, hg⟩ | ⟨ht, hg⟩
      · refine Or.inl ⟨t, ht, ?_⟩
        have htm : t ∈ tasks := by
          rcases ht with ⟨a, ha, _⟩ | ⟨_, b, c, hb, _⟩
          · rw [he] at ha; simp at ha
          · rw [hb]; simp
        simp [freertosRecord, he, hg, usage t htm]
      · exact Or.inr ⟨ht, by simp [freertosRecord, he, hg]⟩
    | some o =>
      cases o with
      | none =>
        rcases byName (Or.inr he) with ⟨t, ht, hg⟩ | ⟨ht, hg⟩
        · refine Or.inl ⟨t, ht, ?_⟩
          have htm : t ∈ tasks := by
            rcases ht with ⟨a, ha, _⟩ | ⟨_, b, c, hb, _⟩
            · rw [he] at ha; simp at ha
            · rw [hb]; simp
          simp [freertosRecord, he, hg, usage t htm]
        · exact Or.inr ⟨ht, by simp [freertosRecord, he, hg]⟩
      | some a =>
        obtain ⟨t, htm, hta⟩ := hh a he
        refine Or.inl ⟨t, Or.inl ⟨a, he, htm, hta⟩, ?_⟩
        simp [freertosRecord, he, ← hta, usage t htm]
  clear usage
  induction index generalizing m0 with
  | nil => exact ⟨m0, rfl, by simp, by simp, fun _ _ => rfl⟩
  | cons e es ih =>
    simp only [List.map_cons, List.nodup_cons] at hk
    have hne : ∀ x ∈ es, x.key ≠ e.key := fun x hx h => hk.1 (by rw [← h]; exact List.mem_map_of_mem hx)
    rcases step e (hh e (by simp)) es m0 with ⟨t, ht, hr⟩ | ⟨ht, hr⟩
    · obtain ⟨m, hm, h1, h2, h3⟩ := ih hk.2 (fun x hx => hh x (by simp [hx])) (setUnsigned m0 e.key t.usage)
        (fun x hx => by simp [setUnsigned, hne x hx, h0 x (by simp [hx])])
      have hme : m e.key = some t.usage := by rw [h3 _ hne]; simp [setUnsigned]
      refine ⟨m, by rw [hr, hm], ?_, ?_, ?_⟩
      · intro x hx u
        rcases List.mem_cons.1 hx with rfl | hx
        · rw [hme]
          constructor
          · intro h; exact ⟨t, ht, Option.some.inj h⟩
          · rintro ⟨t', ht', rfl⟩; rw [unique_task _ _ _ ht ht']
        · exact h1 x hx u
      · intro x hx
        rcases List.mem_cons.1 hx with rfl | hx
        · rw [hme]; simp; exact ⟨t, ht⟩
        · exact h2 x hx
      · intro k hk'
        rw [h3 k fun x hx => hk' x (by simp [hx])]
        have : ¬ k = e.key := fun h => hk' e (by simp) h.symm
        simp [setUnsigned, this]
    · obtain ⟨m, hm, h1, h2, h3⟩ := ih hk.2 (fun x hx => hh x (by simp [hx])) m0 (fun x hx => h0 x (by simp [hx]))
      have hme : m e.key = none := by rw [h3 _ hne]; exact h0 e (by simp)
      refine ⟨m, by rw [hr, hm], ?_, ?_, ?_⟩
      · intro x hx u
        rcases List.mem_cons.1 hx with rfl | hx
        · rw [hme]; simp
          intro t' ht'; exact absurd ⟨t', ht'⟩ ht
        · exact h1 x hx u
      · intro x hx
        rcases List.mem_cons.1 hx with rfl | hx
        · rw [hme]; simpa using ht
        · exact h2 x hx
      · intro k hk'
        exact h3 k fun x hx => hk' x (by simp [hx])

/-- Two metrics and three threads, of which one has no metric; the metric of a thread that does not exist. -/
example :
    let m := zephyrRecord [⟨"idle", 0⟩, ⟨"sysworkq", 1⟩, ⟨"app", 2⟩]
      [⟨"main", 10⟩, ⟨"sysworkq", 2550⟩, ⟨"idle", 1234⟩] (fun _ => none)
    (m 0, m 1, m 2) = (some 1234, some 2550, none) := by decide

/-- Entries with a handle, without a function, and with a function that returns NULL. -/
example :
    (freertosRecord [⟨1, "IDLE", 11⟩, ⟨2, "Tmr Svc", 22⟩, ⟨3, "IDLE", 33⟩]
      [⟨"IDLE", some (some 3), 0⟩, ⟨"Tmr Svc", some none, 1⟩, ⟨"x", none, 2⟩] (fun _ => none)).map
        (fun m => (m 0, m 1, m 2)) = some (some 33, some 22, none) := by decide

end Mflt.Props
