import Verif.Model.SoftDevice
import Verif.Lemmas.FlashPorts

/-!
# C75: A coredump is not read again once it was asked to be cleared

`memfault_platform_coredump_storage_clear` of the nrf5 port only asks the SoftDevice to overwrite the header of
the coredump. From then on the coredump must not be read again: either reads are refused, or they see that the
header is gone. It is quantified over all interleavings of the main program, other users of the flash, and the
SoftDevice.
-/

namespace Mflt.Props

open Spec.Flash FlashPorts SoftDevice

/-- The first word of the storage is zero. -/
private def Gone (c : Area) (s : St) : Prop := ∀ i, i < 4 → s.flash (c.start + i) = 0

/-- What holds after a clear was requested. -/
private structure Inv (c : Area) (s : St) : Prop where
  idle : s.clear = .idle → Gone c s
  prog : s.clear = .inProgress → s.events = [] → Gone c s ∨ s.flight = .ours
  progEv : s.clear = .inProgress → ∀ e ∈ s.events, e = true → Gone c s
  ret : s.pc = .returned .success → s.events = [] → Gone c s ∨ s.flight = .ours
  retEv : s.pc = .returned .success → s.events ≠ [] → Gone c s

private theorem gone_inv {c : Area} {s : St} (h : Gone c s) : Inv c s :=
  ⟨fun _ => h, fun _ _ => .inl h, fun _ _ _ _ => h, fun _ _ => .inl h, fun _ _ => h⟩

private theorem gone_program {c : Area} (m : Flash) : ∀ i, i < 4 → program m c.start [0, 0, 0, 0] (c.start + i) = 0 := by
  intro i hi
  unfold program
  rw [if_pos ⟨by omega, by simpa using hi⟩]
  have : i = 0 ∨ i = 1 ∨ i = 2 ∨ i = 3 := by omega
  rw [Nat.add_sub_cancel_left]
  rcases this with rfl | rfl | rfl | rfl <;> simp

private theorem nil_of {l : List Bool} (h : ¬ l ≠ []) : l = [] := by
  cases l with
  | nil => rfl
  | cons => exact absurd (by simp) h

private theorem handle_fields (s : St) (ok bad : Bool) : (handle s ok bad).events = s.events ∧
    (handle s ok bad).pc = s.pc ∧ (handle s ok bad).flash = s.flash := by
  by_cases h1 : s.clear = .idle
  · simp [handle, h1]
  · by_cases h2 : s.clear = .inProgress ∧ ok = true
    · simp [handle, h2]
    · by_cases h3 : bad = true
      · simp [handle, sdFlashWrite, h1, h2, h3, examine]
      · by_cases h4 : s.flight = .none <;> simp [handle, sdFlashWrite, h1, h2, h3, h4, examine]

/-- What the handler does while a clear is under way that is not completed by this event. -/
private theorem handle_more (s : St) (ok bad : Bool) (h1 : s.clear ≠ .idle) (h2 : ¬ (s.clear = .inProgress ∧ ok = true)) :
    (handle s ok bad).clear = .requested ∨
    ((handle s ok bad).clear = .inProgress ∧ (handle s ok bad).flight = .ours) := by
  by_cases h3 : bad = true
  · simp [handle, sdFlashWrite, h1, h2, h3, examine]
  · by_cases h4 : s.flight = .none <;> simp [handle, sdFlashWrite, h1, h2, h3, h4, examine]

private theorem gone_step {d : Dispatch} {e : Bool} {c : Area} {s s' : St} {a : Action} (h : step d e c s a = some s')
    (hg : Gone c s) : Gone c s' := by
  cases a with
  | clear =>
    simp only [step] at h
    split at h
    · cases h
    · split at h
      · cases h; exact hg
      · cases h; exact gone_program _
  | call bad =>
    simp only [step] at h
    split at h
    · cases h
    · cases h
      simp only [sdFlashWrite]
      split
      · exact hg
      · split <;> exact hg
  | finish =>
    simp only [step] at h
    split at h
    · cases h
    · split at h
      · rename_i r _
        cases h
        cases r <;> exact hg
      · cases h
  | other =>
    simp only [step] at h
    split at h
    · cases h
    · cases h; exact hg
  | complete ok =>
    simp only [step] at h
    split at h
    · cases h
    · cases h
      intro i hi
      show (if s.flight = .ours ∧ ok = true then program s.flash c.start [0, 0, 0, 0] else s.flash) (c.start + i) = 0
      split
      · exact gone_program _ i hi
      · exact hg i hi
  | deliver taken bad =>
    simp only [step] at h
    split at h
    · cases h
    · split at h
      · cases h
      · cases h
        intro i hi
        rw [(handle_fields _ _ _).2.2]
        exact hg i hi

private theorem gone_run {d : Dispatch} {e : Bool} {c : Area} (as : List Action) : ∀ {s s' : St},
    run d e c s as = some s' → Gone c s → Gone c s' := by
  induction as with
  | nil => intro s s' h hg; cases h; exact hg
  | cons a as ih =>
    intro s s' h hg
    simp only [run] at h
    cases h1 : step d e c s a with
    | none => simp [h1] at h
    | some s1 =>
      simp only [h1, Option.bind_some] at h
      exact ih h (gone_step h1 hg)

/-- With interrupts an event is delivered before anything else happens. -/
private def One (s : St) : Prop := s.events = [] ∨ ((∃ e, s.events = [e]) ∧ s.flight = .none)

private theorem one_step {e : Bool} {c : Area} {s s' : St} {a : Action} (h : step .interrupt e c s a = some s')
    (ho : One s) : One s' := by
  cases a with
  | clear =>
    simp only [step] at h
    split at h
    · cases h
    · rename_i hn
      have hev : s.events = [] := nil_of fun hh => hn (.inr ⟨trivial, hh⟩)
      split at h <;> cases h <;> exact .inl hev
  | call bad =>
    simp only [step] at h
    split at h
    · cases h
    · rename_i hn
      have hev : s.events = [] := nil_of fun hh => hn (.inr ⟨trivial, hh⟩)
      cases h
      left
      simp only [sdFlashWrite]
      split
      · exact hev
      · split <;> exact hev
  | finish =>
    simp only [step] at h
    split at h
    · cases h
    · rename_i hn
      have hev : s.events = [] := nil_of fun hh => hn ⟨trivial, hh⟩
      split at h
      · rename_i r _
        cases h
        cases r <;> exact .inl hev
      · cases h
  | other =>
    simp only [step] at h
    split at h
    · cases h
    · rename_i hn
      have hev : s.events = [] := nil_of fun hh => hn (.inr (.inr ⟨trivial, hh⟩))
      cases h; exact .inl hev
  | complete ok =>
    simp only [step] at h
    split at h
    · cases h
    · rename_i hn
      cases h
      rcases ho with hev | ⟨_, hf⟩
      · exact .inr ⟨⟨ok, by simp [hev]⟩, rfl⟩
      · exact absurd hf hn
  | deliver taken bad =>
    simp only [step] at h
    split at h
    · cases h
    · rename_i ok events hev
      split at h
      · cases h
      · cases h
        left
        rw [(handle_fields _ _ _).1]
        rcases ho with hev' | ⟨⟨x, hev'⟩, _⟩
        · simp [hev'] at hev
        · rw [hev'] at hev; cases hev; rfl

/-- One action keeps `Inv`, unless an operation fails while the main program is about to examine that it was
started. -/
private theorem inv_step {e : Bool} {c : Area} {s s' : St} {a : Action} (h : step .interrupt e c s a = some s')
    (ho : One s) (hi : Inv c s) (hf : a = .complete false → s.pc ≠ .returned .success) : Inv c s' := by
  by_cases hg : Gone c s
  · exact gone_inv (gone_step h hg)
  have hcl : s.clear ≠ .idle := fun hh => hg (hi.idle hh)
  cases a with
  | clear =>
    simp only [step] at h
    split at h
    · cases h
    · split at h
      · cases h
        refine ⟨?_, ?_, ?_, ?_, ?_⟩ <;> intro hx <;> simp at hx
      · cases h; exact gone_inv (gone_program _)
  | call bad =>
    simp only [step] at h
    split at h
    · cases h
    · rename_i hn
      have hev : s.events = [] := nil_of fun hh => hn (.inr ⟨trivial, hh⟩)
      cases h
      simp only [sdFlashWrite]
      split
      · refine ⟨fun hh => absurd hh hcl, fun h1 h2 => hi.prog h1 h2, fun h1 => hi.progEv h1, ?_, ?_⟩ <;>
          intro hx <;> simp at hx
      · split
        · refine ⟨fun hh => absurd hh hcl, fun h1 h2 => .inr rfl, fun h1 => hi.progEv h1, fun _ _ => .inr rfl,
            fun _ hh => absurd hev hh⟩
        · refine ⟨fun hh => absurd hh hcl, fun h1 h2 => hi.prog h1 h2, fun h1 => hi.progEv h1, ?_, ?_⟩ <;>
            intro hx <;> simp at hx
  | finish =>
    simp only [step] at h
    split at h
    · cases h
    · rename_i hn
      have hev : s.events = [] := nil_of fun hh => hn ⟨trivial, hh⟩
      split at h
      · rename_i r hr
        cases h
        cases r with
        | success =>
          refine ⟨?_, fun _ _ => hi.ret hr hev, ?_, ?_, ?_⟩
          · intro hx; simp [examine] at hx
          · intro _ x hx; simp [examine, hev] at hx
          · intro hx; simp at hx
          · intro hx; simp at hx
        | busy =>
          refine ⟨fun hh => absurd hh hcl, fun h1 h2 => hi.prog h1 h2, fun h1 => hi.progEv h1, ?_, ?_⟩ <;>
            intro hx <;> simp at hx
        | error =>
          refine ⟨fun hh => absurd hh hcl, fun h1 h2 => hi.prog h1 h2, fun h1 => hi.progEv h1, ?_, ?_⟩ <;>
            intro hx <;> simp at hx
      · cases h
  | other =>
    simp only [step] at h
    split at h
    · cases h
    · rename_i hn
      have hfl : s.flight = .none := by
        rcases hfx : s.flight with _ | _ | _
        · rfl
        · exact absurd (.inr (.inl (by simp [hfx]))) hn
        · exact absurd (.inr (.inl (by simp [hfx]))) hn
      cases h
      have h0 : s.events = [] → s.clear ≠ .inProgress := by
        intro h1 h2
        rcases hi.prog h2 h1 with h3 | h3
        · exact hg h3
        · simp [hfl] at h3
      have h1 : s.events = [] → s.pc ≠ .returned .success := by
        intro h1 h2
        rcases hi.ret h2 h1 with h3 | h3
        · exact hg h3
        · simp [hfl] at h3
      exact ⟨fun hh => absurd hh hcl, fun hh h2 => absurd hh (h0 h2), fun h1 => hi.progEv h1,
        fun hh h2 => absurd hh (h1 h2), fun hh h2 => hi.retEv hh h2⟩
  | complete ok =>
    simp only [step] at h
    split at h
    · cases h
    · rename_i hn
      cases h
      have hev : s.events = [] := by
        rcases ho with h1 | ⟨_, h1⟩
        · exact h1
        · exact absurd h1 hn
      cases ok with
      | false =>
        refine ⟨fun hh => absurd hh hcl, fun _ hh => by simp at hh, ?_, fun hh => absurd hh (hf rfl),
          fun hh => absurd hh (hf rfl)⟩
        intro _ x hx hxt
        simp [hev, hxt] at hx
      | true =>
        by_cases ho : s.flight = .ours
        · refine gone_inv ?_
          intro i hi
          show (if s.flight = .ours ∧ true = true then program s.flash c.start [0, 0, 0, 0] else s.flash) (c.start + i) = 0
          rw [if_pos ⟨ho, rfl⟩]
          exact gone_program _ i hi
        · have h0 : s.clear ≠ .inProgress := by
            intro h2
            rcases hi.prog h2 hev with h3 | h3
            · exact hg h3
            · exact ho h3
          have h1 : s.pc ≠ .returned .success := by
            intro h2
            rcases hi.ret h2 hev with h3 | h3
            · exact hg h3
            · exact ho h3
          exact ⟨fun hh => absurd hh hcl, fun hh => absurd hh h0, fun hh => absurd hh h0, fun hh => absurd hh h1,
            fun hh => absurd hh h1⟩
  | deliver taken bad =>
    simp only [step] at h
    split at h
    · cases h
    · rename_i ok events hev
      have hpc : s.pc ≠ .returned .success := fun hh => hg (hi.retEv hh (by simp [hev]))
      have hevs : events = [] := by
        rcases ho with hev' | ⟨⟨x, hev'⟩, _⟩
        · simp [hev'] at hev
        · rw [hev'] at hev; cases hev; rfl
      split at h
      · cases h
      · cases h
        have hm := handle_more { s with events := events, flight := if taken = true then Flight.other else s.flight } ok bad
          hcl (fun hc => absurd (hi.progEv hc.1 ok (by simp [hev]) hc.2) hg)
        have hx := handle_fields { s with events := events, flight := if taken = true then Flight.other else s.flight } ok bad
        generalize handle { s with events := events, flight := if taken = true then Flight.other else s.flight } ok bad = t at hm hx
        obtain ⟨he, hp, _⟩ := hx
        have hp' : t.pc ≠ .returned .success := by rw [hp]; exact hpc
        have he' : t.events = [] := by rw [he]; exact hevs
        rcases hm with hm | ⟨hm, hfl⟩
        · exact ⟨fun hh => (by rw [hm] at hh; cases hh), fun hh => (by rw [hm] at hh; cases hh),
            fun hh => (by rw [hm] at hh; cases hh), fun hh => absurd hh hp', fun hh => absurd hh hp'⟩
        · exact ⟨fun hh => (by rw [hm] at hh; cases hh), fun _ _ => .inr hfl,
            fun _ x hx => (by rw [he'] at hx; cases hx), fun hh => absurd hh hp', fun hh => absurd hh hp'⟩

private theorem one_run {e : Bool} {c : Area} (as : List Action) : ∀ {s s' : St},
    run .interrupt e c s as = some s' → One s → One s' := by
  induction as with
  | nil => intro s s' h hg; cases h; exact hg
  | cons a as ih =>
    intro s s' h hg
    simp only [run] at h
    cases h1 : step .interrupt e c s a with
    | none => simp [h1] at h
    | some s1 =>
      simp only [h1, Option.bind_some] at h
      exact ih h (one_step h1 hg)

private theorem inv_run {e : Bool} {c : Area} (as : List Action) : ∀ {s s' : St},
    run .interrupt e c s as = some s' → One s → Inv c s →
    (∀ xs ys, as = xs ++ .complete false :: ys → ∀ t, run .interrupt e c s xs = some t → t.pc ≠ .returned .success) →
    Inv c s' := by
  induction as with
  | nil => intro s s' h _ hg _; cases h; exact hg
  | cons a as ih =>
    intro s s' h ho hg hf
    simp only [run] at h
    cases h1 : step .interrupt e c s a with
    | none => simp [h1] at h
    | some s1 =>
      simp only [h1, Option.bind_some] at h
      refine ih h (one_step h1 ho) (inv_step h1 ho hg ?_) ?_
      · intro ha; subst ha
        exact hf [] as rfl s rfl
      · intro xs ys hxy t ht
        exact hf (a :: xs) ys (by simp [hxy]) t (by simp [run, h1, ht])

private theorem run_append {d : Dispatch} {e : Bool} {c : Area} (as bs : List Action) : ∀ s,
    run d e c s (as ++ bs) = (run d e c s as).bind fun s => run d e c s bs := by
  induction as with
  | nil => intro s; rfl
  | cons a as ih =>
    intro s
    simp only [run, List.cons_append]
    cases step d e c s a with
    | none => rfl
    | some s1 => simp [ih]

/-- **C75 (interrupt dispatch; what is missing: an operation that fails just before the main program notes that it
was started, see `C75_false_failure`).** For every schedule in which the coredump was asked to be cleared, a read
of the coredump that is answered begins with zeros, where a coredump would have its magic number. -/
theorem C75_no_stale_partial (enabled : Bool) (c : Area) (hc : c.start < 4294967296) (m : Flash) (xs ys : List Action) (s : St)
    (h : run .interrupt enabled c (start m) (xs ++ .clear :: ys) = some s)
    (hfail : ∀ as bs, xs ++ .clear :: ys = as ++ .complete false :: bs →
      ∀ t, run .interrupt enabled c (start m) as = some t → t.pc ≠ .returned .success)
    (n : Nat) (data : Bytes) (hr : coredumpRead c s 0 n = some data) (i : Nat) (hi : i < min 4 n) :
    data[i]? = some 0 := by
  have hg : Gone c s := by
    rw [run_append] at h
    cases h1 : run .interrupt enabled c (start m) xs with
    | none => simp [h1] at h
    | some s1 =>
      have ho : One s1 := one_run xs h1 (.inl rfl)
      simp only [h1, Option.bind_some, run] at h
      cases h2 : step .interrupt enabled c s1 .clear with
      | none => simp [h2] at h
      | some s2 =>
        simp only [h2, Option.bind_some] at h
        have ho2 : One s2 := one_step h2 ho
        have hi2 : Inv c s2 := by
          simp only [step] at h2
          split at h2
          · cases h2
          · split at h2
            · cases h2
              refine ⟨?_, ?_, ?_, ?_, ?_⟩ <;> intro hx <;> simp at hx
            · cases h2; exact gone_inv (gone_program _)
        have hinv : Inv c s := by
          refine inv_run ys h ho2 hi2 ?_
          intro as bs hab t ht
          refine hfail (xs ++ .clear :: as) bs (by simp [hab]) t ?_
          rw [run_append, h1]
          simp [run, h2, ht]
        apply hinv.idle
        unfold coredumpRead at hr
        split at hr
        · cases hr
        · rename_i hx
          cases hcl : s.clear with
          | idle => rfl
          | requested => exact absurd (by simp [hcl]) hx
          | inProgress => exact absurd (by simp [hcl]) hx
  unfold coredumpRead at hr
  split at hr
  · cases hr
  · unfold readMapped at hr
    split at hr
    · cases hr
    · cases hr
      rw [Mflt.add32_eq (by omega), Nat.add_zero, read_get, if_pos (by omega), hg i (by omega)]

/-- An area for examples. -/
private def exSd : Area := ⟨0x1000, 0x2000, 0x1000⟩

/-- Flash with a coredump in it: all bytes are 0x43. -/
private def exCore : Flash := fun _ => 0x43

private theorem ex_read (s : St) (n : Nat) (hn : n ≤ 4096) : coredumpRead exSd s 0 n =
    if s.clear ≠ .idle then none else some (read s.flash 4096 n) := by
  have h1 : Area.size exSd = 4096 := by
    show sub32 8192 4096 = 4096
    rw [Mflt.sub32_eq (by omega) (by omega)]
  have h2 : add32 exSd.start 0 = 4096 := by
    show add32 4096 0 = 4096
    rw [Mflt.add32_eq (by omega)]
  unfold coredumpRead readMapped within
  rw [h1, h2, Mflt.add32_eq (by omega), Nat.zero_add]
  simp [hn]

-- another user's operation is in flight when the clear is asked for; it fails, our write is started by the handler
example : ((run .interrupt true exSd (start exCore) [.other, .clear, .call false, .complete false, .deliver false false,
    .finish, .complete true, .deliver false false]).bind fun s => coredumpRead exSd s 0 6) =
    some [0, 0, 0, 0, 0x43, 0x43] := by
  simp only [ex_read _ 6 (by omega)]; decide

-- before the write is completed reads are refused
example : ((run .interrupt true exSd (start exCore) [.other, .clear, .call false, .complete false, .deliver false false,
    .finish]).map fun s => coredumpRead exSd s 0 6) = some none := by
  simp only [ex_read _ 6 (by omega)]; decide

/-- **C75 (nothing is refused without a request).** As long as no clear was asked for, reads see the flash as it
is, whatever other users of the flash do, with both ways to dispatch events. -/
theorem C75_unaffected (d : Dispatch) (enabled : Bool) (c : Area) (m : Flash) (as : List Action) (s : St)
    (h : run d enabled c (start m) as = some s) (hno : Action.clear ∉ as) (o n : Nat) :
    coredumpRead c s o n = readMapped c m o n := by
  suffices hs : ∀ (as : List Action) (t : St), run d enabled c t as = some s → Action.clear ∉ as →
      t.clear = .idle → t.flight ≠ .ours → t.pc = .out → s.clear = .idle ∧ s.flash = t.flash by
    obtain ⟨h1, h2⟩ := hs as (start m) h hno rfl (by simp [start]) rfl
    simp only [coredumpRead, h1, h2, start]
    rfl
  intro as
  induction as with
  | nil => intro t ht _ h1 _ _; cases ht; exact ⟨h1, rfl⟩
  | cons a as ih =>
    intro t ht hm h1 h2 h3
    simp only [run] at ht
    cases hst : step d enabled c t a with
    | none => simp [hst] at ht
    | some t1 =>
      simp only [hst, Option.bind_some] at ht
      have hm' : Action.clear ∉ as := fun hh => hm (List.mem_cons_of_mem _ hh)
      cases a with
      | clear => exact absurd (List.mem_cons_self ..) hm
      | call bad => simp [step, h3] at hst
      | finish => simp [step, h3] at hst
      | other =>
        simp only [step] at hst
        split at hst
        · cases hst
        · cases hst
          exact ih { t with flight := .other } ht hm' h1 (by simp) h3
      | complete ok =>
        simp only [step] at hst
        split at hst
        · cases hst
        · cases hst
          have := ih _ ht hm' h1 (by simp) h3
          simpa [h2] using this
      | deliver taken bad =>
        simp only [step] at hst
        split at hst
        · cases hst
        · split at hst
          · cases hst
          · cases hst
            rw [handle, if_pos h1] at ht
            rename_i events _ _
            refine ih ⟨t.clear, if taken = true then Flight.other else t.flight, events, t.pc, t.flash⟩ ht hm' h1 ?_ h3
            show (if taken = true then Flight.other else t.flight) ≠ .ours
            split
            · simp
            · exact h2

/-- **C75 (only the header).** Whatever happens, nothing but the first word of the storage is changed. -/
theorem C75_only_header (d : Dispatch) (enabled : Bool) (c : Area) (m : Flash) (as : List Action) (s : St)
    (h : run d enabled c (start m) as = some s) : Only c.start 4 m s.flash := by
  suffices hs : ∀ (as : List Action) (t : St), run d enabled c t as = some s → Only c.start 4 t.flash s.flash by
    exact hs as _ h
  intro as
  induction as with
  | nil => intro t ht; cases ht; exact Only.refl _ _ _
  | cons a as ih =>
    intro t ht
    simp only [run] at ht
    cases hst : step d enabled c t a with
    | none => simp [hst] at ht
    | some t1 =>
      simp only [hst, Option.bind_some] at ht
      refine Only.trans ?_ (ih t1 ht)
      have hp : Only c.start 4 t.flash (program t.flash c.start [0, 0, 0, 0]) :=
        only_program (d := [0, 0, 0, 0])
      cases a with
      | clear =>
        simp only [step] at hst
        split at hst
        · cases hst
        · split at hst
          · cases hst; exact Only.refl _ _ _
          · cases hst; exact hp
      | call bad =>
        simp only [step] at hst
        split at hst
        · cases hst
        · cases hst
          simp only [sdFlashWrite]
          split
          · exact Only.refl _ _ _
          · split <;> exact Only.refl _ _ _
      | finish =>
        simp only [step] at hst
        split at hst
        · cases hst
        · split at hst
          · rename_i r _
            cases hst
            cases r <;> exact Only.refl _ _ _
          · cases hst
      | other =>
        simp only [step] at hst
        split at hst
        · cases hst
        · cases hst; exact Only.refl _ _ _
      | complete ok =>
        simp only [step] at hst
        split at hst
        · cases hst
        · cases hst
          show Only c.start 4 t.flash (if t.flight = .ours ∧ ok = true then _ else t.flash)
          split
          · exact hp
          · exact Only.refl _ _ _
      | deliver taken bad =>
        simp only [step] at hst
        split at hst
        · cases hst
        · split at hst
          · cases hst
          · cases hst
            rw [(handle_fields _ _ _).2.2]
            exact Only.refl _ _ _

/-- **C75 (a clear is completed).** While an operation is in flight, at most two operations have to succeed until
reads are answered again. -/
theorem C75_completes (c : Area) (s : St) (hev : s.events = []) (hfl : s.flight ≠ .none) :
    ∃ s1, run .interrupt true c s [.complete true, .deliver false false] = some s1 ∧
      ((∀ o n, coredumpRead c s1 o n = readMapped c s1.flash o n) ∨
        ∃ s2, run .interrupt true c s1 [.complete true, .deliver false false] = some s2 ∧
          (∀ i, i < 4 → s2.flash (c.start + i) = 0) ∧
          ∀ o n, coredumpRead c s2 o n = readMapped c s2.flash o n) := by
  cases hcl : s.clear with
  | idle =>
    simp only [run, step, hfl, hev, if_false, Option.bind_some]
    exact ⟨_, rfl, .inl fun o n => by simp [coredumpRead, handle, hcl]⟩
  | inProgress =>
    simp only [run, step, hfl, hev, if_false, Option.bind_some]
    exact ⟨_, rfl, .inl fun o n => by simp [coredumpRead, handle, hcl]⟩
  | requested =>
    simp only [run, step, hfl, hev, if_false, Option.bind_some]
    refine ⟨_, rfl, .inr ?_⟩
    simp only [handle, hcl, sdFlashWrite, examine]
    refine ⟨_, rfl, gone_program _, fun o n => ?_⟩
    simp [coredumpRead]

-- such a state: the clear waits for another user's operation
example : ((run .interrupt true exSd (start exCore) [.other, .clear, .call false, .finish]).map fun s =>
    (s.clear, s.flight, s.events, s.pc)) = some (.requested, .other, [], .out) := by decide

/-- **C75 is false when events are polled.** An earlier operation of another user was completed, but its event is
still to be delivered, when the clear is asked for: the event is taken for the completion of the clear, and the
coredump can be read again before it is overwritten. -/
theorem C75_false_polled : ∃ xs ys s data, Action.complete false ∉ xs ++ .clear :: ys ∧
    run .polled true exSd (start exCore) (xs ++ .clear :: ys) = some s ∧
    coredumpRead exSd s 0 4 = some data ∧ data = [0x43, 0x43, 0x43, 0x43] := by
  refine ⟨[.other, .complete true], [.call false, .finish, .deliver false false], _, [0x43, 0x43, 0x43, 0x43],
    by decide, rfl, ?_, rfl⟩
  rw [ex_read _ 4 (by omega)]; decide

/-- **C75 is false after a failure, also with interrupts.** The write of the clear fails before the main program
noted that it was started, and another user is faster than the retry: the completion of that user's operation is
taken for the completion of the clear. -/
theorem C75_false_failure : ∃ xs ys s data,
    run .interrupt true exSd (start exCore) (xs ++ .clear :: ys) = some s ∧
    coredumpRead exSd s 0 4 = some data ∧ data = [0x43, 0x43, 0x43, 0x43] := by
  refine ⟨[], [.call false, .complete false, .deliver true false, .finish, .complete true, .deliver false false],
    _, [0x43, 0x43, 0x43, 0x43], rfl, ?_, rfl⟩
  rw [ex_read _ 4 (by omega)]; decide

/-- **A clear that gets stuck.** If the operation and the retry its completion triggers both succeed before the main
program noted that the first was started, the coredump is gone, but reads are refused until another user uses the
flash or another clear is asked for. -/
theorem C75_false_stuck : ∃ as s, run .interrupt true exSd (start exCore) as = some s ∧
    Action.complete false ∉ as ∧ (∀ i, i < 4 → s.flash (exSd.start + i) = 0) ∧
    ∀ more s', run .interrupt true exSd s more = some s' → Action.other ∉ more → Action.clear ∉ more →
      ∀ o n, coredumpRead exSd s' o n = none := by
  refine ⟨[.clear, .call false, .complete true, .deliver false false, .complete true, .deliver false false, .finish],
    _, rfl, by decide, fun i hi => gone_program (c := exSd) _ i hi, ?_⟩
  intro more s' h h1 h2 o n
  cases more with
  | nil => cases h; rfl
  | cons a as =>
    cases a with
    | clear => exact absurd (List.mem_cons_self ..) h2
    | other => exact absurd (List.mem_cons_self ..) h1
    | call bad => cases h
    | finish => cases h
    | complete ok => cases h
    | deliver taken bad => cases h

end Mflt.Props
