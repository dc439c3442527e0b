import Verif.Model.EspCores

/-!
# C142: cores and interrupts in the self test of the ESP32
-/

namespace Mflt.Props

open Mflt.Spec.EspCores Mflt.EspCores

namespace EspCoresAux

theorem disable_spec (own : Nat) : ∀ (left i : Nat) (m : Machine),
    (m.run (disableLoop own left i)).critical = m.critical ∧
      (∀ j, (m.run (disableLoop own left i)).stalled j = if i ≤ j ∧ j < i + left ∧ j ≠ own then true else m.stalled j) ∧
      ∀ j, (m.run (disableLoop own left i)).wasReset j = if i ≤ j ∧ j < i + left ∧ j ≠ own then true else m.wasReset j := by
  intro left
  induction left with
  | zero =>
    intro i m
    refine ⟨rfl, fun j => ?_, fun j => ?_⟩ <;> rw [if_neg (by omega)] <;> rfl
  | succ left ih =>
    intro i m
    rw [disableLoop]
    unfold Machine.run at ih ⊢
    rw [List.foldl_append]
    by_cases h : i ≠ own
    · rw [if_pos h]
      obtain ⟨h1, h2, h3⟩ := ih (i + 1) ([Event.reset i, Event.stall i].foldl Machine.step m)
      refine ⟨h1, fun j => ?_, fun j => ?_⟩
      · rw [h2 j]
        by_cases hj : j = i
        · subst hj
          rw [if_neg (by omega), if_pos (by omega)]
          simp [Machine.step]
        · by_cases hk : i + 1 ≤ j ∧ j < i + 1 + left ∧ j ≠ own
          · rw [if_pos hk, if_pos (by omega)]
          · rw [if_neg hk, if_neg (by omega)]
            simp [Machine.step, hj]
      · rw [h3 j]
        by_cases hj : j = i
        · subst hj
          rw [if_neg (by omega), if_pos (by omega)]
          simp [Machine.step]
        · by_cases hk : i + 1 ≤ j ∧ j < i + 1 + left ∧ j ≠ own
          · rw [if_pos hk, if_pos (by omega)]
          · rw [if_neg hk, if_neg (by omega)]
            simp [Machine.step, hj]
    · rw [if_neg h, List.foldl_nil]
      obtain ⟨h1, h2, h3⟩ := ih (i + 1) m
      refine ⟨h1, fun j => ?_, fun j => ?_⟩
      · rw [h2 j]
        by_cases hk : i + 1 ≤ j ∧ j < i + 1 + left ∧ j ≠ own
        · rw [if_pos hk, if_pos (by omega)]
        · rw [if_neg hk, if_neg (by omega)]
      · rw [h3 j]
        by_cases hk : i + 1 ≤ j ∧ j < i + 1 + left ∧ j ≠ own
        · rw [if_pos hk, if_pos (by omega)]
        · rw [if_neg hk, if_neg (by omega)]

theorem enable_spec (own : Nat) : ∀ (left i : Nat) (m : Machine),
    (m.run (enableLoop own left i)).critical = m.critical ∧
      ∀ j, (m.run (enableLoop own left i)).stalled j = if i ≤ j ∧ j < i + left ∧ j ≠ own then false else m.stalled j := by
  intro left
  induction left with
  | zero =>
    intro i m
    refine ⟨rfl, fun j => ?_⟩
    rw [if_neg (by omega)]
    rfl
  | succ left ih =>
    intro i m
    rw [enableLoop]
    unfold Machine.run at ih ⊢
    rw [List.foldl_append]
    by_cases h : i ≠ own
    · rw [if_pos h]
      obtain ⟨h1, h2⟩ := ih (i + 1) ([Event.unstall i].foldl Machine.step m)
      refine ⟨h1, fun j => ?_⟩
      rw [h2 j]
      by_cases hj : j = i
      · subst hj
        rw [if_neg (by omega), if_pos (by omega)]
        simp [Machine.step]
      · by_cases hk : i + 1 ≤ j ∧ j < i + 1 + left ∧ j ≠ own
        · rw [if_pos hk, if_pos (by omega)]
        · rw [if_neg hk, if_neg (by omega)]
          simp [Machine.step, hj]
    · rw [if_neg h, List.foldl_nil]
      obtain ⟨h1, h2⟩ := ih (i + 1) m
      refine ⟨h1, fun j => ?_⟩
      rw [h2 j]
      by_cases hk : i + 1 ≤ j ∧ j < i + 1 + left ∧ j ≠ own
      · rw [if_pos hk, if_pos (by omega)]
      · rw [if_neg hk, if_neg (by omega)]

end EspCoresAux

open EspCoresAux

/-- C142. For every number of cores and whichever of them runs the test: with interrupts disabled, the critical section is held once, all
other cores are stalled, and the one that runs the test is neither stalled nor reset. -/
theorem C142_disabled (cores own : Nat) (m : Machine) (hm : m.Normal) :
    (m.run (disableIrqs cores false own)).critical = 1 ∧
      (∀ i, i < cores → i ≠ own → (m.run (disableIrqs cores false own)).stalled i = true) ∧
      (m.run (disableIrqs cores false own)).stalled own = false ∧
      (m.run (disableIrqs cores false own)).wasReset own = m.wasReset own := by
  obtain ⟨h1, h2, h3⟩ := disable_spec own cores 0 (m.step .enterCritical)
  have e : m.run (disableIrqs cores false own) = (m.step .enterCritical).run (disableLoop own cores 0) := rfl
  rw [e]
  refine ⟨?_, ?_, ?_, ?_⟩
  · rw [h1]
    show m.critical + 1 = 1
    rw [hm.1]
  · intro i hi ho
    rw [h2, if_pos (by omega)]
  · rw [h2, if_neg (by omega)]
    exact hm.2 own
  · rw [h3, if_neg (by omega)]
    rfl

example : Machine.Normal ⟨0, fun _ => false, fun _ => false⟩ := ⟨rfl, fun _ => rfl⟩

example : disableIrqs 2 false 1 = [.enterCritical, .reset 0, .stall 0] := by decide

/-- C142. For every number of cores, with or without the use of the others: after interrupts are enabled again no core is stalled and no
critical section is held. Missing: that the other cores go on with what they did, which is false, see `C142_false_resume`. -/
theorem C142_enabled_partial (cores own : Nat) (single : Bool) (m : Machine) (hm : m.Normal) :
    (m.run (disableIrqs cores single own ++ enableIrqs cores single own)).Normal := by
  have e : m.run (disableIrqs cores single own ++ enableIrqs cores single own) =
      (((m.run (disableIrqs cores single own)).run (if single then [] else enableLoop own cores 0)).step .exitCritical) := by
    unfold Machine.run enableIrqs
    rw [List.foldl_append, List.foldl_append]
    rfl
  rw [e]
  cases single with
  | true =>
    refine ⟨?_, fun i => hm.2 i⟩
    show m.critical + 1 - 1 = 0
    rw [hm.1]
  | false =>
    obtain ⟨d1, d2, _⟩ := disable_spec own cores 0 (m.step .enterCritical)
    have e1 : m.run (disableIrqs cores false own) = (m.step .enterCritical).run (disableLoop own cores 0) := rfl
    rw [e1]
    obtain ⟨h1, h2⟩ := enable_spec own cores 0 ((m.step .enterCritical).run (disableLoop own cores 0))
    refine ⟨?_, fun i => ?_⟩
    · show (Machine.run _ (enableLoop own cores 0)).critical - 1 = 0
      rw [h1, d1]
      show m.critical + 1 - 1 = 0
      rw [hm.1]
    · show (Machine.run _ (enableLoop own cores 0)).stalled i = false
      rw [h2]
      by_cases hk : 0 ≤ i ∧ i < 0 + cores ∧ i ≠ own
      · rw [if_pos hk]
      · rw [if_neg hk, d2, if_neg hk]
        exact hm.2 i

example : disableIrqs 2 false 0 ++ enableIrqs 2 false 0 = [.enterCritical, .reset 1, .stall 1, .unstall 1, .exitCritical] := by decide

/-- C142. Every other core was reset in between, so that what it did is lost. -/
theorem C142_false_resume (cores own i : Nat) (hi : i < cores) (ho : i ≠ own) (m : Machine) :
    (m.run (disableIrqs cores false own)).wasReset i = true := by
  have h := (disable_spec own cores 0 (m.step .enterCritical)).2.2 i
  rw [if_pos (by omega)] at h
  exact h

example : (Machine.run ⟨0, fun _ => false, fun _ => false⟩ (disableIrqs 2 false 1 ++ enableIrqs 2 false 1)).wasReset 0 = true := by decide

/-- C142. Other cores are touched only while the critical section is held: it is entered first and left last. -/
theorem C142_order (cores own : Nat) (single : Bool) :
    (∃ es, disableIrqs cores single own = Event.enterCritical :: es ∧ Event.enterCritical ∉ es ∧ Event.exitCritical ∉ es) ∧
      ∃ es, enableIrqs cores single own = es ++ [Event.exitCritical] ∧ Event.enterCritical ∉ es ∧ Event.exitCritical ∉ es := by
  have hd : ∀ left i, Event.enterCritical ∉ disableLoop own left i ∧ Event.exitCritical ∉ disableLoop own left i := by
    intro left
    induction left with
    | zero => intro i; exact ⟨List.not_mem_nil, List.not_mem_nil⟩
    | succ left ih =>
      intro i
      obtain ⟨h1, h2⟩ := ih (i + 1)
      rw [disableLoop]
      by_cases h : i ≠ own
      · rw [if_pos h]
        simp [h1, h2]
      · rw [if_neg h]
        exact ⟨h1, h2⟩
  have he : ∀ left i, Event.enterCritical ∉ enableLoop own left i ∧ Event.exitCritical ∉ enableLoop own left i := by
    intro left
    induction left with
    | zero => intro i; exact ⟨List.not_mem_nil, List.not_mem_nil⟩
    | succ left ih =>
      intro i
      obtain ⟨h1, h2⟩ := ih (i + 1)
      rw [enableLoop]
      by_cases h : i ≠ own
      · rw [if_pos h]
        simp [h1, h2]
      · rw [if_neg h]
        exact ⟨h1, h2⟩
  cases single with
  | true => exact ⟨⟨[], rfl, List.not_mem_nil, List.not_mem_nil⟩, ⟨[], rfl, List.not_mem_nil, List.not_mem_nil⟩⟩
  | false => exact ⟨⟨_, rfl, hd cores 0⟩, ⟨_, rfl, he cores 0⟩⟩

end Mflt.Props
