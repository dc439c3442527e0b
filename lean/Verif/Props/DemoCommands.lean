import Verif.Model.DemoCommands

/-!
# C143: commands of the demo shell
-/

namespace Mflt.Props

open Mflt.Spec.DemoCommands Mflt.DemoCommands

namespace DemoCommandsAux

theorem drain_spec (bufLen : Nat) (hb : 0 < bufLen) : ∀ (fuel : Nat) (src : List (List UInt8)),
    src.flatten.length + src.length < fuel → ∃ sent, drain bufLen fuel src = some (sent, []) ∧ sent.flatten = src.flatten ∧
      ∀ c ∈ sent, c.length ≤ bufLen := by
  intro fuel
  induction fuel with
  | zero => intro src h; omega
  | succ fuel ih =>
    intro src h
    cases src with
    | nil => exact ⟨[], rfl, rfl, fun c hc => absurd hc List.not_mem_nil⟩
    | cons m ms =>
      rw [drain, getChunk]
      simp only []
      rw [List.flatten_cons, List.length_append, List.length_cons] at h
      have htake : (m.take bufLen).length ≤ bufLen := by
        rw [List.length_take]
        omega
      by_cases hm : m.length ≤ bufLen
      · rw [if_pos hm]
        obtain ⟨sent, h1, h2, h3⟩ := ih ms (by omega)
        refine ⟨m.take bufLen :: sent, by rw [h1]; rfl, ?_, ?_⟩
        · rw [List.flatten_cons, List.flatten_cons, h2, List.take_of_length_le hm]
        · intro c hc
          rcases List.mem_cons.1 hc with rfl | hc
          · exact htake
          · exact h3 c hc
      · rw [if_neg hm]
        obtain ⟨sent, h1, h2, h3⟩ := ih (m.drop bufLen :: ms) (by
          rw [List.flatten_cons, List.length_append, List.length_cons, List.length_drop]
          omega)
        refine ⟨m.take bufLen :: sent, by rw [h1]; rfl, ?_, ?_⟩
        · rw [List.flatten_cons, h2, List.flatten_cons, List.flatten_cons, ← List.append_assoc, List.take_append_drop]
        · intro c hc
          rcases List.mem_cons.1 hc with rfl | hc
          · exact htake
          · exact h3 c hc

theorem digits_eq : ∀ (s : List Char) (n : Nat), (∀ c ∈ s, '0' ≤ c ∧ c ≤ '9') →
    digits s n = s.foldl (fun n c => 10 * n + (c.toNat - 48)) n := by
  intro s
  induction s with
  | nil => intro n _; rfl
  | cons c cs ih =>
    intro n h
    rw [digits, if_pos (h c (List.mem_cons_self ..)), ih _ fun d hd => h d (List.mem_cons_of_mem _ hd)]
    rfl

theorem atoi_eq (s : List Char) (h : IsNumber s) : atoi s = value s := by
  unfold IsNumber at h
  unfold value atoi
  simp only [] at h ⊢
  split
  · rename_i cs
    have hh : ('-' :: cs).head? = some '-' := rfl
    rw [if_pos hh] at h ⊢
    rw [digits_eq cs 0 h.2]
    rfl
  · rename_i hne
    have hh : s.head? ≠ some '-' := by
      intro e
      cases s with
      | nil => cases e
      | cons c cs =>
        rw [List.head?_cons] at e
        injection e with e
        subst e
        exact hne cs rfl
    rw [if_neg hh] at h ⊢
    rw [digits_eq s 0 h.2]

end DemoCommandsAux

open DemoCommandsAux

/-- C143. Whatever the processor does with the wrong accesses and wherever the arguments are: the command to crash with one of the numbers
0 to 4, or without a number, crashes the device. -/
theorem C143_crash (hw : Hardware) (argv : Nat) (arg : Option (List Char))
    (ha : arg = none ∨ arg = some ['0'] ∨ arg = some ['1'] ∨ arg = some ['2'] ∨ arg = some ['3'] ∨ arg = some ['4']) :
    (cmdCrash hw arg argv).Crash := by
  obtain ⟨b, u, w⟩ := hw
  have key : ∀ f : Bool, doSomeWorkFails argv = f → (cmdCrash ⟨b, u, w⟩ arg argv).Crash := by
    intro f hf
    rcases ha with rfl | rfl | rfl | rfl | rfl | rfl <;> cases b <;> cases u <;> cases w <;> cases f <;>
      simp [cmdCrash, atoi, digits, crashEnd, Outcome.Crash, hf]
  exact key _ rfl

/-- C143. What each number does on a processor that does not tolerate the accesses. -/
theorem C143_kinds (argv : Nat) (h : argv < 2 ^ 32) (hv : argv ≠ 0xDEADBEEF) :
    (cmdCrash ⟨true, true, true⟩ (some ['0']) argv = .assert none) ∧ (cmdCrash ⟨true, true, true⟩ (some ['1']) argv = .fault) ∧
      (cmdCrash ⟨true, true, true⟩ (some ['2']) argv = .fault) ∧ (cmdCrash ⟨true, true, true⟩ (some ['3']) argv = .assert none) ∧
      (cmdCrash ⟨true, true, true⟩ (some ['4']) argv = .watchdog) := by
  have hf : doSomeWorkFails argv = true := by
    unfold doSomeWorkFails
    rw [Nat.mod_eq_of_lt h]
    exact decide_eq_true hv
  refine ⟨rfl, rfl, rfl, ?_, rfl⟩
  unfold cmdCrash
  rw [hf]
  rfl

example : (0x20001000 : Nat) < 2 ^ 32 ∧ (0x20001000 : Nat) ≠ 0xDEADBEEF := by decide

/-- C143. Where the processor tolerates the access, the number of the attempt is recorded. -/
theorem C143_recorded (hw : Hardware) (h : hw.unalignedFaults = false) (argv : Nat) :
    cmdCrash hw (some ['2']) argv = .assert (some 2) := by
  unfold cmdCrash
  rw [h]
  rfl

example : cmdCrash ⟨true, false, true⟩ (some ['2']) 0 = .assert (some 2) := by decide

/-- C143. With a number that is not one of 0 to 4 the device does not crash. Missing: texts that are not numbers, for which it is false, see
`C143_false_text`. -/
theorem C143_usage_partial (hw : Hardware) (argv : Nat) (s : List Char) (hs : IsNumber s) (h : value s < 0 ∨ 4 < value s) :
    cmdCrash hw (some s) argv = .returned (-1) := by
  rw [← atoi_eq s hs] at h
  unfold cmdCrash
  simp only []
  rw [if_neg (by omega), if_neg (by omega), if_neg (by omega), if_neg (by omega), if_neg (by omega)]

example : IsNumber ['-', '1', '2'] ∧ value ['-', '1', '2'] = -12 ∧ IsNumber ['1', '0'] ∧ value ['1', '0'] = 10 := by decide

/-- C143. A text that is not a number, such as a request for help, crashes the device instead of the usage. -/
theorem C143_false_text (hw : Hardware) (argv : Nat) :
    ¬IsNumber ['h', 'e', 'l', 'p'] ∧ (cmdCrash hw (some ['h', 'e', 'l', 'p']) argv).Crash :=
  ⟨by decide, trivial⟩

/-- C143. For all data that is there: draining ends, gives all of it to the transport of the user, in order and each byte once, in pieces that
are not longer than the buffer, and leaves none. -/
theorem C143_drain (bufLen : Nat) (hb : 0 < bufLen) (src : List (List UInt8)) : ∃ N, ∀ fuel, N ≤ fuel →
    ∃ sent, drain bufLen fuel src = some (sent, []) ∧ sent.flatten = src.flatten ∧ ∀ c ∈ sent, c.length ≤ bufLen :=
  ⟨src.flatten.length + src.length + 1, fun fuel hf => drain_spec bufLen hb fuel src (by omega)⟩

example : drain 2 10 [[1, 2, 3], [4]] = some ([[1, 2], [3], [4]], []) := by decide

end Mflt.Props
