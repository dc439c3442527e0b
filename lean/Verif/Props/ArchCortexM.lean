import Verif.Model.ArchCortexM
import Verif.Spec.ArchCortexM

/-!
# C138: interrupts, faults and debugger on a Cortex-M
-/

namespace Mflt.Props

open Mflt.Spec.ArchCortexM Mflt.ArchCortexM

namespace ArchCortexMAux

theorem inside_iff (icsr : BitVec 32) : isInsideIsr icsr = true ↔ icsr.toNat % 256 ≠ 0 := by
  unfold isInsideIsr
  rw [bne_iff_ne, ne_eq, ne_eq, ← BitVec.toNat_inj, BitVec.toNat_and]
  show ¬(icsr.toNat &&& (2 ^ 8 - 1)) = 0 ↔ _
  rw [Nat.and_two_pow_sub_one_eq_mod]

end ArchCortexMAux

open ArchCortexMAux

/-- C138. On a chip with at most 240 interrupts the SDK knows, whatever the other bits of the register are, whether it runs in the
handler of an exception. Missing: chips with more interrupts, for which it is false, see `C138_false_interrupt`. -/
theorem C138_inside_partial (icsr : BitVec 32) (h : exceptionNumber icsr < 256) :
    isInsideIsr icsr = true ↔ InHandler icsr := by
  rw [inside_iff]
  unfold InHandler
  unfold exceptionNumber at h ⊢
  omega

example : exceptionNumber 0x0440F80F#32 < 256 ∧ InHandler 0x0440F80F#32 := by
  unfold InHandler exceptionNumber
  decide

/-- C138. On every chip: outside of handlers the SDK never takes itself to be inside of one, and inside of one it is wrong for a
single number, the one of interrupt 240. -/
theorem C138_inside_exact (icsr : BitVec 32) :
    (exceptionNumber icsr = 0 → isInsideIsr icsr = false) ∧
      (InHandler icsr → (isInsideIsr icsr = false ↔ exceptionNumber icsr = 16 + 240)) := by
  have h := inside_iff icsr
  unfold InHandler exceptionNumber
  cases hi : isInsideIsr icsr with
  | false =>
    rw [hi] at h
    have h1 : icsr.toNat % 256 = 0 := by
      rcases Nat.eq_zero_or_pos (icsr.toNat % 256) with h2 | h2
      · exact h2
      · exact absurd (h.2 (by omega)) (by decide)
    refine ⟨fun _ => rfl, fun h2 => ⟨fun _ => by omega, fun _ => rfl⟩⟩
  | true =>
    have h1 := h.1 hi
    exact ⟨fun h2 => by omega, fun _ => ⟨fun h2 => absurd h2 (by decide), fun h2 => by omega⟩⟩

/-- C138. The handler of interrupt 240 is taken for a task. -/
theorem C138_false_interrupt : InHandler 0x100#32 ∧ isInsideIsr 0x100#32 = false := by
  unfold InHandler exceptionNumber
  decide

/-- C138. Disabling the configurable faults clears the enables of the four and changes no other bit. -/
theorem C138_faults (shcsr : BitVec 32) (i : Nat) (hi : i < 32) :
    (disableConfigurableFaults shcsr).getLsbD i = if 16 ≤ i ∧ i ≤ 19 then false else shcsr.getLsbD i := by
  have key : ∀ j : Fin 32, (0x000F0000#32).getLsbD j.1 = decide (16 ≤ j.1 ∧ j.1 ≤ 19) := by decide
  have k := key ⟨i, hi⟩
  simp only at k
  unfold disableConfigurableFaults
  rw [BitVec.getLsbD_and, BitVec.getLsbD_not, k]
  by_cases h : 16 ≤ i ∧ i ≤ 19
  · simp [h]
  · simp [h, hi]

example : disableConfigurableFaults 0x00070081#32 = 0x81#32 := by decide

/-- C138. A breakpoint is executed, once, when a debugger is attached, and never otherwise, when it would be a fault. -/
theorem C138_halt (dhcsr : BitVec 32) : haltIfDebugging dhcsr = if dhcsr.toNat % 2 = 1 then [77] else [] := by
  have h : dhcsr &&& 0x1#32 = 0#32 ↔ dhcsr.toNat % 2 = 0 := by
    rw [← BitVec.toNat_inj, BitVec.toNat_and]
    show (dhcsr.toNat &&& (2 ^ 1 - 1)) = 0 ↔ _
    rw [Nat.and_two_pow_sub_one_eq_mod]
  unfold haltIfDebugging
  by_cases h1 : dhcsr.toNat % 2 = 0
  · rw [if_pos (h.2 h1), if_neg (by omega)]
  · rw [if_neg (fun h2 => h1 (h.1 h2)), if_pos (by omega)]

example : haltIfDebugging 0x01030001#32 = [77] ∧ haltIfDebugging 0x01030000#32 = [] := by decide

end Mflt.Props
