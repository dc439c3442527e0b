import Verif.Model.QemuPlatform

/-!
# C140: memory and resets of the boards of the FreeRTOS example
-/

namespace Mflt.Props

open Mflt.Spec.QemuPlatform Mflt.QemuPlatform

/-- C140. For every table of regions below the end of the address space: the range that is granted is not longer than what was asked
for, and each of its bytes is in a region of the table. -/
theorem C140_inside (rs : List Region) (hr : ∀ r ∈ rs, r.start + r.length < 2 ^ 32) (addr desired : Nat) :
    sanitize rs addr desired ≤ desired ∧
      ∀ a, addr ≤ a → a < addr + sanitize rs addr desired → ∃ r ∈ rs, r.Has a := by
  induction rs with
  | nil =>
    rw [sanitize]
    exact ⟨Nat.zero_le _, fun a h1 h2 => by omega⟩
  | cons r rs ih =>
    have h := hr r (List.mem_cons_self ..)
    rw [sanitize]
    rw [Nat.mod_eq_of_lt h]
    by_cases hc : addr ≥ r.start ∧ addr < r.start + r.length
    · rw [if_pos hc]
      refine ⟨Nat.min_le_left _ _, fun a h1 h2 => ⟨r, List.mem_cons_self .., ?_⟩⟩
      have h3 := Nat.min_le_right desired (r.start + r.length - addr)
      unfold Region.Has
      omega
    · rw [if_neg hc]
      obtain ⟨h1, h2⟩ := ih fun r hm => hr r (List.mem_cons_of_mem _ hm)
      exact ⟨h1, fun a ha hb => by
        obtain ⟨r', hm, hh⟩ := h2 a ha hb
        exact ⟨r', List.mem_cons_of_mem _ hm, hh⟩⟩

example : ∀ r ∈ [board385, board505], r.start + r.length < 2 ^ 32 := by decide

/-- C140. On each of the boards the range that is granted is the longest that is allowed: a byte of the memory that was asked for is
not granted only if a byte before it, from the start on, is not in memory. -/
theorem C140_all (b : Region) (rs : List Region) (hb : (b = board385 ∧ rs = regions385) ∨ (b = board505 ∧ rs = regions505))
    (addr desired i : Nat) (hi : i < desired) (hm : ∀ j, j ≤ i → b.Has (addr + j)) : i < sanitize rs addr desired := by
  have h0 := hm 0 (Nat.zero_le _)
  have h1 := hm i (Nat.le_refl _)
  unfold Region.Has at h0 h1
  rcases hb with ⟨rfl, rfl⟩ | ⟨rfl, rfl⟩
  · unfold board385 at h0 h1
    unfold regions385
    rw [sanitize]
    simp only [] at h0 h1 ⊢
    rw [if_pos (by omega)]
    omega
  · unfold board505 at h0 h1
    unfold regions505
    rw [sanitize]
    simp only [] at h0 h1 ⊢
    rw [if_pos (by omega)]
    omega

example : sanitize regions385 0x207FFFF0 100 = 16 ∧ sanitize regions505 0x207FFFF0 100 = 0 := by decide +kernel

/-- C140. On each of the boards nothing outside of its memory is granted. -/
theorem C140_none (b : Region) (rs : List Region) (hb : (b = board385 ∧ rs = regions385) ∨ (b = board505 ∧ rs = regions505))
    (addr desired a : Nat) (h1 : addr ≤ a) (h2 : a < addr + sanitize rs addr desired) : b.Has a := by
  rcases hb with ⟨rfl, rfl⟩ | ⟨rfl, rfl⟩
  · obtain ⟨r, hm, hh⟩ := (C140_inside regions385 (by decide) addr desired).2 a h1 h2
    rw [List.mem_singleton.1 hm] at hh
    exact hh
  · obtain ⟨r, hm, hh⟩ := (C140_inside regions505 (by decide) addr desired).2 a h1 h2
    rw [List.mem_singleton.1 hm] at hh
    exact hh

/-- C140. For every history of resets that starts with power on: each start of the board AN385 reports the cause of the reset before it,
and not one of an earlier reset. -/
theorem C140_resets (causes : List Cause) (hw : BitVec 32) :
    boots (Cause.powerOn :: causes) hw = (Cause.powerOn :: causes).map code := by
  have key : ∀ cs : List Cause, boots cs 0#32 = cs.map code := by
    intro cs
    induction cs with
    | nil => rfl
    | cons c cs ih =>
      rw [boots, List.map_cons]
      have h : (rebootReasonGet (resetRegister c 0#32)).2 = 0#32 := rfl
      rw [h, ih]
      have h2 : (rebootReasonGet (resetRegister c 0#32)).1.2 = code c := by cases c <;> decide
      rw [h2]
  exact key (Cause.powerOn :: causes)

example : boots [.powerOn, .watchdog, .softwareRequest, .lockup, .powerOn] 0xFF#32 = [0x0007, 0x8005, 0x0008, 0x9401, 0x0007] := by
  decide

end Mflt.Props
