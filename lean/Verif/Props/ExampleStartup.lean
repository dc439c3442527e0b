import Verif.Model.ExampleStartup

/-!
# C137: start and console of the FreeRTOS example
-/

namespace Mflt.Props

open Mflt.Spec.ExampleStartup Mflt.ExampleStartup

namespace ExampleStartupAux

theorem copy_spec (e lo : Nat) : ∀ (fuel dst src : Nat) (m : Memory), e - dst < fuel → lo ≤ dst →
    (src + (e - dst) ≤ lo ∨ e ≤ src) →
      ∃ m', copyData e fuel dst src m = some m' ∧ ∀ a, m' a = if dst ≤ a ∧ a < e then m (src + (a - dst)) else m a := by
  intro fuel
  induction fuel with
  | zero => intro dst src m h; omega
  | succ fuel ih =>
    intro dst src m h hlo hd
    rw [copyData]
    by_cases hlt : dst < e
    · rw [if_pos hlt]
      obtain ⟨m', h1, h2⟩ := ih (dst + 1) (src + 1) (write m dst (m src)) (by omega) (by omega) (by omega)
      refine ⟨m', h1, fun a => ?_⟩
      rw [h2 a]
      unfold write
      by_cases ha : dst + 1 ≤ a ∧ a < e
      · have e1 : src + 1 + (a - (dst + 1)) = src + (a - dst) := by omega
        rw [if_pos ha, e1, if_neg (by omega), if_pos (by omega)]
      · rw [if_neg ha]
        by_cases hb : a = dst
        · rw [if_pos hb, if_pos (by omega)]
          congr 1
          omega
        · rw [if_neg hb, if_neg (by omega)]
    · rw [if_neg hlt]
      exact ⟨m, rfl, fun a => by rw [if_neg (by omega)]⟩

theorem zero_spec (e : Nat) : ∀ (fuel dst : Nat) (m : Memory), e - dst < fuel →
    ∃ m', zeroBss e fuel dst m = some m' ∧ ∀ a, m' a = if dst ≤ a ∧ a < e then 0#32 else m a := by
  intro fuel
  induction fuel with
  | zero => intro dst m h; omega
  | succ fuel ih =>
    intro dst m h
    rw [zeroBss]
    by_cases hlt : dst < e
    · rw [if_pos hlt]
      obtain ⟨m', h1, h2⟩ := ih (dst + 1) (write m dst 0#32) (by omega)
      refine ⟨m', h1, fun a => ?_⟩
      rw [h2 a]
      unfold write
      by_cases ha : dst + 1 ≤ a ∧ a < e
      · rw [if_pos ha, if_pos (by omega)]
      · rw [if_neg ha]
        by_cases hb : a = dst
        · rw [if_pos hb, if_pos (by omega)]
        · rw [if_neg hb, if_neg (by omega)]
    · rw [if_neg hlt]
      exact ⟨m, rfl, fun a => by rw [if_neg (by omega)]⟩

end ExampleStartupAux

open ExampleStartupAux

/-- C137. For every layout whose sections do not overlap and whatever was in memory before the reset: the start ends, variables with
an initial value have it, the other variables are 0, and all other memory, such as what is to survive a reset, is as it was. -/
theorem C137_memory (l : Layout) (h : l.Apart) (fuel : Nat) (hd : l.edata - l.sdata < fuel) (hb : l.bssEnd - l.bssStart < fuel)
    (m : Memory) :
    ∃ m', cinit l fuel m = some m' ∧
      (∀ i, l.sdata + i < l.edata → m' (l.sdata + i) = m (l.sidata + i)) ∧
      (∀ a, l.bssStart ≤ a → a < l.bssEnd → m' a = 0#32) ∧
      ∀ a, (a < l.sdata ∨ l.edata ≤ a) → (a < l.bssStart ∨ l.bssEnd ≤ a) → m' a = m a := by
  obtain ⟨h1, h2⟩ := h
  obtain ⟨m1, e1, s1⟩ := copy_spec l.edata l.sdata fuel l.sdata l.sidata m hd (Nat.le_refl _) h1
  obtain ⟨m2, e2, s2⟩ := zero_spec l.bssEnd fuel l.bssStart m1 hb
  refine ⟨m2, ?_, ?_, ?_, ?_⟩
  · unfold cinit
    rw [e1]
    exact e2
  · intro i hi
    rw [s2, if_neg (by omega), s1, if_pos (by omega)]
    congr 1
    omega
  · intro a ha hb
    rw [s2, if_pos ⟨ha, hb⟩]
  · intro a ha hb
    rw [s2, if_neg (by omega), s1, if_neg (by omega)]

example : Layout.Apart ⟨100, 1000, 1004, 1006, 1010⟩ := by unfold Layout.Apart; decide

example : ((cinit ⟨100, 1000, 1004, 1006, 1010⟩ 20 fun a => BitVec.ofNat 32 a).map fun m =>
    [m 999, m 1000, m 1003, m 1004, m 1005, m 1006, m 1009, m 1010]) = some [999, 100, 103, 1004, 1005, 0, 0, 1010] := by
  decide +kernel

/-- C137. A second start, as after a reset without loss of power, gives the same variables whatever the program made of them. -/
theorem C137_again (l : Layout) (h : l.Apart) (fuel : Nat) (hd : l.edata - l.sdata < fuel) (hb : l.bssEnd - l.bssStart < fuel)
    (m n : Memory) (hs : ∀ i, l.sdata + i < l.edata → n (l.sidata + i) = m (l.sidata + i)) :
    ∃ m' n', cinit l fuel m = some m' ∧ cinit l fuel n = some n' ∧
      ∀ a, (l.sdata ≤ a ∧ a < l.edata) ∨ (l.bssStart ≤ a ∧ a < l.bssEnd) → n' a = m' a := by
  obtain ⟨m', e1, d1, z1, _⟩ := C137_memory l h fuel hd hb m
  obtain ⟨n', e2, d2, z2, _⟩ := C137_memory l h fuel hd hb n
  refine ⟨m', n', e1, e2, fun a ha => ?_⟩
  rcases ha with ⟨ha, hb⟩ | ⟨ha, hb⟩
  · obtain ⟨i, rfl⟩ : ∃ i, a = l.sdata + i := ⟨a - l.sdata, by omega⟩
    rw [d1 i hb, d2 i hb, hs i hb]
  · rw [z1 a ha hb, z2 a ha hb]

/-- C137. Reading from the console gives the bytes that were typed, in order, as many as there are and fit, and loses none. -/
theorem C137_console (len : Nat) (uart : List UInt8) :
    (read len uart).1 = (uart.take len).map typed ∧ (read len uart).2 = uart.drop len ∧ (read len uart).1.length ≤ len := by
  have h : ∀ b : UInt8, remap b = typed b := by
    intro b
    unfold remap typed
    by_cases h1 : b = 0x7F
    · simp [h1]
    · simp [h1]
  have key : (read len uart).1 = (uart.take len).map typed ∧ (read len uart).2 = uart.drop len := by
    induction len generalizing uart with
    | zero => exact ⟨rfl, rfl⟩
    | succ len ih =>
      cases uart with
      | nil => exact ⟨rfl, rfl⟩
      | cons b uart =>
        obtain ⟨h1, h2⟩ := ih uart
        refine ⟨?_, ?_⟩
        · show remap b :: (read len uart).1 = _
          rw [h1, h]
          rfl
        · exact h2
  refine ⟨key.1, key.2, ?_⟩
  rw [key.1, List.length_map, List.length_take]
  omega

example : read 3 [0x41, 0x7F, 0x7E, 0x42] = ([0x41, 8, 0x7F], [0x42]) := by decide

end Mflt.Props
