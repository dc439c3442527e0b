import Verif.Model.EspLed

/-!
# C141: light of the ESP32 example
-/

namespace Mflt.Props

open Mflt.Spec.EspLed Mflt.EspLed

/-- C141. On the board with three lights, for every sequence of colours and periods: after each period at most the light of the current
colour is on, and it is on after every second one. -/
theorem C141_three_lights (ops : List Op) :
    gpioRun ops gpioInit =
      (shown .red false ops).map fun c => (decide (c = some .red), decide (c = some .green), decide (c = some .blue)) := by
  have key : ∀ (ops : List Op) (c : Colour) (on : Bool) (pins : Nat → Bool), gpioRun ops ⟨colourNumber c, on, pins⟩ =
      (shown c on ops).map fun c => (decide (c = some .red), decide (c = some .green), decide (c = some .blue)) := by
    intro ops
    induction ops with
    | nil => intro c on pins; rfl
    | cons op ops ih =>
      intro c on pins
      cases op with
      | set c' => exact ih c' on pins
      | tick =>
        rw [gpioRun, shown, List.map_cons]
        refine congr (congrArg List.cons ?_) (ih c (!on) _)
        cases c <;> cases on <;> rfl
  exact key ops .red false _

example : gpioRun [.tick, .tick, .set .blue, .tick, .set .green, .tick, .tick] gpioInit =
    [(true, false, false), (false, false, false), (false, false, true), (false, false, false), (false, true, false)] := by decide

/-- C141. On the board with one pixel and a brightness from 0 to 255, for every sequence of colours and periods: after each period the
pixel has the current colour with the brightness, or is dark after every second one. Missing: other brightnesses, which the setting
can have, and for which it is false, see `C141_false_brightness`. -/
theorem C141_pixel_partial (brightness : Nat) (hb : brightness < 256) (ops : List Op) :
    rmtRun brightness ops 0 true = (shown .red false ops).map (rgb brightness) := by
  have ht : toU8 brightness = brightness := by
    unfold toU8
    omega
  have key : ∀ (ops : List Op) (c : Colour) (on : Bool), rmtRun brightness ops (colourNumber c) (!on) =
      (shown c on ops).map (rgb brightness) := by
    intro ops
    induction ops with
    | nil => intro c on; rfl
    | cons op ops ih =>
      intro c on
      cases op with
      | set c' => exact ih c' on
      | tick =>
        rw [rmtRun, shown, List.map_cons]
        refine congr (congrArg List.cons ?_) (ih c (!on))
        cases c <;> cases on <;> simp [pixel, colourNumber, ht, rgb]
  exact key ops .red false

example : rmtRun 5 [.tick, .tick, .set .blue, .tick] 0 true = [(5, 0, 0), (0, 0, 0), (0, 0, 5)] := by decide

/-- C141. With a brightness of 256, which is more than the highest, the pixel is always dark: it does not tell a device that runs from one
that does not. -/
theorem C141_false_brightness (ops : List Op) : ∀ p ∈ rmtRun 256 ops 0 true, p = (0, 0, 0) := by
  have hp : ∀ color, pixel color 256 = (0, 0, 0) := by
    intro color
    unfold pixel
    have ht : toU8 256 = 0 := by decide
    rw [ht]
    by_cases h1 : color = 2
    · rw [if_pos h1]
    · rw [if_neg h1]
      by_cases h2 : color = 4
      · rw [if_pos h2]
      · rw [if_neg h2]
  have key : ∀ (ops : List Op) (color : Nat) (state : Bool), ∀ p ∈ rmtRun 256 ops color state, p = (0, 0, 0) := by
    intro ops
    induction ops with
    | nil => intro color state p h; rw [rmtRun] at h; exact absurd h List.not_mem_nil
    | cons op ops ih =>
      intro color state p h
      cases op with
      | set c => exact ih _ _ p h
      | tick =>
        rw [rmtRun, hp] at h
        rcases List.mem_cons.1 h with h | h
        · rw [h]
          cases state <;> rfl
        · exact ih _ _ p h
  exact key ops 0 true

example : rmtRun 256 [.tick, .tick, .tick] 0 true = [(0, 0, 0), (0, 0, 0), (0, 0, 0)] := by decide

end Mflt.Props
