import Verif.Spec.EspLed

/-!
# Model of the light of the ESP32 example

`examples/esp32/apps/memfault_demo_app/main/led.c`, for both kinds of boards. Simplification: the application and the timer do not run
at the same time, and a colour is one of the three of the enumeration.
-/

namespace Mflt.EspLed

open Spec.EspLed

/-- `enum LED_COLORS`, led.h:10-14. -/
def colourNumber : Colour → Nat
  | .red => 0
  | .green => 2
  | .blue => 4

/-- `gpio_set_level`, called in led.c:143, 145. -/
def setLevel (pins : Nat → Bool) (pin : Nat) (level : Bool) : Nat → Bool := fun p => if p = pin then level else pins p

/-- State of a board with three lights: `s_led_color`, `s_led_state`, and the pins. -/
structure Gpio where
  color : Nat
  state : Bool
  pins : Nat → Bool

/-- The loop over the lights, led.c:141-147. -/
def gpioLoop (color : Nat) (state : Bool) : List Nat → (Nat → Bool) → Nat → Bool
  | [], pins => pins
  | l :: ls, pins => gpioLoop color state ls (if l = color then setLevel pins color state else setLevel pins l false)

/-- `prv_heartbeat_led_callback` for pins, led.c:135-148. -/
def gpioTick (g : Gpio) : Gpio :=
  let state := !g.state
  { g with state := state, pins := gpioLoop g.color state [0, 2, 4] g.pins }

/-- The board with pins: the levels of the three after each period; `led_set_color` is led.c:40-42. -/
def gpioRun : List Op → Gpio → List (Bool × Bool × Bool)
  | [], _ => []
  | .set c :: ops, g => gpioRun ops { g with color := colourNumber c }
  | .tick :: ops, g =>
    let g := gpioTick g
    (g.pins 0, g.pins 2, g.pins 4) :: gpioRun ops g

/-- The board with pins at the start, led.c:36, 137, 150-158. -/
def gpioInit : Gpio := ⟨0, false, fun _ => false⟩

/-- The conversion of `s_led_brightness` to eight bits, led.c:114, 120, 126. -/
def toU8 (brightness : Int) : Nat := (brightness % 256).toNat

/-- The colour of the pixel in `prv_heartbeat_led_callback`, led.c:111-128. -/
def pixel (color : Nat) (brightness : Int) : Nat × Nat × Nat :=
  if color = 2 then (0, toU8 brightness, 0) else if color = 4 then (0, 0, toU8 brightness) else (toU8 brightness, 0, 0)

/-- The board with a pixel, led.c:68-79, 105-132: the pixel after each period; the parameters are the brightness, `s_led_color` and
`s_led_state`. -/
def rmtRun (brightness : Int) : List Op → Nat → Bool → List (Nat × Nat × Nat)
  | [], _, _ => []
  | .set c :: ops, _, state => rmtRun brightness ops (colourNumber c) state
  | .tick :: ops, color, state => (if state then pixel color brightness else (0, 0, 0)) :: rmtRun brightness ops color (!state)

end Mflt.EspLed
