/-!
# What the light of the ESP32 example is to show

It blinks, on at the first period and off at the next, in the colour of the state of the system at that time.
-/

namespace Mflt.Spec.EspLed

inductive Colour where
  | red | green | blue
  deriving DecidableEq, Repr

/-- What happens: the application sets the colour, or a period of the timer ends. -/
inductive Op where
  | set (c : Colour)
  | tick
  deriving DecidableEq, Repr

/-- What is to be seen after each period: the colour, or `none` for dark. The parameters are the current colour and whether the light
was on. -/
def shown : Colour → Bool → List Op → List (Option Colour)
  | _, _, [] => []
  | _, on, .set c :: ops => shown c on ops
  | c, on, .tick :: ops => (if on then none else some c) :: shown c (!on) ops

/-- Red, green and blue of a light with this brightness. -/
def rgb (brightness : Nat) : Option Colour → Nat × Nat × Nat
  | none => (0, 0, 0)
  | some .red => (brightness, 0, 0)
  | some .green => (0, brightness, 0)
  | some .blue => (0, 0, brightness)

end Mflt.Spec.EspLed
