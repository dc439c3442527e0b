/-!
# Commands of the demo shell that crash the device or send its data
-/

namespace Mflt.Spec.DemoCommands

/-- How a command ends. -/
inductive Outcome where
  /-- A failed assertion; with the value that is recorded, if any. -/
  | assert (recorded : Option Nat)
  /-- A fault of the processor. -/
  | fault
  /-- The software watchdog. -/
  | watchdog
  /-- The command returns to the shell. -/
  | returned (value : Int)
  deriving DecidableEq, Repr

/-- The device has crashed. -/
def Outcome.Crash : Outcome → Prop
  | .returned _ => False
  | _ => True

/-- What the processor makes of the two accesses that are wrong on most processors, and of the watchdog. -/
structure Hardware where
  badCallFaults : Bool
  unalignedFaults : Bool
  watchdogFires : Bool

/-- A decimal number: an optional minus and at least one digit. -/
def IsNumber (s : List Char) : Prop :=
  let digits := if s.head? = some '-' then s.tail else s
  digits ≠ [] ∧ ∀ c ∈ digits, '0' ≤ c ∧ c ≤ '9'

/-- Its value. -/
def value (s : List Char) : Int :=
  let magnitude : List Char → Nat := fun digits => digits.foldl (fun n c => 10 * n + (c.toNat - 48)) 0
  if s.head? = some '-' then -(magnitude s.tail : Int) else magnitude s

instance (s : List Char) : Decidable (IsNumber s) := by
  unfold IsNumber
  exact inferInstance

end Mflt.Spec.DemoCommands
