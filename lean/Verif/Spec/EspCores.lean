/-!
# Cores and interrupts of an ESP32 during the self test of the storage
-/

namespace Mflt.Spec.EspCores

inductive Event where
  | enterCritical
  | exitCritical
  | reset (core : Nat)
  | stall (core : Nat)
  | unstall (core : Nat)
  deriving DecidableEq, Repr

/-- The machine: how often the critical section is held, which cores are stalled, and which were reset. -/
structure Machine where
  critical : Nat
  stalled : Nat → Bool
  wasReset : Nat → Bool

def Machine.step (m : Machine) : Event → Machine
  | .enterCritical => { m with critical := m.critical + 1 }
  | .exitCritical => { m with critical := m.critical - 1 }
  | .reset c => { m with wasReset := fun i => if i = c then true else m.wasReset i, stalled := fun i => if i = c then false else m.stalled i }
  | .stall c => { m with stalled := fun i => if i = c then true else m.stalled i }
  | .unstall c => { m with stalled := fun i => if i = c then false else m.stalled i }

def Machine.run (m : Machine) (es : List Event) : Machine := es.foldl Machine.step m

/-- All cores run and no critical section is held. -/
def Machine.Normal (m : Machine) : Prop := m.critical = 0 ∧ ∀ i, m.stalled i = false

end Mflt.Spec.EspCores
