import Verif.Model.PortBoot
import Verif.Spec.RebootEvent
import Verif.Spec.MetricsCollect

/-!
# Specification: what a boot does, and how often a reboot is counted

From the model only the type of the histories (`Life`, `Ev`) is used.
-/

namespace Mflt.Spec.PortBoot

open Mflt.PortBoot (Life Ev)
open RebootTracking (Regs)
open Spec.Reboot (unexpected)

/-- The first reason that was marked in a life, with the registers. -/
def firstMark : List Ev → Option (Nat × Option Regs)
  | [] => none
  | .mark reason regs :: _ => some (reason, regs)
  | _ :: es => firstMark es

/-- A coredump was saved in a life. -/
def dumped : List Ev → Bool
  | [] => false
  | .coredumpSaved :: _ => true
  | _ :: es => dumped es

/-- What the events of the life before leave behind for a boot. -/
structure Left where
  mark : Option (Nat × Option Regs)
  dumped : Bool

def nothing : Left := ⟨none, false⟩

def leaves (L : Life) : Left := ⟨firstMark L.evs, dumped L.evs⟩

/-- The reason of the reset before life `L`: what the firmware marked first, or else what the hardware says. -/
def reason (before : Left) (L : Life) : Nat := (before.mark.map Prod.fst).getD L.bootup.reason

/-- The reboot that is to be reported at the boot of `L`. -/
def rebootInfo (before : Left) (L : Life) : RebootTracking.Info :=
  ⟨reason before L, ((before.mark.bind Prod.snd).map Regs.pc).getD 0,
    ((before.mark.bind Prod.snd).map Regs.lr).getD 0, L.bootup.reg, before.dumped⟩

/-- The reboots of a history that are to be reported, with the time of the boot. -/
def reboots : Left → List Life → List (RebootTracking.Info × Option Nat)
  | _, [] => []
  | before, L :: Ls => (rebootInfo before L, L.time) :: reboots (leaves L) Ls

/-- Whether life `L` began with an unexpected reboot. -/
def crashed (before : Left) (L : Life) : Bool := unexpected (reason before L)

/-- The number of unexpected reboots of a history. -/
def crashes : Left → List Life → Nat
  | _, [] => 0
  | before, L :: Ls => (if crashed before L then 1 else 0) + crashes (leaves L) Ls

/-- A heartbeat, of the timer or triggered by hand. -/
def isBeat : Ev → Bool
  | .beat _ => true
  | .metrics (.beat _) => true
  | _ => false

/-- A heartbeat of the timer. -/
def isTimerBeat : Ev → Bool
  | .beat _ => true
  | _ => false

/-- The numbers in the heartbeats of one life: the first one has `n`, the others have none. -/
def reports (n : Nat) (L : Life) : List (Option Nat) :=
  match L.evs.countP isBeat with
  | 0 => []
  | k + 1 => some n :: List.replicate k none

/-- The numbers in all heartbeats, life by life. `n` reboots were counted before and not forgotten; `clears` says
whether a heartbeat of the timer makes the port forget them. -/
def told (clears : Bool) : Left → Nat → List Life → List (List (Option Nat))
  | _, _, [] => []
  | before, n, L :: Ls =>
    let m := n + if crashed before L then 1 else 0
    reports m L :: told clears (leaves L) (if clears && (L.evs.any isTimerBeat || L.cut) then 0 else m) Ls

/-- 32-bit values, the reason 2^32-1 stands for none. -/
structure LifeOk (L : Life) : Prop where
  reason : L.bootup.reason < 2 ^ 32 - 1
  reg : L.bootup.reg < 2 ^ 32
  marks : ∀ r g, Ev.mark r g ∈ L.evs → r < 2 ^ 32 - 1 ∧ ∀ x, g = some x → x.pc < 2 ^ 32 ∧ x.lr < 2 ^ 32
  sessions : ∀ a i, Ev.session a i ∈ L.evs → i < 32

/-- The application does not change the metric `k` of a session itself. -/
def untouched (k session : Nat) : Ev → Prop
  | .metrics e => Spec.Collect.untouched k session e
  | .beat b => Spec.Collect.untouched k session (.beat b)
  | _ => True

end Mflt.Spec.PortBoot
