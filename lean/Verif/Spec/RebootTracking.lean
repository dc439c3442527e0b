import Verif.Model.RebootTracking

/-!
# Specification: what a device remembers across reboots

From the model only the types of arguments and results are used (`Bootup`, `Regs`, `Info`).
-/

namespace Mflt.Spec.Reboot

open RebootTracking (Bootup Regs Info)

/-- The calls, and what may happen to the device. -/
inductive Op
  | boot (b : Option Bootup)
  | mark (reason : Nat) (regs : Option Regs)
  | clear
  | coredumpSaved
  | resetCrashCount
  | session (active : Bool) (index : Nat)
  | clearSessions
  | readInfo
  | crashCount
  | rebootReason
  | unexpected
  | booted
  | wasActive (index : Nat)
  /-- a reset; memory is kept -/
  | reset
  deriving Repr, DecidableEq

inductive Out
  | unit
  | info (i : Option Info)
  | count (n : Nat)
  | reasons (r : Option (Nat × Nat))
  | flag (b : Option Bool)
  deriving Repr, DecidableEq

/-- The reboot that is remembered. -/
structure Pending where
  reason : Nat
  pc : Nat
  lr : Nat
  deriving Repr, DecidableEq

structure State where
  /-- `boot` was called since the last reset -/
  live : Bool
  pending : Option Pending
  /-- the reset register given at the last boot -/
  reg : Nat
  coredump : Bool
  /-- number of boots after an unexpected reboot -/
  crashes : Nat
  active : Nat → Bool
  /-- since the last reset: reason of the latest boot or mark, and the one that was remembered then -/
  latest : Option (Nat × Nat)

/-- Memory that holds nothing. -/
def empty : State := ⟨false, none, 0, false, 0, fun _ => false, none⟩

/-- Unknown, or in the range of errors. -/
def unexpected (reason : Nat) : Bool := reason == 0 || decide (0x8000 ≤ reason)

/-- The first reboot is kept, and later ones are ignored. -/
def keepFirst (p : Option Pending) (reason : Nat) (regs : Option Regs) : Option Pending :=
  match p with
  | some p => some p
  | none => some ⟨reason, (regs.map Regs.pc).getD 0, (regs.map Regs.lr).getD 0⟩

def known (p : Option Pending) (reason : Nat) : Nat := (p.map Pending.reason).getD reason

/-- Reasons and registers have 32 bits, the reason 2^32-1 stands for none. -/
def reasonOk (reason : Nat) : Prop := reason < 2 ^ 32 - 1

instance (r : Nat) : Decidable (reasonOk r) := inferInstanceAs (Decidable (_ < _))

def step (S : State) : Op → Option (Out × State)
  | .boot b =>
    let reason := (b.map Bootup.reason).getD 0
    if reasonOk reason then
      some (.unit, { S with
        live := true
        pending := keepFirst S.pending reason none
        reg := (b.map Bootup.reg).getD S.reg
        crashes := S.crashes + (if unexpected (known S.pending reason) then 1 else 0)
        latest := some (reason, known S.pending reason) })
    else none
  | .mark reason regs =>
    if reasonOk reason then
      some (.unit, if S.live then
        { S with pending := keepFirst S.pending reason regs, latest := some (reason, known S.pending reason) }
        else S)
    else none
  | .clear => some (.unit, if S.live then { S with pending := none, reg := 0, coredump := false } else S)
  | .coredumpSaved => some (.unit, if S.live then { S with coredump := true } else S)
  | .resetCrashCount => some (.unit, if S.live then { S with crashes := 0 } else S)
  | .session on index =>
    if index < 32 then
      some (.unit, if S.live then { S with active := fun i => if i = index then on else S.active i } else S)
    else none
  | .clearSessions => some (.unit, if S.live then { S with active := fun _ => false } else S)
  | .readInfo =>
    some (.info (if S.live then S.pending.map fun p => ⟨p.reason, p.pc, p.lr, S.reg, S.coredump⟩ else none), S)
  | .crashCount => some (.count (if S.live then S.crashes % 256 else 0), S)
  | .rebootReason => some (.reasons S.latest, S)
  | .unexpected => some (.flag (S.latest.map fun r => unexpected r.2), S)
  | .booted => some (.flag (some S.live), S)
  | .wasActive index =>
    if index < 32 then some (.flag (some (S.live && S.active index)), S) else none
  | .reset => some (.unit, { S with live := false, latest := none })

def run (S : State) : List Op → Option (List Out × State)
  | [] => some ([], S)
  | op :: ops => (step S op).bind fun r => (run r.2 ops).map fun q => (r.1 :: q.1, q.2)

end Mflt.Spec.Reboot

namespace Mflt.RebootTracking

open Spec.Reboot (Op Out)

/-- The same calls on the model. -/
def step (s : State) : Op → Option (Out × State)
  | .boot b => some (.unit, boot s b)
  | .mark reason regs => some (.unit, mark s reason regs)
  | .clear => some (.unit, clear s)
  | .coredumpSaved => some (.unit, markCoredumpSaved s)
  | .resetCrashCount => some (.unit, resetCrashCount s)
  | .session active index => (metricsSession s active index).map fun s => (.unit, s)
  | .clearSessions => some (.unit, clearSessions s)
  | .readInfo => some (.info (readInfo s).1, (readInfo s).2)
  | .crashCount => some (.count (getCrashCount s).1, (getCrashCount s).2)
  | .rebootReason => some (.reasons (getRebootReason s), s)
  | .unexpected => some (.flag (getUnexpected s), s)
  | .booted => some (.flag (some (booted s)), s)
  | .wasActive index => (sessionWasActive s index).map fun r => (.flag (some r.1), r.2)
  | .reset => some (.unit, { s with stat := Stat.init })

def run (s : State) : List Op → Option (List Out × State)
  | [] => some ([], s)
  | op :: ops => (step s op).bind fun r => (run r.2 ops).map fun q => (r.1 :: q.1, q.2)

end Mflt.RebootTracking
