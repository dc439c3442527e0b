import Verif.Model.MetricsCollect

/-!
# Specification of the built-in metrics (C38, C39, C40, C56)

Only the type of the histories (`Collect.Event`, `Collect.Beat`) comes from the model.
-/

namespace Mflt.Spec.Collect

open Mflt.Collect (Event Beat SocReading)
open Spec.Metrics (Op)
open Spec.Cbor (Item)

/-- A call does not change the number `k` of session `session`. -/
def leaves (k session : Nat) : Op → Prop
  | .setSigned k' _ => k' ≠ k
  | .setUnsigned k' _ => k' ≠ k
  | .add k' _ => k' ≠ k
  | .clear s => s ≠ session
  | .clearAll => False
  | _ => True

/-- The application does not change the number `k` itself. -/
def untouched (k session : Nat) : Event → Prop
  | .call op => leaves k session op
  | .beat b => (∀ op ∈ b.sdkCalls, leaves k session op) ∧ ∀ op ∈ b.userCalls, leaves k session op
  | _ => True

/-- The heartbeats of a history. -/
def beats : List Event → List Beat
  | [] => []
  | .beat b :: es => b :: beats es
  | _ :: es => beats es

/-! ## Operational hours -/

/-- Heartbeats in the order of time, at most 49.6 days apart (2^32 ms minus one hour). -/
def steady : Nat → List Beat → Prop
  | _, [] => True
  | t, b :: bs => t ≤ b.reliabilityMs ∧ b.reliabilityMs - t < 4291367296 ∧ steady b.reliabilityMs bs

/-- The time of the last heartbeat. -/
def lastBeat : Nat → List Beat → Nat
  | t, [] => t
  | _, b :: bs => lastBeat b.reliabilityMs bs

/-- Whole hours. -/
def hoursIn (ms : Nat) : Nat := ms / 3600000

/-- The number in a report; null counts as zero. -/
def amount : Item → Int
  | .uint n => n
  | _ => 0

def numberOrNull : Option Nat → Item
  | some n => .uint n
  | none => .null

/-- For each heartbeat, the hours completed since the one before. -/
def hourReports : Nat → List Beat → List Item
  | _, [] => []
  | t, b :: bs =>
    let d := hoursIn b.reliabilityMs - hoursIn t
    numberOrNull (if d = 0 then none else some d) :: hourReports b.reliabilityMs bs

/-- For each heartbeat, the crash-free hours: one hour less in the first report if it then is known
that the boot followed an unexpected reboot. -/
def crashfreeReports : Nat → List Beat → List Item
  | _, [] => []
  | t, b :: bs =>
    let d := hoursIn b.reliabilityMs - hoursIn t
    if d = 0 then .null :: crashfreeReports b.reliabilityMs bs
    else .uint (d - (if b.unexpectedReboot then 1 else 0)) :: hourReports b.reliabilityMs bs

/-- The answer to whether the boot followed an unexpected reboot at the first heartbeat that completes
an hour. -/
def crashed : Nat → List Beat → Bool
  | _, [] => false
  | t, b :: bs =>
    if hoursIn b.reliabilityMs - hoursIn t = 0 then crashed b.reliabilityMs bs else b.unexpectedReboot

/-! ## Battery -/

/-- A charge that was read and fits a positive 32-bit integer. -/
def validSoc (r : SocReading) : Bool := r.rv == 0 && decide (r.soc.toNat < 2147483648)

/-- The last reading, when it was made, and whether discharging stopped since. -/
structure Seen where
  reading : SocReading
  time : Nat
  stopped : Bool

/-- The drop and the length of the interval since the last reading. -/
def dropOf (seen : Seen) (r : SocReading) (time : Nat) : Option (Nat × Nat) :=
  if validSoc seen.reading ∧ validSoc r ∧ seen.reading.discharging ∧ r.discharging ∧
      seen.stopped = false ∧ r.soc.toNat ≤ seen.reading.soc.toNat then
    some (seen.reading.soc.toNat - r.soc.toNat, (time - seen.time) % 4294967296)
  else none

/-- For each heartbeat of a history, the drop to report. -/
def drops : Seen → List Event → List (Option (Nat × Nat))
  | _, [] => []
  | seen, .beat b :: es => dropOf seen b.soc b.batteryMs :: drops ⟨b.soc, b.batteryMs, false⟩ es
  | seen, .stoppedDischarging :: es => drops { seen with stopped := true } es
  | seen, _ :: es => drops seen es

/-- For each heartbeat, the state of charge to report. -/
def charges : List Beat → List (Option Nat)
  | [] => []
  | b :: bs => (if validSoc b.soc then some b.soc.soc.toNat else none) :: charges bs

/-- The battery readings are in the order of time. -/
def ordered : Nat → List Beat → Prop
  | t, [] => t < 18446744073709551616
  | t, b :: bs => t ≤ b.batteryMs ∧ ordered b.batteryMs bs

/-! ## Log lines -/

/-- The counters never decrease and grow by less than 2^31 between two heartbeats. -/
def growing (count : Beat → Nat) : Nat → List Beat → Prop
  | _, [] => True
  | n, b :: bs => n ≤ count b ∧ count b - n < 2147483648 ∧ growing count (count b) bs

/-- For each heartbeat, the growth of the counter. -/
def growths (count : Beat → Nat) : Nat → List Beat → List Nat
  | _, [] => []
  | n, b :: bs => (count b - n) :: growths count (count b) bs

/-- The counter at the last heartbeat. -/
def lastCount (count : Beat → Nat) : Nat → List Beat → Nat
  | n, [] => n
  | _, b :: bs => lastCount count (count b) bs

/-! ## Connectivity -/

/-- A call has nothing to do with timer `k` of session `session`. -/
def avoids (k session : Nat) : Op → Prop
  | .timerStart k' _ => k' ≠ k
  | .timerStop k' _ => k' ≠ k
  | .timerRead k' _ => k' ≠ k
  | .updateTimers _ => False
  | .clear s => s ≠ session
  | .clearAll => False
  | _ => True

/-- The clock does not go backwards, timer `c` is updated before timer `e`, and apart from connectivity
state changes and heartbeats nothing touches the two. -/
def clocked (c e session : Nat) : Nat → List Event → Prop
  | _, [] => True
  | now, .call op :: es => avoids c session op ∧ avoids e session op ∧ clocked c e session now es
  | now, .connectivity _ t1 t2 :: es => now ≤ t1 ∧ t1 ≤ t2 ∧ clocked c e session t2 es
  | now, .stoppedDischarging :: es => clocked c e session now es
  | now, .beat b :: es =>
    now ≤ b.timers c ∧ b.timers c ≤ b.timers e ∧
    (∀ op ∈ b.sdkCalls, avoids c session op ∧ avoids e session op) ∧
    (∀ op ∈ b.userCalls, avoids c session op ∧ avoids e session op) ∧ clocked c e session (b.timers e) es

/-- Each heartbeat updates the two timers in the same millisecond. -/
def sameTime (c e : Nat) (bs : List Beat) : Prop := ∀ b ∈ bs, b.timers c = b.timers e

end Mflt.Spec.Collect
