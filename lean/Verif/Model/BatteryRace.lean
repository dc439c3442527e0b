import Verif.Model.Mem

/-!
# Model of the battery metrics under preemption: `components/metrics/src/memfault_metrics_battery.c`

The charger is plugged in and unplugged at any time, and an interrupt or another task says so with
`memfault_metrics_battery_stopped_discharging` while a heartbeat is made. Every access to the flag that
both share, every reading of the battery and of the clock is a step of its own, and a schedule says what
happens next. Simplifications: one context makes heartbeats; the platform reads the state of charge and
whether the battery is discharging at once; the notification is one store; the schedule begins after the
boot; the metrics themselves are those of `Model/MetricsCollect`.
-/

namespace Mflt.BatteryRace

/-- The next access of `memfault_metrics_battery_collect_data`, memfault_metrics_battery.c:62-120. -/
inductive Pc
  /-- Reading the flag, lines 64-65. -/
  | flag
  /-- Reading the battery, lines 73-74. -/
  | sample (stopped : Bool)
  /-- Writing the flag, line 88. -/
  | store (stopped : Bool) (level : Option Nat) (discharging : Bool)
  /-- Reading the clock and recording, lines 92-119. Nobody else uses what it writes. -/
  | finish (stopped : Bool) (level : Option Nat) (discharging : Bool)
  deriving Repr, DecidableEq

/-- The battery (charging, and what the gauge shows: `none` if it fails), the clock, and
`s_memfault_battery_ctx`, memfault_metrics_battery.c:19-27, with the collection under way. -/
structure Sys where
  charging : Bool
  level : Option Nat
  now : Nat
  last : Int
  start : Nat
  stopped : Bool
  pc : Option Pc
  deriving Repr, DecidableEq

/-- `current_stateofcharge`, memfault_metrics_battery.c:92, 126: the conversion of an unsigned number to
`int32_t`. -/
def value : Option Nat → Int
  | none => -1
  | some n => (BitVec.ofNat 32 n).toInt

/-- `memfault_metrics_battery_boot`, memfault_metrics_battery.c:122-130. -/
def Sys.boot (charging : Bool) (level : Option Nat) (now : Nat) : Sys :=
  ⟨charging, level, now, value level, now, charging, none⟩

/-- What can happen next. -/
inductive Act
  | tick (ms : Nat)
  | plug
  | unplug
  /-- The gauge shows something else. -/
  | gauge (level : Option Nat)
  /-- `memfault_metrics_battery_stopped_discharging` is called. -/
  | notify
  /-- The heartbeat begins to collect. -/
  | collect
  /-- The collection makes its next access. -/
  | next
  deriving Repr, DecidableEq

/-- What can be observed. -/
inductive Ev
  | plugged
  | unplugged
  | notified
  /-- A collection looks whether a notification has arrived. -/
  | begun
  /-- A collection has read the battery. -/
  | sampled (level : Option Nat)
  /-- A collection has prepared the next interval. -/
  | prepared
  /-- A collection has ended at the time `t` and has recorded a drop and a duration, or neither. -/
  | result (r : Option (Nat × Nat)) (t : Nat)
  deriving Repr, DecidableEq

/-- What is recorded: memfault_metrics_battery.c:94-112 and `prv_accumulate_discharge_session_drop`,
memfault_metrics_battery.c:29-51. -/
def record (s : Sys) (stopped : Bool) (cur : Int) (discharging : Bool) : Option (Nat × Nat) :=
  let valid := decide (cur ≥ 0) && decide (s.last ≥ 0)
  let session := discharging && !stopped && valid
  let drop := s.last - cur
  if session && decide (drop ≥ 0) then some (drop.toNat, (s.now - s.start) % 2 ^ 32) else none

/-- One step. A step that is not possible changes nothing. -/
def step (s : Sys) : Act → Sys × List Ev
  | .tick ms => ({ s with now := s.now + ms }, [])
  | .plug => if s.charging then (s, []) else ({ s with charging := true }, [.plugged])
  | .unplug => if s.charging then ({ s with charging := false }, [.unplugged]) else (s, [])
  | .gauge level => ({ s with level := level }, [])
  | .notify => ({ s with stopped := true }, [.notified])
  | .collect =>
    match s.pc with
    | some _ => (s, [])
    | none => ({ s with pc := some .flag }, [])
  | .next =>
    match s.pc with
    | none => (s, [])
    | some .flag => ({ s with pc := some (.sample s.stopped) }, [.begun])
    | some (.sample stopped) =>
      ({ s with pc := some (.store stopped s.level (!s.charging)) }, [.sampled s.level])
    | some (.store stopped level discharging) =>
      ({ s with stopped := !discharging, pc := some (.finish stopped level discharging) }, [.prepared])
    | some (.finish stopped level discharging) =>
      ({ s with last := value level, start := s.now, pc := none },
        [.result (record s stopped (value level) discharging) s.now])

/-- A schedule: the end and everything that is observed. -/
def run : Sys → List Act → Sys × List Ev
  | s, [] => (s, [])
  | s, a :: as => ((run (step s a).1 as).1, (step s a).2 ++ (run (step s a).1 as).2)

end Mflt.BatteryRace
