import Verif.Spec.Flash
import Verif.Model.FlashPorts

/-!
# Model of clearing a coredump while the SoftDevice is running

`ports/nrf5_sdk/nrf5_coredump_storage.c:51-128, 145-158`. The steps of the main program and of the SoftDevice are
interleaved by a list of actions. Simplifications: the state variable is read and written atomically, the
handler of the SoftDevice's events is not interrupted by code that uses the state, and other users of the flash
do not touch the storage.
-/

namespace Mflt.SoftDevice

open Spec.Flash FlashPorts

/-- `eMemfaultCoredumpClearState`, nrf5_coredump_storage.c:51-55. -/
inductive Clear
  | idle
  | requested
  | inProgress
  deriving Repr, DecidableEq

/-- The operation the SoftDevice carries out: the write of the storage's first word, or one of another user. -/
inductive Flight
  | none
  | ours
  | other
  deriving Repr, DecidableEq

/-- What `sd_flash_write` returns: NRF_SUCCESS, NRF_ERROR_BUSY or another error. -/
inductive Ret
  | success
  | busy
  | error
  deriving Repr, DecidableEq

/-- Where the main program is: outside of `memfault_platform_coredump_storage_clear`, before the call of
`sd_flash_write`, or before the value it returned is examined. -/
inductive Pc
  | out
  | calling
  | returned (r : Ret)
  deriving Repr, DecidableEq

/-- The state of the device. `events`: the results of completed operations the handler has not been told about. -/
structure St where
  clear : Clear
  flight : Flight
  events : List Bool
  pc : Pc
  flash : Flash

/-- What happens. `clear`: the main program calls `memfault_platform_coredump_storage_clear`; `call`, `finish`: it
goes on; `other`: another user starts an operation; `complete ok`: the SoftDevice completes one;
`deliver taken bad`: the handler is told about a result. `taken`: another user starts an operation before the
handler does; `bad`: `sd_flash_write` refuses its arguments. -/
inductive Action
  | clear
  | call (bad : Bool)
  | finish
  | other
  | complete (ok : Bool)
  | deliver (taken bad : Bool)
  deriving Repr, DecidableEq

/-- How events get to the handler, NRF_SDH_DISPATCH_MODEL: by interrupt, before the main program goes on and
before another operation is started, or when the main program asks for them. -/
inductive Dispatch
  | interrupt
  | polled
  deriving Repr, DecidableEq

/-- `sd_flash_write`: the SoftDevice carries out one operation at a time. -/
def sdFlashWrite (s : St) (bad : Bool) : Ret × St :=
  if bad then (.error, s)
  else if s.flight = .none then (.success, { s with flight := .ours })
  else (.busy, s)

/-- nrf5_coredump_storage.c:109-124: what is done with the value `sd_flash_write` returned. -/
def examine (s : St) : Ret → St
  | .success => { s with clear := .inProgress }
  | .busy => s
  | .error => s

/-- `prv_handle_flash_op_complete`, nrf5_coredump_storage.c:60-78, with
`memfault_platform_coredump_storage_clear`, :96-124. -/
def handle (s : St) (success bad : Bool) : St :=
  if s.clear = .idle then s
  else if s.clear = .inProgress ∧ success then { s with clear := .idle }
  else
    let r := sdFlashWrite { s with clear := .requested } bad
    examine r.2 r.1

/-- One action; `none`: it is not possible in this state. `memfault_platform_coredump_storage_clear`,
nrf5_coredump_storage.c:96-128: `enabled` is `nrf_sdh_is_enabled()`. -/
def step (d : Dispatch) (enabled : Bool) (c : Area) (s : St) : Action → Option St
  | .clear =>
    if s.pc ≠ .out ∨ (d = .interrupt ∧ s.events ≠ []) then none
    else if enabled then some { s with clear := .requested, pc := .calling }
    else some { s with flash := program s.flash c.start [0, 0, 0, 0] }
  | .call bad =>
    if s.pc ≠ .calling ∨ (d = .interrupt ∧ s.events ≠ []) then none
    else
      let r := sdFlashWrite s bad
      some { r.2 with pc := .returned r.1 }
  | .finish =>
    if d = .interrupt ∧ s.events ≠ [] then none
    else
      match s.pc with
      | .returned r => some { examine s r with pc := .out }
      | _ => none
  | .other =>
    if !enabled ∨ s.flight ≠ .none ∨ (d = .interrupt ∧ s.events ≠ []) then none
    else some { s with flight := .other }
  | .complete ok =>
    if s.flight = .none then none
    else
      let flash := if s.flight = .ours ∧ ok then program s.flash c.start [0, 0, 0, 0] else s.flash
      some { s with flight := .none, events := s.events ++ [ok], flash := flash }
  | .deliver taken bad =>
    match s.events with
    | [] => none
    | ok :: events =>
      if taken ∧ s.flight ≠ .none then none
      else some (handle { s with events := events, flight := if taken then .other else s.flight } ok bad)

/-- A sequence of actions. -/
def run (d : Dispatch) (enabled : Bool) (c : Area) (s : St) : List Action → Option St
  | [] => some s
  | a :: as => (step d enabled c s a).bind fun s => run d enabled c s as

/-- After the start of the device. -/
def start (m : Flash) : St := ⟨.idle, .none, [], .out, m⟩

/-- `memfault_coredump_read`, nrf5_coredump_storage.c:151-158. -/
def coredumpRead (c : Area) (s : St) (offset n : Nat) : Option Bytes :=
  if s.clear ≠ .idle then none else readMapped c s.flash offset n

end Mflt.SoftDevice
