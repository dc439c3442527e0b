import Verif.Model.EventStorage

/-!
# Model of `components/core/src/memfault_event_storage.c` with MEMFAULT_EVENT_STORAGE_NV_SUPPORT_ENABLED

The events in RAM are `Model/EventStorage.lean`. The platform's storage
(`g_memfault_platform_nv_event_storage_impl`, nonvolatile_event_storage.h) is a parameter: any functions on
any state. Its `enabled` function answers with a value that may change at any time.
-/

namespace Mflt.NvEvents

open EventStorage (Config hasData read markRead beginWrite appendData finishWrite)

/-- `MemfaultEventReadCallback`, nonvolatile_event_storage.h:23: what is read, or `none` for `false`; the
outer `none` is undefined behaviour. -/
abbrev Reader := Nat → Nat → Option (Option Bytes)

/-- `sMemfaultNonVolatileEventStorageImpl`, nonvolatile_event_storage.h:25-56, without `enabled`.
`has` and `read` do not change the state. -/
structure Impl (ν : Type) where
  /-- the size of the next event, `none` if there is none -/
  has : ν → Option Nat
  read : ν → Nat → Nat → Option Bytes
  consume : ν → ν
  write : ν → Reader → Nat → Option (Bool × ν)

/-- The statics of the event storage, with `s_nv_event_storage_enabled`
(memfault_event_storage.c:350), and the state of the platform. -/
structure Sys (ν : Type) where
  ram : EventStorage.State
  seenEnabled : Bool
  enabled : Bool
  nv : ν

/-- What does not change at run time: batching, the storage, and whether
`memfault_event_storage_request_persist_callback` persists the events, as
nonvolatile_event_storage.h:62-69 proposes, or does nothing. -/
structure Env (ν : Type) where
  cfg : Config
  impl : Impl ν
  auto : Bool

variable {ν : Type}

/-- `prv_nv_event_storage_enabled`, memfault_event_storage.c:349-370. The assertions that the functions
of the platform are there are left out. -/
def nvEnabled (s : Sys ν) : Bool × Sys ν :=
  let s := if s.seenEnabled && !s.enabled then { s with ram := { s.ram with rs := ⟨0, 0, []⟩ } } else s
  (s.enabled, { s with seenEnabled := s.enabled })

/-- `prv_save_event_to_persistent_storage`, memfault_event_storage.c:333-347. -/
def saveEvent (env : Env ν) (s : Sys ν) : Option (Bool × Sys ν) :=
  match hasData env.cfg s.ram with
  | none => none
  | some (false, _, ram) => some (false, { s with ram := ram })
  | some (true, totalSize, ram) =>
    match env.impl.write s.nv (read ram) totalSize with
    | none => none
    | some (false, nv) => some (false, { s with ram := ram, nv := nv })
    | some (true, nv) => (markRead ram).map fun ram => (true, { s with ram := ram, nv := nv })

/-- The loop of `memfault_event_storage_persist`, memfault_event_storage.c:377-380. `none`: undefined
behaviour, or a loop that does not end. -/
def persistLoop (env : Env ν) : Nat → Sys ν → Nat → Option (Nat × Sys ν)
  | 0, _, _ => none
  | fuel + 1, s, saved =>
    match saveEvent env s with
    | none => none
    | some (false, s) => some (saved, s)
    | some (true, s) => persistLoop env fuel s (saved + 1)

/-- `memfault_event_storage_persist`, memfault_event_storage.c:372-383. Fuel: every event saved takes at
least a byte from the events in RAM. -/
def persist (env : Env ν) (s : Sys ν) : Option (Nat × Sys ν) :=
  match nvEnabled s with
  | (false, s) => some (0, s)
  | (true, s) => persistLoop env (s.ram.cb.readSize + 2) s 0

/-- `prv_invoke_request_persist_callback`, memfault_event_storage.c:82-96. The status is not used by
the callback. -/
def requestPersist (env : Env ν) (s : Sys ν) : Option (Sys ν) :=
  if env.auto then (persist env s).map Prod.snd else some s

/-- `prv_event_storage_storage_finish_write`, memfault_event_storage.c:283-310. -/
def finish (env : Env ν) (s : Sys ν) (rollback : Bool) : Option (Sys ν) :=
  match finishWrite s.ram rollback with
  | none => none
  | some ram =>
    if !s.ram.ws.writeInProgress then some { s with ram := ram }
    else if !rollback then requestPersist env { s with ram := ram }
    else some { s with ram := ram }

/-- `prv_nv_event_storage_mark_read_cb`, memfault_event_storage.c:385-394. -/
def nvMarkRead (env : Env ν) (s : Sys ν) : Option (Sys ν) :=
  match hasData env.cfg s.ram with
  | none => none
  | some (false, _, ram) => some { s with ram := ram, nv := env.impl.consume s.nv }
  | some (true, _, ram) => requestPersist env { s with ram := ram, nv := env.impl.consume s.nv }

/-- `prv_has_event`, memfault_event_storage.c:397-422. The size is 0 if there is no event in
the platform's storage. -/
def has (env : Env ν) (s : Sys ν) : Option (Bool × Nat × Sys ν) :=
  match nvEnabled s with
  | (true, s) =>
    match env.impl.has s.nv with
    | none => some (false, 0, s)
    | some n => some (true, n, s)
  | (false, s) => (hasData env.cfg s.ram).map fun r => (r.1, r.2.1, { s with ram := r.2.2 })

/-- `prv_event_storage_read`, memfault_event_storage.c:424-427. -/
def readEvent (env : Env ν) (s : Sys ν) (offset len : Nat) : Option (Option Bytes × Sys ν) :=
  match nvEnabled s with
  | (true, s) => some (env.impl.read s.nv offset len, s)
  | (false, s) => (read s.ram offset len).map fun d => (d, s)

/-- `prv_event_storage_mark_event_read`, memfault_event_storage.c:429-432. -/
def mark (env : Env ν) (s : Sys ν) : Option (Sys ν) :=
  match nvEnabled s with
  | (true, s) => nvMarkRead env s
  | (false, s) => (markRead s.ram).map fun ram => { s with ram := ram }

/-- Calls, in any order. `enable` is a change of what the platform's `enabled` answers, `reset` a reset of
the device, which the platform's storage survives. -/
inductive Op
  | begin
  | append (d : Bytes)
  | finish (rollback : Bool)
  | has
  | read (offset len : Nat)
  | mark
  | persist
  | enable (b : Bool)
  | reset
  deriving Repr, DecidableEq

end Mflt.NvEvents
