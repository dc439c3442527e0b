import Verif.Model.SerializerEvents

/-!
# Model of `components/core/src/memfault_trace_event.c`

Non-compact logs, logs from interrupts enabled. A task call is modelled twice: as a function, and as
a sequence of steps between which interrupts may capture events.
-/

namespace Mflt.TraceEvent

open Cbor (Encoder Call callAll)
open SerializerHelper

variable {σ : Type}

/-- `sMemfaultTraceEventInfo`, memfault_trace_event.c:32-48. The optional fields are options instead
of a bit mask; the log is its bytes instead of a pointer and a length. -/
structure Info where
  reason : Nat
  pc : Nat
  lr : Nat
  status : Option (BitVec 32)
  log : Option Bytes
  deriving Repr, DecidableEq

/-- The optional pairs, memfault_trace_event.c:89-105. -/
def optionalCalls (info : Info) : List Call :=
  (match info.status with | some v => [u32 7, .signed v] | none => []) ++
  (match info.log with | some l => [u32 8, .byteString l] | none => [])

/-- `extra_event_info_pairs`, memfault_trace_event.c:70-79. -/
def extraPairs (info : Info) : Nat :=
  (if info.status.isSome then 1 else 0) + (if info.log.isSome then 1 else 0)

/-- `prv_encode_cb`, memfault_trace_event.c:68-108. -/
def encode (dev : Device) (time : Option Nat) (info : Info) (e : Encoder σ) : Bool × Encoder σ :=
  andThen (encodeTraceEvent dev time ⟨6, info.reason, info.pc, info.lr, extraPairs info⟩)
    (fun e => callAll e (optionalCalls info)) e

/-- `s_isr_trace_event`, memfault_trace_event.c:110-118. `log` is the copy of the log: `info.log`
points to it. -/
structure Slot where
  reason : Nat
  info : Info
  deriving Repr, DecidableEq

/-- The statics of the file and of the storage it was booted with. -/
structure Sys where
  storage : EventStorage.State
  drops : Drops
  booted : Bool
  slot : Slot
  deriving Repr, DecidableEq

/-- The first part of `prv_trace_event_capture_from_isr`, memfault_trace_event.c:122-128: whether the
slot is free. -/
def isrFree (sys : Sys) : Bool := sys.slot.reason == 0

/-- The second part, memfault_trace_event.c:130-144. -/
def isrWrite (sys : Sys) (info : Info) : Sys := { sys with slot := ⟨info.reason, info⟩ }

/-- `prv_trace_event_capture_from_isr`, memfault_trace_event.c:122-145. -/
def captureFromIsr (sys : Sys) (info : Info) : Int × Sys :=
  if isrFree sys then (0, isrWrite sys info) else (-2, sys)

/-- `prv_trace_event_capture`, memfault_trace_event.c:147-157. -/
def store (dev : Device) (time : Option Nat) (sys : Sys) (info : Info) : Option (Int × Sys) := do
  let (success, storage, drops) ← encodeToStorage (encode dev time info) sys.storage sys.drops
  return (if success then 0 else -2, { sys with storage := storage, drops := drops })

/-- `memfault_trace_event_try_flush_isr_event`, memfault_trace_event.c:159-170. -/
def tryFlush (dev : Device) (time : Option Nat) (sys : Sys) : Option (Int × Sys) :=
  if sys.slot.reason = 0 then some (0, sys)
  else do
    let (rv, sys) ← store dev time sys sys.slot.info
    if rv = 0 then return (rv, { sys with slot := { sys.slot with reason := 0 } })
    else return (rv, sys)

/-- `prv_capture_trace_event_info`, memfault_trace_event.c:172-190. `times` are the results of the
clock at the two stores. -/
def captureInfo (dev : Device) (insideIsr : Bool) (times : Option Nat × Option Nat) (sys : Sys)
    (info : Info) : Option (Int × Sys) :=
  if !sys.booted then some (-1, sys)
  else if insideIsr then some (captureFromIsr sys info)
  else do
    let (rv, sys) ← tryFlush dev times.1 sys
    if rv ≠ 0 then return (rv, sys)
    else store dev times.2 sys info

/-- The information captured by `memfault_trace_event_capture`, memfault_trace_event.c:192-199. -/
def plain (reason pc lr : Nat) : Info := ⟨reason, pc, lr, none, none⟩

/-- `memfault_trace_event_with_status_capture`, memfault_trace_event.c:201-211. -/
def withStatus (reason pc lr : Nat) (status : BitVec 32) : Info := ⟨reason, pc, lr, some status, none⟩

/-- `memfault_trace_event_with_log_capture`, memfault_trace_event.c:215-243. `text` is the complete
formatted text, `none` when formatting fails; the buffer has MEMFAULT_TRACE_EVENT_MAX_LOG_LEN = 80
bytes, the last of them for the terminator. -/
def withLog (reason pc lr : Nat) (text : Option Bytes) : Info :=
  ⟨reason, pc, lr, none, some ((text.getD []).take (80 - 1))⟩

/-- `memfault_trace_event_compute_worst_case_storage_size`, memfault_trace_event.c:282-292.
`numReasons` is `kMfltTraceReasonUser_NumReasons`. -/
def worstCase (dev : Device) (time : Option Nat) (numReasons : Nat) : Nat :=
  computeSize (encode dev time ⟨numReasons, 0xffffffff, 0xffffffff, some 0x7fffffff#32, none⟩)

/-- `memfault_trace_event_boot`, memfault_trace_event.c:54-66, with a storage. -/
def boot (dev : Device) (time : Option Nat) (numReasons storageMaxSize : Nat) (sys : Sys) : Int × Sys :=
  if !checkStorageSize storageMaxSize (worstCase dev time numReasons) then (-3, sys)
  else (0, { sys with booted := true })

/-! ## A task call in steps

Between the accesses to the shared slot and the storage an interrupt may capture events. Storing an
event is one step: an interrupt that occurs meanwhile changes nothing but the slot, and the slot only
while it is free, and the stored information is read from the slot only while it is not. -/

/-- Where a task is in `prv_capture_trace_event_info` (`own` is set) or
`memfault_trace_event_try_flush_isr_event`. -/
inductive Pc
  | flushCheck
  | flushStore
  | flushClear
  | ownStore
  | done (rv : Int)
  deriving Repr, DecidableEq

/-- After a successful flush, memfault_trace_event.c:184-189 or :169. -/
def afterFlush (own : Option Info) : Pc := if own.isSome then .ownStore else .done 0

/-- The entry, memfault_trace_event.c:173-175. -/
def entry (sys : Sys) (own : Option Info) : Pc :=
  if own.isSome && !sys.booted then .done (-1) else .flushCheck

/-- One step of a task, memfault_trace_event.c:159-190. -/
def taskStep (dev : Device) (time : Option Nat) (own : Option Info) (sys : Sys) :
    Pc → Option (Sys × Pc)
  | .flushCheck => some (sys, if sys.slot.reason = 0 then afterFlush own else .flushStore)
  | .flushStore =>
    (store dev time sys sys.slot.info).map fun r => (r.2, if r.1 = 0 then .flushClear else .done r.1)
  | .flushClear => some ({ sys with slot := { sys.slot with reason := 0 } }, afterFlush own)
  | .ownStore =>
    match own with
    | some info => (store dev time sys info).map fun r => (r.2, .done r.1)
    | none => some (sys, .done 0)
  | .done rv => some (sys, .done rv)

/-- What happens next: the task makes a step, the clock showing `time`, or an interrupt captures an
event. -/
inductive Ev
  | task (time : Option Nat)
  | isr (info : Info)
  deriving Repr, DecidableEq

/-- A call in progress, and the answers the interrupts got, in order. -/
structure Run where
  sys : Sys
  pc : Pc
  outs : List (Info × Int)
  deriving Repr, DecidableEq

/-- One event. -/
def evStep (dev : Device) (own : Option Info) (r : Run) : Ev → Option Run
  | .task time => (taskStep dev time own r.sys r.pc).map fun x => { r with sys := x.1, pc := x.2 }
  | .isr info =>
    if r.sys.booted then
      some { r with sys := (captureFromIsr r.sys info).2
                    outs := r.outs ++ [(info, (captureFromIsr r.sys info).1)] }
    else some { r with outs := r.outs ++ [(info, -1)] }

/-- A task call with interrupts. -/
def runEvs (dev : Device) (own : Option Info) : Run → List Ev → Option Run
  | r, [] => some r
  | r, ev :: evs => (evStep dev own r ev).bind fun r => runEvs dev own r evs

end Mflt.TraceEvent
