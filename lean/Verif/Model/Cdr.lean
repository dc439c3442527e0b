import Verif.Model.SerializerEvents
import Verif.Model.U32

/-!
# Model of `components/core/src/memfault_custom_data_recording.c`

The application's sources are queues of recordings, one per source: `has_cdr_cb` describes the
oldest one, `read_data_cb` reads from it when the window lies inside, `mark_cdr_read_cb` drops it.
The application may add recordings at any time. `size_t` is 32 bits wide. The `encoder` member of
the context is never used and left out; log messages and the argument assertions of
`memfault_cdr_register_source` are not modelled.
-/

namespace Mflt.Cdr

open Cbor (Encoder Call callAll call encodeDictionaryBegin memcpyWrite)
open SerializerHelper (Device encodeMetadata andThen u32)

/-- A recording of the application: `sMemfaultCdrMetadata` and the data,
components/include/memfault/core/custom_data_recording.h:40-79. -/
structure Recording where
  /-- Unix time of the start, if known. -/
  time : Option Nat
  mimetypes : List Bytes
  duration : Nat
  reason : Bytes
  data : Bytes
  deriving Repr, DecidableEq

/-- `sMemfaultCdrMetadata`, custom_data_recording.h:40-79. -/
structure Metadata where
  time : Option Nat
  mimetypes : List Bytes
  duration : Nat
  reason : Bytes
  size : Nat
  deriving Repr, DecidableEq

/-- The all-zero metadata of the initialised context. -/
def Metadata.zero : Metadata := { time := none, mimetypes := [], duration := 0, reason := [], size := 0 }

/-- What `has_cdr_cb` writes for a recording. -/
def Recording.metadata (r : Recording) : Metadata :=
  { time := r.time, mimetypes := r.mimetypes, duration := r.duration, reason := r.reason
    size := r.data.length }

/-- Sizes: MEMFAULT_CDR_MAX_DATA_SOURCES and MEMFAULT_CDR_MAX_ENCODED_METADATA_LEN,
components/include/memfault/default_config.h; and the device information. -/
structure Config where
  maxSources : Nat
  maxMetadata : Nat
  dev : Device

/-- The calls of `prv_encode_cdr_metadata` after `memfault_cbor_encode_dictionary_begin`,
memfault_custom_data_recording.c:61-88. -/
def infoCalls (m : Metadata) : List Call :=
  [u32 1, u32 m.duration, u32 2, .arrayBegin m.mimetypes.length] ++ m.mimetypes.map .string ++
  [u32 3, .string m.reason, u32 4, .byteStringBegin m.size]

/-- `prv_encode_cdr_metadata`, memfault_custom_data_recording.c:45-92. The result of
`memfault_cbor_encode_dictionary_begin` is ignored. -/
def encodeCdr {σ : Type} (dev : Device) (m : Metadata) (e : Encoder σ) : Bool × Encoder σ :=
  andThen (encodeMetadata dev 5 m.time)
    (andThen (fun e => call e (u32 4))
      (fun e => callAll (encodeDictionaryBegin e 4).2 (infoCalls m))) e

/-- `s_cdr_sources`, `s_memfault_cdr_source_ctx` (memfault_custom_data_recording.c:33-43) and the
application's sources. `regs` are the registered sources in slot order (slots are filled from the
front and only cleared all together). -/
structure State where
  regs : List Nat
  queues : Nat → List Recording
  active : Option Nat
  metadata : Metadata
  total : Nat
  encLen : Nat
  buf : Bytes

/-- The state at boot, with nothing recorded. -/
def State.init (c : Config) : State :=
  { regs := [], queues := fun _ => [], active := none, metadata := Metadata.zero, total := 0
    encLen := 0, buf := List.replicate c.maxMetadata 0 }

/-- Replace one queue. -/
def setQueue (q : Nat → List Recording) (i : Nat) (l : List Recording) : Nat → List Recording :=
  fun j => if j = i then l else q j

/-- The application finishes a recording (environment, no code in /repo). -/
def push (s : State) (i : Nat) (r : Recording) : State :=
  { s with queues := setQueue s.queues i (s.queues i ++ [r]) }

/-- `memfault_cdr_register_source`, memfault_custom_data_recording.c:184-199. -/
def register (c : Config) (s : State) (i : Nat) : Bool × State :=
  if s.regs.length < c.maxSources then (true, { s with regs := s.regs ++ [i] }) else (false, s)

/-- The loop of `prv_try_get_cdr_source_with_data`, memfault_custom_data_recording.c:100-110. -/
def firstWithData (q : Nat → List Recording) : List Nat → Option (Nat × Metadata)
  | [] => none
  | i :: is =>
    match q i with
    | r :: _ => some (i, r.metadata)
    | [] => firstWithData q is

/-- `prv_try_get_cdr_source_with_data`, memfault_custom_data_recording.c:94-111. -/
def tryGet (s : State) : State :=
  match s.active with
  | some _ => s
  | none =>
    match firstWithData s.queues s.regs with
    | some (i, m) => { s with active := some i, metadata := m }
    | none => s

/-- `prv_has_cdr`, memfault_custom_data_recording.c:113-137. The outer `none` is a write outside
the metadata buffer; the result is the announced size. -/
def has (c : Config) (s : State) : Option (Option Nat × State) :=
  let s := tryGet s
  match s.active with
  | none => some (none, s)
  | some _ =>
    match encodeCdr c.dev s.metadata (Encoder.init memcpyWrite (some s.buf) c.maxMetadata) with
    | (ok, e) =>
      match e.ctx with
      | none => none
      | some buf =>
        if ok then
          let total := add32 e.encodedSize s.metadata.size
          some (some total, { s with buf := buf, encLen := e.encodedSize, total := total })
        else some (none, { s with buf := buf })

/-- `read_data_cb` of a source (environment). -/
def readData (q : List Recording) (off len : Nat) : Option Bytes :=
  match q with
  | [] => none
  | r :: _ => if off + len ≤ r.data.length then some ((r.data.drop off).take len) else none

/-- `prv_cdr_read`, memfault_custom_data_recording.c:139-171. The outer `none` is a read outside
the metadata buffer, the inner one `false`. -/
def read (s : State) (off len : Nat) : Option (Option Bytes) :=
  match s.active with
  | none => some none
  | some i =>
    if add32 off len > s.total then some none
    else if off < s.encLen then
      let n := min len (s.encLen - off)
      match memcpyOut s.buf off n with
      | none => none
      | some b =>
        if len - n = 0 then some (some b)
        else some ((readData (s.queues i) 0 (len - n)).map (b ++ ·))
    else some (readData (s.queues i) (off - s.encLen) len)

/-- `prv_cdr_mark_sent`, memfault_custom_data_recording.c:173-182. -/
def mark (c : Config) (s : State) : State :=
  match s.active with
  | none => s
  | some i =>
    { s with
      queues := setQueue s.queues i (s.queues i).tail
      active := none, metadata := Metadata.zero, total := 0, encLen := 0
      buf := List.replicate c.maxMetadata 0 }

/-- `memfault_cdr_source_reset`, memfault_custom_data_recording.c:201-204. -/
def reset (c : Config) (s : State) : State :=
  { s with regs := [], active := none, metadata := Metadata.zero, total := 0, encLen := 0
           buf := List.replicate c.maxMetadata 0 }

end Mflt.Cdr
