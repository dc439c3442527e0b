import Verif.Model.Log
import Verif.Model.SerializerEvents

/-!
# Model of `components/core/src/memfault_log_data_source.c`

Iterations start at offset 0 and end inside the buffer, so that offsets do not wrap. The two
branches on MEMFAULT_LOG_TIMESTAMPS_ENABLE are `cfg.timestamps`.
-/

namespace Mflt.Log

open Cbor (Encoder Call callAll)

/-- Enough iterations for any buffer contents. -/
def walkFuel (cb : CircBuf) : Nat := cb.readSize + 1

/-- `prv_log_is_sent`, memfault_log_data_source.c:34-36. -/
def isSent (hdr : UInt8) : Bool := hdr &&& 0x40 ≠ 0

/-- `prv_log_iterate_counting_callback`, memfault_log_data_source.c:42-48. -/
def countCallback (w : Walk Nat) : Option (Bool × Walk Nat) :=
  some (true, if !isSent w.iter.hdr then { w with ctx := w.ctx + 1 } else w)

/-- `memfault_log_data_source_count_unsent_logs`, memfault_log_data_source.c:299-304. -/
def countUnsent (s : State) : Option Nat :=
  (iterate countCallback (walkFuel s.cb) ⟨s.cb, ⟨0, 0, 0⟩, 0⟩).map Walk.ctx

/-- `memfault_log_trigger_collection`, memfault_log_data_source.c:50-75. -/
def triggerCollection (s : State) (now : Option Nat) : Option State :=
  if s.trigger.triggered then some s
  else (countUnsent s).map fun n =>
    if n = 0 then s else { s with trigger := ⟨true, n, now⟩ }

/-- `sMfltLogEncodingCtx` while encoding: the encoder, `has_encoding_error` and
`num_encoded_logs`, memfault_log_data_source.c:82-92. -/
structure EncCtx (σ : Type) where
  encoder : Encoder σ
  error : Bool
  encoded : Nat

variable {σ : Type}

/-- `prv_serialize_msg_callback`, memfault_log_data_source.c:101-144. -/
def serializeMsg (cfg : Config) (hdr : UInt8) (c : EncCtx σ) (_off : Nat) (buf : Bytes) :
    EncCtx σ × Bool :=
  if cfg.timestamps && timestampedOf hdr && decide (buf.length < 4) then (c, false)
  else
    let ts := if timestampedOf hdr then ofLe32 buf else 0
    let buf := if cfg.timestamps && timestampedOf hdr then buf.drop 4 else buf
    let r := callAll c.encoder
      ((if cfg.timestamps then [SerializerHelper.u32 ts] else []) ++
       [SerializerHelper.u32 (levelOf hdr)] ++
       (if typeOf hdr = 0 then [.stringBegin buf.length, .join buf] else [.byteString buf]))
    ({ c with encoder := r.2 }, r.1)

/-- `prv_log_iterate_encode_callback`, memfault_log_data_source.c:147-162. `stop` reads
`should_stop_encoding`, which the encoder's sink may set. -/
def encodeCallback (cfg : Config) (stop : σ → Bool) (numLogs : Nat) (w : Walk (EncCtx σ)) :
    Option (Bool × Walk (EncCtx σ)) :=
  if stop w.ctx.encoder.ctx then some (false, w)
  else if !isSent w.iter.hdr then
    (w.cb.readWithCallback (w.iter.readOffset + 2) w.iter.len.toNat (serializeMsg cfg w.iter.hdr)
      w.ctx).map fun r =>
      let c := { r.2 with error := r.2.error || !r.1, encoded := r.2.encoded + 1 }
      (decide (c.encoded ≠ numLogs), { w with ctx := c })
  else some (true, w)

/-- `prv_encode`, memfault_log_data_source.c:164-189: the encoder afterwards. (The returned flag is
not used by its callers.) -/
def encode (cfg : Config) (dev : SerializerHelper.Device) (stop : σ → Bool) (s : State)
    (e : Encoder σ) : Option (Encoder σ) :=
  match SerializerHelper.encodeMetadata dev (if cfg.timestamps then 6 else 4) s.trigger.time e with
  | (false, e) => some e
  | (true, e) =>
    match callAll e [SerializerHelper.u32 4,
        .arrayBegin ((if cfg.timestamps then 3 else 2) * s.trigger.numLogs)] with
    | (false, e) => some e
    | (true, e) =>
      (iterate (encodeCallback cfg stop s.trigger.numLogs) (walkFuel s.cb)
        ⟨s.cb, ⟨0, 0, 0⟩, ⟨e, false, 0⟩⟩).map fun w => w.ctx.encoder

/-- `prv_has_logs`, memfault_log_data_source.c:198-210: the announced size. -/
def hasLogs (cfg : Config) (dev : SerializerHelper.Device) (s : State) : Option (Option Nat) :=
  if !s.trigger.triggered then some none
  else (encode cfg dev (fun (_ : Unit) => false) s (Encoder.initSizeOnly ())).map fun e =>
    some e.encodedSize

/-- `sMfltLogsDestCtx`, memfault_log_data_source.c:213-219; `buf = none` after a write outside of it. -/
structure Dest where
  offset : Nat
  buf : Option Bytes
  bufLen : Nat
  written : Nat
  stop : Bool
  deriving Repr, DecidableEq

/-- `prv_encoder_callback`, memfault_log_data_source.c:220-240. -/
def destWrite (d : Dest) (srcOffset : Nat) (src : Bytes) : Dest :=
  let destEnd := d.offset + d.bufLen
  if srcOffset > destEnd then { d with stop := true }
  else
    let start := max srcOffset d.offset
    let stop := min (srcOffset + src.length) destEnd
    if stop ≤ start then d
    else
      { d with
        buf := d.buf.bind fun b => (memcpyOut src (start - srcOffset) (stop - start)).bind fun x =>
          memcpyIn b (start - d.offset) x
        written := d.written + (stop - start) }

/-- `prv_logs_read`, memfault_log_data_source.c:242-261, into a buffer with previous contents `buf`:
whether it succeeded and the buffer. -/
def logsRead (cfg : Config) (dev : SerializerHelper.Device) (s : State) (offset : Nat) (buf : Bytes) :
    Option (Bool × Bytes) :=
  (encode cfg dev Dest.stop s
    (Encoder.init destWrite ⟨offset, some buf, buf.length, 0, false⟩ (2 ^ 32 - 1))).bind fun e =>
    e.ctx.buf.map fun b => (decide (buf.length = e.ctx.written), b)

/-- `prv_log_iterate_mark_sent_callback`, memfault_log_data_source.c:263-273. -/
def markCallback (numLogs : Nat) (w : Walk Nat) : Option (Bool × Walk Nat) :=
  if !isSent w.iter.hdr then
    (updateEntry { w with iter := { w.iter with hdr := w.iter.hdr ||| 0x40 } }).map fun u =>
      (decide (u.2.ctx + 1 ≠ numLogs), { u.2 with ctx := u.2.ctx + 1 })
  else some (true, w)

/-- `prv_logs_mark_sent`, memfault_log_data_source.c:275-286. -/
def markSent (s : State) : Option State :=
  (iterate (markCallback s.trigger.numLogs) (walkFuel s.cb) ⟨s.cb, ⟨0, 0, 0⟩, 0⟩).map fun w =>
    { s with cb := w.cb, trigger := ⟨false, 0, none⟩ }

end Mflt.Log
