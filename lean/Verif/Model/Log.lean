import Verif.Model.CircBuf
import Verif.Model.U32

/-!
# Model of `components/core/src/memfault_log.c`

The state after `memfault_log_boot`; before it every call returns at once. `size_t` is 32 bits wide:
`log_read_offset` can wrap around and is passed to the circular buffer. The lock is not modelled:
every function runs to its end. The text of the "messages dropped" line is represented by its number.
-/

namespace Mflt.Log

/-- Compile-time configuration: MEMFAULT_LOG_MAX_LINE_SAVE_LEN, MEMFAULT_LOG_TIMESTAMPS_ENABLE and
MEMFAULT_LOG_DATA_SOURCE_ENABLED. -/
structure Config where
  maxLine : Nat
  timestamps : Bool
  dataSource : Bool
  deriving Repr, DecidableEq

/-- `sMfltLogDataSourceCtx`, memfault_log_data_source.c:26-30. `time` is `none` when no unix time
was available. -/
structure Trigger where
  triggered : Bool
  numLogs : Nat
  time : Option Nat
  deriving Repr, DecidableEq

/-- `sMfltRamLogger` without its region bookkeeping, memfault_log.c:43-60, the static
`s_last_dropped_count` of `prv_read_log`, 257, and the data source's context. -/
structure State where
  minLevel : Nat
  logReadOffset : Nat
  dropped : Nat
  recorded : Nat
  cb : CircBuf
  lastDropped : Nat
  trigger : Trigger
  deriving Repr, DecidableEq

/-- `memfault_log_boot`, memfault_log.c:507-528, on a buffer of `len` bytes;
MEMFAULT_RAM_LOGGER_DEFAULT_MIN_LOG_LEVEL is `minLevel`. -/
def boot (minLevel len : Nat) : Option State :=
  (CircBuf.init len).map fun cb => ⟨minLevel, 0, 0, 0, cb, 0, ⟨false, 0, none⟩⟩

/-- `memfault_circular_buffer_read`, memfault_circular_buffer.c:33-57, with 32-bit offsets. -/
def read32 (cb : CircBuf) (offset dataLen : Nat) : Option (Option Bytes) :=
  if cb.readSize < add32 offset dataLen then some none
  else
    (CircBuf.umod (add32 cb.readOffset offset) cb.totalSpace).bind fun readIdx =>
    let bytesToRead := if cb.totalSpace - readIdx > dataLen then dataLen else cb.totalSpace - readIdx
    (memcpyOut cb.storage readIdx bytesToRead).bind fun first =>
    if dataLen - bytesToRead ≠ 0 then
      (memcpyOut cb.storage 0 (dataLen - bytesToRead)).map fun second => some (first ++ second)
    else some (some first)

/-- `prv_build_header`, memfault_log.c:101-112. `type` is 0 for preformatted, 1 for compact. -/
def buildHeader (level type : Nat) (timestamped : Bool) : UInt8 :=
  UInt8.ofNat ((level &&& 0x07) ||| ((type <<< 3) &&& 0x08) ||| (if timestamped then 0x10 else 0))

/-- `memfault_log_get_level_from_hdr`, memfault_log_private.h:47-50. -/
def levelOf (hdr : UInt8) : Nat := (hdr &&& 0x07).toNat

/-- `memfault_log_get_type_from_hdr`, memfault_log_private.h:52-54. -/
def typeOf (hdr : UInt8) : Nat := ((hdr &&& 0x08) >>> 3).toNat

/-- `memfault_log_hdr_is_timestamped`, memfault_log_private.h:56-58. -/
def timestampedOf (hdr : UInt8) : Bool := hdr &&& 0x10 ≠ 0

/-- One iteration of the eviction loop of `prv_try_free_space`, memfault_log.c:142-161: the space
freed. An entry header that cannot be read is all zeros. -/
def freeStep (s : State) : Option (Nat × State) :=
  (read32 s.cb 0 2).bind fun r =>
  let hdr := (r.getD [0, 0]).getD 0 0
  let space := ((r.getD [0, 0]).getD 1 0).toNat + 2
  (s.cb.consume space).map fun c =>
    if hdr &&& 0xC0 ≠ 0 then
      (space, { s with logReadOffset := sub32 s.logReadOffset space, cb := c.2 })
    else (space, { s with dropped := add32 s.dropped 1, cb := c.2 })

/-- The eviction loop of `prv_try_free_space`, memfault_log.c:141-168; `needed` is `bytes_needed`. -/
def freeLoop : Nat → Int → State → Option (Bool × State)
  | fuel, needed, s =>
    if s.cb.readSize = 0 then some (false, s)
    else match fuel with
      | 0 => none
      | fuel + 1 => (freeStep s).bind fun r =>
        if needed - r.1 ≤ 0 then some (true, r.2) else freeLoop fuel (needed - r.1) r.2

/-- `prv_try_free_space`, memfault_log.c:118-169. -/
def tryFreeSpace (cfg : Config) (s : State) (bytesNeeded : Nat) : Option (Bool × State) :=
  let needed : Int := (bytesNeeded : Int) - s.cb.getWriteSize
  if needed ≤ 0 then some (true, s)
  else if needed > s.cb.getReadSize then some (false, s)
  else if cfg.dataSource && s.trigger.triggered then some (false, s)
  else freeLoop s.cb.getReadSize needed s

/-- The memory image of a `uint32_t`. -/
def le32 (n : Nat) : Bytes :=
  [UInt8.ofNat (n % 256), UInt8.ofNat (n / 256 % 256), UInt8.ofNat (n / 65536 % 256),
   UInt8.ofNat (n / 16777216 % 256)]

/-- The `uint32_t` in the first four bytes of memory. -/
def ofLe32 : Bytes → Nat
  | a :: b :: c :: d :: _ => a.toNat + 256 * b.toNat + 65536 * c.toNat + 16777216 * d.toNat
  | _ => 0

/-- The three `memfault_circular_buffer_write` calls of `prv_log_save`, memfault_log.c:446-457. -/
def writeEntry (s : State) (hdr : UInt8) (totalLen : Nat) (ts : Option Nat) (msg : Bytes) :
    Option State :=
  (s.cb.write [hdr, UInt8.ofNat totalLen]).bind fun w1 =>
  (match ts with
    | some t => w1.2.write (le32 t)
    | none => some (true, w1.2)).bind fun (w2 : Bool × CircBuf) =>
  (CircBuf.write w2.2 msg).map fun (w3 : Bool × CircBuf) => { s with recorded := add32 s.recorded 1, cb := w3.2 }

/-- `prv_log_save`, memfault_log.c:412-470. `now` is what `memfault_platform_time_get_current`
gives. The saved-callback is left out. -/
def save (cfg : Config) (s : State) (level type : Nat) (log : Bytes) (now : Option Nat) :
    Option State :=
  if level < s.minLevel then some s
  else
    let ts := if cfg.timestamps then now else none
    let tsLen := if ts.isSome then 4 else 0
    let truncated := min log.length (cfg.maxLine - tsLen)
    let total := (truncated + tsLen) % 256
    (tryFreeSpace cfg s (2 + total)).bind fun r =>
      if r.1 then
        writeEntry r.2 (buildHeader level type ts.isSome) total ts (log.take truncated)
      else some { r.2 with dropped := add32 r.2.dropped 1 }

/-- `sMfltLogIterator`, memfault_log_private.h:86-90. -/
structure Iter where
  readOffset : Nat
  hdr : UInt8
  len : UInt8
  deriving Repr, DecidableEq

/-- The state of an iteration: buffer, iterator and the callback's context. -/
structure Walk (σ : Type) where
  cb : CircBuf
  iter : Iter
  ctx : σ

/-- `prv_iterate`, memfault_log.c:171-188. -/
def iterate {σ : Type} (callback : Walk σ → Option (Bool × Walk σ)) : Nat → Walk σ → Option (Walk σ)
  | fuel, w => (read32 w.cb w.iter.readOffset 2).bind fun r =>
    match r with
    | none => some w
    | some d => match fuel with
      | 0 => none
      | fuel + 1 =>
        (callback { w with iter := ⟨w.iter.readOffset, d.getD 0 0, d.getD 1 0⟩ }).bind fun q =>
          let w := { q.2 with iter :=
            { q.2.iter with readOffset := add32 q.2.iter.readOffset (2 + q.2.iter.len.toNat) } }
          if q.1 then iterate callback fuel w else some w

/-- `memfault_log_iter_update_entry`, memfault_log.c:196-202. -/
def updateEntry {σ : Type} (w : Walk σ) : Option (Bool × Walk σ) :=
  (w.cb.writeAtOffset (sub32 w.cb.getReadSize w.iter.readOffset) [w.iter.hdr, w.iter.len]).map
    fun r => (r.1, { w with cb := r.2 })

/-- `sMemfaultLog`, log.h:129-145. -/
structure Record where
  level : Nat
  type : Nat
  timestamp : Nat
  msg : Bytes
  deriving Repr, DecidableEq

/-- The end of `prv_read_log_iter_callback`, memfault_log.c:231-247: the message was copied to
`log->msg`, which has room for `maxLine + 1` bytes. -/
def toRecord (cfg : Config) (hdr : UInt8) (msg : Bytes) : Record :=
  if cfg.timestamps && timestampedOf hdr && decide (4 ≤ msg.length) then
    ⟨levelOf hdr, typeOf hdr, ofLe32 msg, msg.drop 4⟩
  else ⟨levelOf hdr, typeOf hdr, 0, msg⟩

/-- `prv_read_log_iter_callback`, memfault_log.c:216-248. Copying more than `maxLine` bytes and the
terminator into `log->msg` is undefined behaviour. -/
def readCallback (cfg : Config) (w : Walk (Option Record)) : Option (Bool × Walk (Option Record)) :=
  (updateEntry { w with iter := { w.iter with hdr := w.iter.hdr ||| 0x80 } }).bind fun u =>
    if !u.1 then some (false, u.2)
    else (read32 u.2.cb (add32 u.2.iter.readOffset 2) u.2.iter.len.toNat).bind fun r =>
      match r with
      | none => some (false, u.2)
      | some msg =>
        if cfg.maxLine < msg.length then none
        else some (false, { u.2 with ctx := some (toRecord cfg u.2.iter.hdr msg) })

/-- What `memfault_log_read` reports. -/
inductive ReadOut
  | nothing
  | droppedLine (n : Nat)
  | log (r : Record)
  deriving Repr, DecidableEq

/-- The second half of `prv_read_log`, memfault_log.c:265-273. -/
def readEntry (cfg : Config) (s : State) : Option (ReadOut × State) :=
  (iterate (readCallback cfg) 1 ⟨s.cb, ⟨s.logReadOffset, 0, 0⟩, none⟩).map fun w =>
    (match w.ctx with | some r => .log r | none => .nothing,
      { s with cb := w.cb, logReadOffset := w.iter.readOffset })

/-- `prv_read_log` / `memfault_log_read`, memfault_log.c:250-286. -/
def read (cfg : Config) (s : State) : Option (ReadOut × State) :=
  if s.lastDropped ≠ s.dropped then
    if s.dropped > 0 then some (.droppedLine s.dropped, { s with lastDropped := s.dropped })
    else readEntry cfg { s with lastDropped := s.dropped }
  else readEntry cfg s

/-- `memfault_log_set_min_save_level`, memfault_log.c:114-116. -/
def setMinLevel (s : State) (level : Nat) : State := { s with minLevel := level }

end Mflt.Log
