import Verif.Model.Log

/-!
# Model of `ports/zephyr/common/memfault_logging.c`, `memfault_logging_legacy.c` and
`memfault_logging_minimal.c`

The connection of Zephyr's logging to the log buffer of the SDK. What the backends do with that buffer is the
list of their calls of `memfault_log_save_preformatted_nolock` and friends; `Model/Log.lean` models these.
A message is the text Zephyr renders it to, with its end of line.

Zephyr itself is not part of the repository. Its `log_output` is modelled by what the code relies on: in
immediate mode the output function gets one character at a time and then an empty write; otherwise the
characters are put in the buffer of 128 bytes, which is written when a further character does not fit and at the
end of the message.

Messages of other threads can come at any moment, so processing a message is divided into steps.
Out of bounds reads and the use of dead stack memory are `none`.
-/

namespace Mflt.ZephyrLog

/-- A call of `memfault_log_save_preformatted_nolock` or `memfault_log_save_preformatted`: the level and the bytes
that are read. -/
structure Call where
  level : Nat
  text : Bytes
  deriving Repr, DecidableEq

/-- `prv_map_zephyr_level_to_memfault`, memfault_logging.c:78-84 and memfault_logging_legacy.c:82-88. Zephyr:
1 error, 2 warning, 3 info, 4 debug, 0 none (`printk`). Memfault: 0 debug to 3 error. -/
def mapLevel (z : Nat) : Nat := if z = 1 then 3 else if z = 2 then 2 else if z = 3 then 1 else 0

/-- The bytes `prv_log_save` reads of a buffer of which it is told to save `n`, memfault_log.c:412-457: at most
`maxLine`. The time stamp, which shortens this further, is left to `Log.save`. -/
def readLine (maxLine : Nat) (buf : Bytes) (n : Nat) : Option Bytes :=
  if min n maxLine ≤ buf.length then some (buf.take (min n maxLine)) else none

/-- What happens: a message of a thread or an interrupt, a step of the message that is processed, a report of
messages Zephyr had to drop. -/
inductive Op where
  | log (isr : Bool) (level : Nat) (text : Bytes)
  | step
  | dropped (count : Nat)
  deriving Repr, DecidableEq

/-! ## Immediate mode -/

/-- A message that is processed: `sMfltLogProcessCtx` and the characters that are still to come. -/
structure Active where
  level : Nat
  rest : Bytes
  writeIdx : Nat
  deriving Repr, DecidableEq

/-- `s_log_output_busy_flag`, the context, `s_zephyr_render_buf`, memfault_logging.c:38-53. -/
structure Imm where
  busy : Bool
  active : Option Active
  buf : Bytes
  calls : List Call
  deriving Repr, DecidableEq

/-- The loop that strips the end of the line, memfault_logging.c:196-203, from `save_length` on, a `size_t`: with
0 the byte at `SIZE_MAX` is read. -/
def strip (buf : Bytes) : Nat → Option Nat
  | 0 => none
  | 1 => some 1
  | n + 2 => (buf[n + 1]?).bind fun c => if c = 13 ∨ c = 10 then strip buf (n + 1) else some (n + 2)

/-- `prv_log_process`, memfault_logging.c:105-138, and `prv_log_out`, 159-216, in immediate mode. There is no
handler of dropped messages in this mode (150). -/
def immStep (maxLine : Nat) (s : Imm) : Op → Option Imm
  | .log isr level text =>
    if isr then some s
    else if s.busy then some s
    else some { s with busy := true, active := some ⟨mapLevel level, text, 0⟩ }
  | .step =>
    match s.active with
    | none => some s
    | some ⟨l, c :: rest, i⟩ =>
      if i < 128 then some { s with active := some ⟨l, rest, i + 1⟩, buf := s.buf.set i c }
      else some { s with active := some ⟨l, rest, i⟩ }
    | some ⟨l, [], i⟩ =>
      (strip s.buf i).bind fun n =>
        (readLine maxLine s.buf n).map fun t =>
          { s with busy := false, active := none, calls := s.calls ++ [⟨l, t⟩] }
  | .dropped _ => some s

/-- One after the other. -/
def immRun (maxLine : Nat) : Imm → List Op → Option Imm
  | s, [] => some s
  | s, op :: ops => (immStep maxLine s op).bind fun s => immRun maxLine s ops

/-- After `prv_log_init`, memfault_logging.c:57-65. -/
def immInit : Imm := ⟨false, none, List.replicate 128 0, []⟩

/-! ## Deferred mode -/

/-- The state: `writeIdx` is not used; `buf` holds the characters that are buffered by `log_output`. -/
abbrev Def := Imm

/-- What `log_output_dropped_process` writes for a number of dropped messages (Zephyr: at most 9999). -/
def droppedTexts (count : Nat) : List Bytes :=
  ["--- ".toUTF8.data.toList, (toString (min count 9999)).toUTF8.data.toList,
    " messages dropped ---\r\n".toUTF8.data.toList]

/-- `prv_log_out` in deferred mode, memfault_logging.c:159-216, for a context with the level `l`. -/
def defOut (maxLine : Nat) (l : Nat) (s : Def) (text : Bytes) : Option Def :=
  (readLine maxLine text text.length).map fun t => { s with calls := s.calls ++ [⟨l, t⟩] }

/-- `prv_log_out` for the texts one after the other. -/
def defOuts (maxLine : Nat) (l : Nat) : Def → List Bytes → Option Def
  | s, [] => some s
  | s, t :: ts => (defOut maxLine l s t).bind fun s => defOuts maxLine l s ts

/-- `prv_log_process`, memfault_logging.c:105-138, and `prv_log_dropped`, 140-143, in deferred mode. The context of
`log_output` is a pointer into the stack frame of `prv_log_process`: outside of a message it is NULL, at which
the SDK asserts, or dead. -/
def defStep (maxLine : Nat) (s : Def) : Op → Option Def
  | .log _ level text =>
    if s.busy then some s
    else some { s with busy := true, active := some ⟨mapLevel level, text, 0⟩ }
  | .step =>
    match s.active with
    | none => some s
    | some ⟨l, c :: rest, i⟩ =>
      if s.buf.length = 128 then
        (defOut maxLine l s s.buf).map fun s => { s with active := some ⟨l, rest, i⟩, buf := [c] }
      else some { s with active := some ⟨l, rest, i⟩, buf := s.buf ++ [c] }
    | some ⟨l, [], _⟩ =>
      (defOut maxLine l s s.buf).map fun s => { s with busy := false, active := none, buf := [] }
  | .dropped count =>
    match s.active with
    | none => none
    | some a => defOuts maxLine a.level s (droppedTexts count)

/-- One after the other. -/
def defRun (maxLine : Nat) : Def → List Op → Option Def
  | s, [] => some s
  | s, op :: ops => (defStep maxLine s op).bind fun s => defRun maxLine s ops

/-- After `prv_log_init`. -/
def defInit : Def := ⟨false, none, [], []⟩

/-! ## Legacy logging -/

/-- What happens to the legacy backend: a message (deferred), a message (immediate), a panic, dropped messages. -/
inductive LegacyOp where
  | put (isr : Bool) (level : Nat) (text : Bytes)
  | sync (isr : Bool) (level : Nat) (text : Bytes)
  | panic (isr : Bool)
  | dropped (isr : Bool) (count : Nat)
  deriving Repr, DecidableEq

/-- The context of `log_output`: NULL until the first message, afterwards a dead stack frame. -/
structure Legacy where
  used : Bool
  calls : List Call
  deriving Repr, DecidableEq

/-- The pieces `log_output` writes for a text, with what is already buffered. -/
def pieces (pending : Bytes) : Bytes → List Bytes
  | [] => [pending]
  | c :: rest => if pending.length = 128 then pending :: pieces [c] rest else pieces (pending ++ [c]) rest

/-- `prv_log_out`, memfault_logging_legacy.c:69-80, for the texts one after the other, with a level. -/
def legacyOut (maxLine : Nat) (isr : Bool) (l : Nat) (texts : List Bytes) : List Call :=
  if isr then [] else texts.map fun t => ⟨l, t.take maxLine⟩

/-- `prv_log_out` with the context as it is between messages: an error line without a context. -/
def legacyStale (maxLine : Nat) (isr : Bool) (s : Legacy) (texts : List Bytes) : Option Legacy :=
  if isr then some s
  else if s.used then none
  else some { s with calls := s.calls ++ legacyOut maxLine false 3 texts }

/-- `prv_log_put`, `prv_log_put_sync_string`, `prv_log_panic`, `prv_log_dropped`,
memfault_logging_legacy.c:93-128 and 138-141. `memfault_vlog_save` saves nothing for an empty text and at most
`maxLine` bytes (memfault_log.c:383-403). -/
def legacyStep (maxLine : Nat) (s : Legacy) : LegacyOp → Option Legacy
  | .put isr level text =>
    if level = 0 then some s
    else some ⟨true, s.calls ++ legacyOut maxLine isr (mapLevel level) (pieces [] text)⟩
  | .sync isr level text =>
    if isr then some s
    else if text = [] then some s
    else some { s with calls := s.calls ++ [⟨mapLevel level, text.take maxLine⟩] }
  | .panic isr => legacyStale maxLine isr s [[]]
  | .dropped isr count => legacyStale maxLine isr s (droppedTexts count)

/-- One after the other. -/
def legacyRun (maxLine : Nat) : Legacy → List LegacyOp → Option Legacy
  | s, [] => some s
  | s, op :: ops => (legacyStep maxLine s op).bind fun s => legacyRun maxLine s ops

/-! ## Minimal logging -/

/-- The flag and the render buffer of memfault_logging_minimal.c:20-45; `active` is the message whose rendering was
begun. -/
structure Minimal where
  busy : Bool
  active : Option Bytes
  buf : Bytes
  calls : List Call
  deriving Repr, DecidableEq

/-- `vsnprintk` of a text into a buffer of 128 bytes: at most 127 characters and a NUL. -/
def render (buf text : Bytes) : Bytes :=
  text.take 127 ++ [0] ++ buf.drop ((text.take 127).length + 1)

/-- `prv_memfault_log_vprintf`, memfault_logging_minimal.c:31-54: the result of `vsnprintk` is the length of the
whole text. The level and whether this is an interrupt do not matter. -/
def minimalStep (maxLine : Nat) (s : Minimal) : Op → Option Minimal
  | .log _ _ text => if s.busy then some s else some { s with busy := true, active := some text }
  | .step =>
    match s.active with
    | none => some s
    | some text =>
      let buf := render s.buf text
      if text.length = 0 then some { s with busy := false, active := none, buf := buf }
      else
        (readLine maxLine buf text.length).map fun t =>
          { s with busy := false, active := none, buf := buf, calls := s.calls ++ [⟨1, t⟩] }
  | .dropped _ => some s

/-- One after the other. -/
def minimalRun (maxLine : Nat) : Minimal → List Op → Option Minimal
  | s, [] => some s
  | s, op :: ops => (minimalStep maxLine s op).bind fun s => minimalRun maxLine s ops

/-- Before the first message. -/
def minimalInit : Minimal := ⟨false, none, List.replicate 128 0, []⟩

/-! ## No lock -/

/-- `memfault_log_read` of another thread (`prv_read_log_iter_callback`, memfault_log.c:216-248) that is preempted
by the backend after the line was marked as read: `save` is the call of
`memfault_log_save_preformatted_nolock`. -/
def preemptedRead (cfg : Log.Config) (s : Log.State) (save : Log.State → Option Log.State) :
    Option (Option Log.Record × Log.State) :=
  (Log.read32 s.cb s.logReadOffset 2).bind fun r =>
    match r with
    | none => some (none, s)
    | some d =>
      let w : Log.Walk (Option Log.Record) := ⟨s.cb, ⟨s.logReadOffset, (d.getD 0 0) ||| 0x80, d.getD 1 0⟩, none⟩
      (Log.updateEntry w).bind fun u =>
        (save { s with cb := u.2.cb }).bind fun s =>
          (Log.read32 s.cb (add32 u.2.iter.readOffset 2) u.2.iter.len.toNat).map fun m =>
            (m.map (Log.toRecord cfg u.2.iter.hdr),
              { s with logReadOffset := add32 u.2.iter.readOffset (2 + u.2.iter.len.toNat) })

end Mflt.ZephyrLog
