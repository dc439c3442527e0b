import Verif.Spec.CdrExample

/-!
# Model of the example of a source of recordings

`examples/zephyr/qemu/qemu-app/src/cdr.c`, with the parts of the packetizer and of the source of recordings that call it
(`Model/Packetizer.lean` and `Model/Cdr.lean` model them in full). Simplifications: the description (`meta`) is always the
same; the packetizer's header is left out; there is no other source.
-/

namespace Mflt.CdrExample

open Spec.CdrExample

/-- `cdr_payload`, cdr.c:32, with its terminator. -/
def payload : Bytes := [0x68, 0x65, 0x6c, 0x6c, 0x6f, 0x20, 0x63, 0x64, 0x72, 0x21, 0]

/-- `data_size_bytes`, cdr.c:44. -/
def dataSize : Nat := payload.length - 1

/-- `s_cdr_ready_to_send` and `s_cdr_read_offset`, cdr.c:23-26; the message the packetizer is at with the bytes it has
taken of it; the messages that were taken in full. -/
structure St where
  ready : Bool
  offset : Nat
  cur : Option Bytes
  sent : List Bytes
  deriving Repr, DecidableEq

def fresh : St := ⟨false, 0, none, []⟩

/-- `prv_read_data_cb`, cdr.c:58-71: the buffer afterwards, or `none` for `false`. The outer `none`: out of bounds. -/
def readData (off : Nat) (buf : Bytes) (s : St) : Option (Option Bytes × St) :=
  if off ≠ s.offset then some (none, { s with offset := 0 })
  else if payload.length < off then none
  else
    let n := min buf.length (payload.length - off)
    some (some ((payload.drop off).take n ++ buf.drop n), { s with offset := s.offset + n })

/-- `prv_cdr_read`, components/core/src/memfault_custom_data_recording.c:139-171. -/
def cdrRead (desc : Bytes) (off : Nat) (buf : Bytes) (s : St) : Option (Option Bytes × St) :=
  if desc.length + dataSize < off + buf.length then some (none, s)
  else if off < desc.length then
    let n := min buf.length (desc.length - off)
    let b := (desc.drop off).take n
    if buf.length - n = 0 then some (some b, s)
    else (readData 0 (buf.drop n) s).map fun (r, s) => (r.map (b ++ ·), s)
  else readData (off - desc.length) buf s

/-- `prv_data_source_chunk_transport_msg_reader`, components/core/src/memfault_data_packetizer.c:222-231: after a read that
failed the first 16 bytes are 0xEF. What else the failed read left in the buffer is taken to be what was there before. -/
def reader (desc : Bytes) (off : Nat) (buf : Bytes) (s : St) : Option (Bytes × St) :=
  (cdrRead desc off buf s).map fun (r, s) =>
    (r.getD (List.replicate (min 16 buf.length) 0xef ++ buf.drop 16), s)

/-- The packetizer takes the next bytes: at least one and no more than are left; `prv_mark_cdr_read_cb`, cdr.c:74-78, when
all of the message was taken. -/
def takePiece (desc got buf : Bytes) (s : St) : Option St :=
  if buf.length = 0 then some s
  else
    (reader desc got.length buf s).map fun (b, s) =>
      let got := got ++ b
      if got.length = desc.length + dataSize then
        { s with ready := false, offset := 0, cur := none, sent := s.sent ++ [got] }
      else { s with cur := some got }

/-- A step. `prv_stage_cdr`, cdr.c:91-107; `prv_has_cdr_cb`, cdr.c:52-55; `memfault_packetizer_abort`,
memfault_data_packetizer.c:307-309. -/
def step (desc : Bytes) (s : St) : Op → Option St
  | .stage => some { s with ready := true, offset := 0 }
  | .begin => some (if s.ready && s.cur.isNone then { s with cur := some [] } else s)
  | .abort => some { s with cur := none }
  | .take buf =>
    match s.cur with
    | none => some s
    | some got => takePiece desc got (buf.take (desc.length + dataSize - got.length)) s

/-- A run. -/
def run (desc : Bytes) : St → List Op → Option St
  | s, [] => some s
  | s, o :: os => (step desc s o).bind fun s => run desc s os

end Mflt.CdrExample
