import Verif.Model.Base64
import Verif.Model.Packetizer

/-!
# Model of `components/core/src/memfault_data_export.c`

The two stack buffers have arbitrary previous contents (the same in every call). The printed lines
are the strings passed to `memfault_data_export_base64_encoded_chunk`.
-/

namespace Mflt.DataExport

/-- `MEMFAULT_DATA_EXPORT_BASE64_CHUNK_MAX_LEN`, data_export.h:78-81, for a
`MEMFAULT_DATA_EXPORT_CHUNK_MAX_LEN`. -/
def lineMaxLen (max : Nat) : Nat := 3 + Base64.encodeLen max + 1 + 1

/-- The string a pointer refers to; `none` when it is not terminated inside the buffer. -/
def stringOf (buf : Bytes) : Option Bytes :=
  if (0 : UInt8) ∈ buf then some (buf.takeWhile (· ≠ 0)) else none

/-- `prv_memfault_data_export_chunk`, memfault_data_export.c:21-41. `line` is the previous contents
of `base64`, the result the string passed on; `none` is a failed assertion or an access outside of
the buffer. -/
def exportChunk (max : Nat) (line chunk : Bytes) : Option Bytes :=
  if ¬ chunk.length ≤ max then none
  else
    match memcpyIn line 0 [77, 67, 58] with
    | none => none
    | some line =>
      match Base64.encode chunk (line.drop 3) with
      | none => none
      | some rest =>
        match memcpyIn (line.take 3 ++ rest) (3 + Base64.encodeLen chunk.length) [58] with
        | none => none
        | some line =>
          match memcpyIn line (3 + Base64.encodeLen chunk.length + 1) [0] with
          | none => none
          | some line => stringOf line

/-- `prv_try_send_memfault_data`, memfault_data_export.c:50-61: the printed line, if any. -/
def trySend (cfg : Packetizer.Config) (max : Nat) (buf line : Bytes) (s : Packetizer.State) :
    Option (Option Bytes × Packetizer.State) :=
  match Packetizer.getChunk cfg s buf with
  | none => none
  | some (false, _, _, s) => some (none, s)
  | some (true, buf, len, s) =>
    match exportChunk max line (buf.take len) with
    | none => none
    | some l => some (some l, s)

/-- `memfault_data_export_dump_chunks`, memfault_data_export.c:63-65: at most that many rounds;
`none` if the loop is not over by then. -/
def dump (cfg : Packetizer.Config) (max : Nat) (buf line : Bytes) :
    Nat → Packetizer.State → Option (List Bytes × Packetizer.State)
  | 0, _ => none
  | n + 1, s =>
    match trySend cfg max buf line s with
    | none => none
    | some (none, s) => some ([], s)
    | some (some l, s) =>
      match dump cfg max buf line n s with
      | none => none
      | some (ls, s) => some (l :: ls, s)

end Mflt.DataExport
