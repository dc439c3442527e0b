import Verif.Model.Cbor
import Verif.Model.Log

/-!
# Model of compact logs

`components/include/memfault/core/compact_log_helpers.h` (the macro that describes the arguments of
a log call), `components/core/src/memfault_compact_log_serializer.c` and
`memfault_compact_log_save` of `components/core/src/memfault_log.c`.

A `va_list` is the list of arguments that were passed. Fetching an argument with another type than
the one that was passed, or one more than were passed, is undefined behaviour: `none`.
-/

namespace Mflt.CompactLog

open Mflt.Cbor

/-- An argument of a log call after the default argument promotions, compact_log_helpers.h:163-186.
A `double` is given by its bits, a string by its bytes, `none` being a null pointer. -/
inductive Arg
  | int32 (v : BitVec 32)
  | int64 (v : BitVec 64)
  | double (bits : BitVec 64)
  | str (s : Option Bytes)
  deriving Repr, DecidableEq

/-- `_MEMFAULT_LOG_ARG_PROMOTION_TYPE`, compact_log_helpers.h:34-37 and 163-186. -/
def promotionType : Arg → Nat
  | .int32 _ => 0
  | .int64 _ => 1
  | .double _ => 2
  | .str _ => 3

/-- `_MF_FMT_0` … `_MF_FMT_15` with MEMFAULT_FMT_ENCODE_OP, compact_log_helpers.h:191-217. -/
def fmtBits : List Arg → Nat
  | [] => 0
  | a :: as => promotionType a <<< (2 * as.length) ||| fmtBits as

/-- `MFLT_GET_COMPRESSED_LOG_FMT`, compact_log_helpers.h:233-235. It exists for up to 15 arguments. -/
def compressedFmt (args : List Arg) : Nat := fmtBits args ||| 1 <<< (2 * args.length)

/-- `MEMFAULT_CLZ` of a `uint32_t`, compiler_gcc.h:46. -/
def clz (v : Nat) : Nat := if v = 0 then 32 else 31 - Nat.log2 v

/-- `31UL - MEMFAULT_CLZ(compressed_fmt)` in 32-bit arithmetic, divided by 2,
memfault_compact_log_serializer.c:37. -/
def numArgs (fmt : Nat) : Nat := (31 + 4294967296 - clz fmt) % 4294967296 / 2

/-- The `switch` on one argument, memfault_compact_log_serializer.c:59-111. -/
def encodeArg {σ : Type} (e : Encoder σ) (type : Nat) (arg : Arg) : Option (Bool × Encoder σ) :=
  match type with
  | 0 => match arg with
    | .int32 v => some (encodeSigned e v)
    | _ => none
  | 1 => match arg with
    | .int64 v =>
      match encodeArrayBegin e 1 with
      | (true, e) => some (encodeLongSigned e v)
      | (false, e) => some (false, e)
    | _ => none
  | 2 => match arg with
    | .double bits => some (encodeDouble e bits)
    | _ => none
  | 3 => match arg with
    | .str (some s) => some (encodeString e s)
    | .str none => some (encodeString e [40, 110, 117, 108, 108, 41])
    | _ => none
  | _ => some (false, e)

/-- The loop over the arguments, memfault_compact_log_serializer.c:51-116; the first parameter is
`num_args - i`. -/
def argLoop {σ : Type} : Nat → Encoder σ → Nat → List Arg → Option (Bool × Encoder σ)
  | 0, e, _, _ => some (true, e)
  | left + 1, e, fmt, args =>
    match args with
    | [] => none
    | arg :: rest =>
      match encodeArg e ((fmt >>> (left * 2)) &&& 3) arg with
      | some (true, e) => argLoop left e fmt rest
      | some (false, e) => some (false, e)
      | none => none

/-- `memfault_vlog_compact_serialize`, memfault_compact_log_serializer.c:32-119, and
`memfault_log_compact_serialize`, 121-129. `sectionStart` is the address of `__start_log_fmt`. -/
def serialize {σ : Type} (sectionStart : BitVec 32) (e : Encoder σ) (logId : BitVec 32) (fmt : Nat)
    (args : List Arg) : Option (Bool × Encoder σ) :=
  match encodeArrayBegin e (1 + numArgs fmt) with
  | (false, e) => some (false, e)
  | (true, e) =>
    match encodeUnsigned e (logId - sectionStart) with
    | (false, e) => some (false, e)
    | (true, e) => argLoop (numArgs fmt) e fmt args

/-- `memfault_compact_log_save`, memfault_log.c:474-493. `logBuf` is the uninitialised local array of
MEMFAULT_LOG_MAX_LINE_SAVE_LEN + 1 bytes, `now` what `memfault_platform_time_get_current` gives. -/
def compactSave (cfg : Log.Config) (sectionStart : BitVec 32) (logBuf : Bytes) (s : Log.State)
    (level : Nat) (logId : BitVec 32) (fmt : Nat) (args : List Arg) (now : Option Nat) :
    Option Log.State :=
  (serialize sectionStart (Encoder.init memcpyWrite (some logBuf) (cfg.maxLine + 1)) logId fmt args).bind
    fun r =>
      if r.1 then
        r.2.ctx.bind fun buf => Log.save cfg s level 1 (buf.take r.2.encodedSize) now
      else some s

end Mflt.CompactLog
