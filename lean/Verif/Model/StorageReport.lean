import Verif.Model.CoredumpStorage
import Verif.Model.HttpRequest
import Verif.Model.NetMetrics

/-!
# Model of the report of the test of a coredump storage

`components/panics/src/memfault_coredump_storage_debug.c`: what `memfault_coredump_storage_debug_test_finish` logs. A logged
line is its formatted text.
-/

namespace Mflt.StorageReport

open CoredumpStorage
open HttpRequest (ascii formatInt)
open NetMetrics (hex2)

/-- A platform together with `s_read_buf`, memfault_coredump_storage_debug.c:58, which each successful read leaves behind
(what a failed one leaves is never used). -/
def tap {σ : Type} (p : Platform σ) : Platform (σ × Bytes) where
  size := p.size
  saveBegin s := (p.saveBegin s.1).map fun r => (r.1, r.2, s.2)
  erase s o l := (p.erase s.1 o l).map fun r => (r.1, r.2, s.2)
  write s o d := (p.write s.1 o d).map fun r => (r.1, r.2, s.2)
  read s o l := (p.read s.1 o l).map fun r =>
    (r.1, r.2, match r.1 with | some d => readBuf d l | none => s.2)
  clear s := (p.clear s.1).map fun r => (r, s.2)

/-- The loop of `prv_log_error_hexdump`, memfault_coredump_storage_debug.c:250-254, on `hex_buffer`; `j` bytes are done.
The terminator that each `snprintf` writes is overwritten by the next one. -/
def hexLoop : Bytes → Nat → Bytes → Option Bytes
  | buf, _, [] => some buf
  | buf, j, b :: bs => (memcpyIn buf (j * 2) (hex2 b ++ [0])).bind fun buf => hexLoop buf (j + 1) bs

/-- `prv_log_error_hexdump`, memfault_coredump_storage_debug.c:244-257: the line. `hex` is what `hex_buffer` (33 bytes,
not initialised) holds at first. -/
def hexdump (hex : Bytes) (pre : String) (buf : Bytes) (len : Nat) : Option Bytes := do
  let data ← memcpyOut buf 0 len
  let hex ← hexLoop hex 0 data
  let hex ← memcpyIn hex (len * 2) [0]
  return ascii pre ++ ascii ": " ++ hex.takeWhile (· ≠ 0)

/-- `op_suffix`, memfault_coredump_storage_debug.c:268-294. -/
def opSuffix : TestOp → String
  | .prepare => "prepare"
  | .erase => "erase"
  | .write => "write"
  | .clear => "clear"
  | .getInfo => "get info"

/-- The members of `s_test_result`: operation, offset and size. -/
def fields : TestResult → TestOp × Nat × Nat
  | .success => (.prepare, 0, 0)
  | .platformApiFail op o n => (op, o, n)
  | .readFailed op o n => (op, o, n)
  | .compareFailed op o n _ => (op, o, n)

/-- `reason_str`, memfault_coredump_storage_debug.c:296-315. -/
def reasonStr : TestResult → String
  | .success => ""
  | .platformApiFail .. => "Api call failed during"
  | .readFailed .. => "Call to memfault_platform_coredump_storage_read() failed during"
  | .compareFailed .. => "Read pattern mismatch during"

/-- `%08x` of `printf`. -/
def hex8 (n : Nat) : Bytes :=
  [n / 16777216, n / 65536, n / 256, n].flatMap fun x => hex2 (UInt8.ofNat x)

/-- The end of `memfault_coredump_storage_debug_test_finish`, memfault_coredump_storage_debug.c:266-331, after a failure:
what is logged. -/
def failureLines (hex : Bytes) (r : TestResult) (readBuf : Bytes) : Option (List Bytes) := do
  let op := (fields r).1
  let offset := (fields r).2.1
  let size := (fields r).2.2
  let head := [ascii "Coredump Storage Verification Failed",
    ascii (reasonStr r) ++ ascii " memfault_platform_coredump_storage_" ++ ascii (opSuffix op) ++ ascii "() test",
    ascii "Storage offset: 0x" ++ hex8 offset ++ ascii ", " ++ ascii (opSuffix op) ++ ascii " size: " ++ formatInt (Http.wrap size)]
  match r with
  | .compareFailed op _ size expected =>
    let lines ← (match expected with
      | some e => (hexdump hex "Expected" e size).map fun l => [l]
      | none => some (if op ≠ .write then [ascii "expected erase pattern is 0xff or 0x00"] else []))
    let actual ← hexdump hex "Actual  " readBuf size
    return head ++ lines ++ [actual]
  | _ => return head

/-- `memfault_coredump_storage_debug_test_finish`, memfault_coredump_storage_debug.c:259-331: what is returned and logged,
given `s_test_result` and `s_read_buf`. -/
def finish {σ : Type} (p : Platform σ) (hex : Bytes) (r : TestResult) (s : σ) (readBuf : Bytes) : Option (Bool × List Bytes) := do
  let (ok, r, s) ← testFinish (tap p) r (s, readBuf)
  if ok then return (true, [ascii "Coredump Storage Verification Passed"])
  else return (false, ← failureLines hex r s.2)

/-- Both parts of the test, one after the other, as in the example of memfault_coredump_storage_debug.c:11-20. -/
def test {σ : Type} (p : Platform σ) (hex : Bytes) (s : σ) (readBuf : Bytes) : Option (Bool × List Bytes) := do
  let (r, s) ← testBegin (tap p) (s, readBuf)
  finish p hex r s.1 s.2

end Mflt.StorageReport
