import Verif.Spec.CurlExamples

/-!
# Model of the examples with libcurl

`examples/libcurl/get_latest.c` and `post_chunks.c`. Simplifications: `asprintf` and all functions that allocate succeed; what
`curl_easy_perform` gives is an input; the exit status of a program is the lowest byte of what `main` returns. TLS is not modelled.
-/

namespace Mflt.CurlExamples

open Spec.CurlExamples

/-- A byte that `curl_easy_escape` leaves as it is. -/
def unreserved (b : UInt8) : Bool :=
  (48 ≤ b && b ≤ 57) || (65 ≤ b && b ≤ 90) || (97 ≤ b && b ≤ 122) || b == 45 || b == 46 || b == 95 || b == 126

/-- A digit that `curl_easy_escape` writes. -/
def digit (n : Nat) : Char := "0123456789ABCDEF".toList.getD n '0'

/-- `curl_easy_escape` for one byte. -/
def escapeByte (b : UInt8) : Text :=
  if unreserved b then [Char.ofNat b.toNat] else ['%', digit (b.toNat / 16), digit (b.toNat % 16)]

/-- `curl_easy_escape`, as used in get_latest.c:96-99. -/
def escape (s : Bytes) : Text := s.flatMap escapeByte

/-- `url` of `prv_get_latest_release`, get_latest.c:96-105. -/
def latestUrl (serial hardware software version : Bytes) : Text :=
  "https://device.memfault.com/api/v0/releases/latest/url".toList ++ "?device_serial=".toList ++ escape serial ++
    "&hardware_version=".toList ++ escape hardware ++ "&software_type=".toList ++ escape software ++
    "&current_version=".toList ++ escape version

/-- What `prv_get_latest_release` returns, get_latest.c:138-153. -/
def latestResult : Outcome → Nat
  | .error e => e
  | .status h => if h ≠ 200 ∧ h ≠ 204 then h else 0

/-- The exit status of `get_latest`, get_latest.c:156-177. -/
def latestExit (o : Outcome) : Nat := latestResult o % 256

/-- `dest_url` of `prv_post_chunk`, post_chunks.c:92-94. -/
def destUrl (serial : Bytes) : Text :=
  ("https://chunks.memfault.com/api/v0/chunks/".toList ++ serial.map fun b => Char.ofNat b.toNat).take 511

/-- What `prv_post_chunk` returns, post_chunks.c:123-136. -/
def postResult : Outcome → Nat
  | .error e => e
  | .status h => if h = 202 then 0 else 1

/-- The exit status of `post_chunks`, post_chunks.c:139-159. -/
def postExit (o : Outcome) : Nat := postResult o % 256

end Mflt.CurlExamples
