import Verif.Model.Http

/-
The download of updates in the Zephyr port: `ports/zephyr/common/memfault_platform_http.c`.

Simplified: a connected socket is the bytes the server sends and what each wait for data brings. A
`size_t` has 32 bits. Opening and closing of sockets is in `Model/ZephyrUpload.lean`.
-/
namespace Mflt.ZephyrOta

/-- One wait for data (`poll` and `recv`): up to `n + 1` bytes, nothing yet (`EAGAIN`), or an error,
a timeout or the end of the connection. -/
inductive Recv where
  | data (n : Nat)
  | again
  | fail
deriving Repr, DecidableEq

/-- A connected socket: the bytes that the server sends, and how they arrive. A connection whose
script is over fails. -/
structure Sock where
  incoming : Bytes
  script : List Recv
deriving Repr, DecidableEq

/-- `prv_read_socket_data`, memfault_platform_http.c:417-435, for a buffer of `n` bytes: the bytes
received; `none` is `false`. `recv` returning 0 with an `errno` left over from an earlier call is an
`again`. -/
def recv (s : Sock) (n : Nat) : Option Bytes × Sock :=
  match s.script with
  | [] => (none, s)
  | .fail :: t => (none, { s with script := t })
  | .again :: t => (some [], { s with script := t })
  | .data k :: t =>
    if s.incoming.take (min (k + 1) n) = [] then (none, { s with script := t })
    else (some (s.incoming.take (min (k + 1) n)), ⟨s.incoming.drop (min (k + 1) n), t⟩)

/-- `prv_wait_for_http_response_header`, memfault_platform_http.c:458-497, with a buffer of `cap`
bytes: the context and the bytes behind the header that were received with it, at the start of the
buffer; the inner `none` is `false`. -/
def waitHeader (cap : Nat) : Nat → Http.Ctx → Sock → Option (Option (Http.Ctx × Bytes) × Sock)
  | 0, _, _ => none
  | fuel + 1, ctx, s =>
    match (recv s cap).1 with
    | none => some (none, (recv s cap).2)
    | some d =>
      match Http.parse true ctx d with
      | none => none
      | some (c, false) => waitHeader cap fuel c (recv s cap).2
      | some (c, true) =>
        if c.err ≠ .ok then some (none, (recv s cap).2)
        else if c.status ≥ 400 then some (none, (recv s cap).2)
        else some (some (c, d.drop c.processed), (recv s cap).2)

/-- An `int` as `size_t`. -/
def toSize (x : Int) : Nat := (x % 2 ^ 32).toNat

/-- The calls of an update handler (`sMemfaultOtaUpdateHandler`, ports/zephyr/http.h). -/
inductive Call where
  | available (size : Nat)
  | data (bytes : Bytes)
  | complete
deriving Repr, DecidableEq

/-- The loop of `prv_install_ota_payload`, memfault_platform_http.c:518-532. `accept` is what the
handler answers, given all its calls so far. -/
def payloadLoop (accept : List Call → Bool) (cap : Nat) (len : Int) :
    Nat → List Call → Nat → Sock → Option (Bool × List Call)
  | 0, _, _, _ => none
  | fuel + 1, calls, curr, s =>
    if curr ≠ toSize len then
      match (recv s (min (toSize (len - curr)) cap)).1 with
      | none => some (false, calls)
      | some d =>
        if accept (calls ++ [.data d]) then
          payloadLoop accept cap len fuel (calls ++ [.data d]) ((curr + d.length) % 2 ^ 32)
            (recv s (min (toSize (len - curr)) cap)).2
        else some (false, calls ++ [.data d])
    else some (accept (calls ++ [.complete]), calls ++ [.complete])

/-- `prv_install_ota_payload`, memfault_platform_http.c:499-533, with the handler's buffer of `cap`
bytes: the result and the calls of the handler. -/
def installPayload (accept : List Call → Bool) (cap : Nat) (s : Sock) : Option (Bool × List Call) :=
  match waitHeader cap (s.script.length + 2) Http.Ctx.init s with
  | none => none
  | some (none, _) => some (false, [])
  | some (some (c, d), s') =>
    if !accept [.available (toSize c.contentLength)] then
      some (false, [.available (toSize c.contentLength)])
    else if d.length ≠ 0 then
      if !accept [.available (toSize c.contentLength), .data d] then
        some (false, [.available (toSize c.contentLength), .data d])
      else
        payloadLoop accept cap c.contentLength (s.script.length + 2)
          [.available (toSize c.contentLength), .data d] d.length s'
    else
      payloadLoop accept cap c.contentLength (s.script.length + 2)
        [.available (toSize c.contentLength)] d.length s'

/-- The loop of `prv_parse_new_ota_payload_url_response`, memfault_platform_http.c:600-608: bytes are
received to `&download_url[curr]`; outside of the allocation is undefined behaviour. -/
def urlLoop (len : Int) : Nat → Bytes → Nat → Sock → Option (Option Bytes)
  | 0, _, _, _ => none
  | fuel + 1, buf, curr, s =>
    if curr ≠ toSize len then
      match (recv s (toSize (len - curr))).1 with
      | none => some none
      | some d =>
        match memcpyIn buf curr d with
        | none => none
        | some buf => urlLoop len fuel buf ((curr + d.length) % 2 ^ 32) (recv s (toSize (len - curr))).2
    else some (some buf)

/-- `prv_parse_new_ota_payload_url_response`, memfault_platform_http.c:574-614: the result, and the
allocation with the URL (none: up to date). `alloc` is whether `calloc` has that many bytes. -/
def downloadUrl (alloc : Nat → Bool) (s : Sock) : Option (Bool × Option Bytes) :=
  match waitHeader 32 (s.script.length + 2) Http.Ctx.init s with
  | none => none
  | some (none, _) => some (false, none)
  | some (some (c, d), s') =>
    if c.status ≠ 200 then some (true, none)
    else if !alloc (toSize (c.contentLength + 1)) then some (false, none)
    else
      match (if d.length ≠ 0 then memcpyIn (List.replicate (toSize (c.contentLength + 1)) 0) 0 d
             else some (List.replicate (toSize (c.contentLength + 1)) 0)) with
      | none => none
      | some buf =>
        match urlLoop c.contentLength (s.script.length + 2) buf d.length s' with
        | none => none
        | some none => some (false, none)
        | some (some url) => some (true, some url)

end Mflt.ZephyrOta
