import Verif.Spec.WicedHttp

/-!
# Model of the HTTP client of the WICED example

`examples/wiced/libraries/memfault/platform_reference_impl/memfault_platform_http_client.c`. The steps of the task
that posts and the events the network task delivers are interleaved by a list of actions. Simplifications: building
and flushing one request is a single step; the packetizer is a queue of encoded messages of which the first may have
been read in part (its own model is `Model/Packetizer.lean`); the network library is scripted.
-/

namespace Mflt.WicedHttp

open Spec.WicedHttp

/-- Where the posting task is: outside of `memfault_platform_http_client_post_data`, at the head of its loop (315),
after `http_request_flush` (264), waiting since that many ms (338-345), or stopped by a failed assertion. -/
inductive Pc
  | out
  | loop
  | flushed
  | waiting (ms : Nat)
  | dead
  deriving Repr, DecidableEq

/-- `sMfltHttpClient`, memfault_platform_http_client.c:35-47, with the packetizer: the messages that are left
(`queue`) and how much of the first was read (`off`), and the number of buffers that were allocated and not
freed (`heap`). The callback is not NULL, as `memfault_http_client_post_data` passes one. -/
structure St where
  queue : List Bytes
  off : Nat
  pending : Bool
  err : Bool
  dns : Bool
  heap : Nat
  pc : Pc
  log : List Ev
  deriving Repr, DecidableEq

/-- A client just made: all zero, memfault_platform_http_client.c:141. -/
def fresh : St := ⟨[], 0, false, false, false, 0, .out, []⟩

/-- What the library answers before the loop: the name is found, the URL fits, and `http_client_connect`'s result,
memfault_platform_http_client.c:298-312. -/
structure PostEnv where
  dns : Bool
  url : Bool
  connect : Nat
  deriving Repr, DecidableEq

/-- What the library answers while a request is sent: `malloc`, `http_request_init`, `http_request_write_header`,
`http_request_write_end_header`, each `http_request_write` (those not listed succeed) and `http_request_flush`,
memfault_platform_http_client.c:189-262. 0 is WICED_SUCCESS. -/
structure SendEnv where
  malloc : Bool
  init : Nat
  header : Nat
  endHeader : Nat
  writes : List Nat
  flush : Nat
  deriving Repr, DecidableEq

/-- Everything succeeds. -/
def SendEnv.good : SendEnv := ⟨true, 0, 0, 0, [], 0⟩

/-- memfault_platform_http_client.c:242-255: `rest` is what is left of the message. The result is what was written,
how much was taken from the packetizer, and whether all was written. -/
def writeLoop : Nat → Bytes → List Nat → Option (Bytes × Nat × Bool)
  | 0, _, _ => none
  | fuel + 1, rest, ws =>
    let piece := rest.take 256
    if ws.headD 0 ≠ 0 then some ([], piece.length, false)
    else if rest.length ≤ 256 then some (piece, piece.length, true)
    else (writeLoop fuel (rest.drop 256) ws.tail).map fun r => (piece ++ r.1, piece.length + r.2.1, r.2.2)

/-- memfault_data_packetizer.c:333-339: at the end of a message it is deleted, and the next begins at its start. -/
def advance (s : St) (chunk : Bytes) (others : List Bytes) (n : Nat) : St :=
  if s.off + n = chunk.length then { s with queue := others, off := 0 } else { s with off := s.off + n }

/-- `prv_send_chunk_in_http_request`, memfault_platform_http_client.c:186-274, with WICED_ERROR = 4. WICED_VERIFY
(238-240) returns the result of a call that failed, at once. What `http_request_deinit` does is not modelled. -/
def send (e : SendEnv) (s : St) : Option (Nat × St) :=
  if !e.malloc then some (4, s)
  else
    match s.queue with
    | [] => some (4, s)
    | chunk :: others =>
      if e.init ≠ 0 then some (e.init, { s with heap := s.heap + 1 })
      else if e.header ≠ 0 then some (e.header, { s with heap := s.heap + 1 })
      else if e.endHeader ≠ 0 then some (e.endHeader, { s with heap := s.heap + 1 })
      else
        (writeLoop (chunk.length + 1) (chunk.drop s.off) e.writes).map fun r =>
          let s1 := advance s chunk others r.2.1
          if !r.2.2 then (4, { s1 with log := s1.log ++ [.cut chunk.length r.1] })
          else if e.flush ≠ 0 then (4, { s1 with log := s1.log ++ [.cut chunk.length r.1] })
          else (0, { s1 with log := s1.log ++ [.sent chunk.length r.1] })

/-- The post returns. -/
def ret (s : St) (rv : Int) : St := { s with pc := .out, log := s.log ++ [.returned rv] }

/-- `memfault_platform_http_client_post_data` up to its loop, memfault_platform_http_client.c:285-312. -/
def post (p : PostEnv) (s : St) : St :=
  if s.pending then ret s (-1)
  else if s.queue = [] then ret s 1
  else if !s.dns && !p.dns then ret s (-3)
  else
    let s := { s with dns := true }
    if !p.url then ret s (-4)
    else if p.connect ≠ 0 then ret s p.connect
    else { s with pc := .loop }

/-- `prv_finalize_request_and_run_callback`, memfault_platform_http_client.c:64-85, with the status of the response,
or no response: then `MEMFAULT_ASSERT(response)` fails (51). -/
def finalize (status : Option Nat) (s : St) : St :=
  if !s.pending then s
  else
    match status with
    | none => { s with log := s.log ++ [.callback none, .reset], pc := .dead }
    | some c => { s with log := s.log ++ [.callback (some c)], err := decide (c < 200) || decide (c ≥ 300), pending := false }

/-- `prv_handle_data_received`, memfault_platform_http_client.c:87-104. `mine`: the response is for the request
structure of this client, which all its requests share; `hdr`: it has a header; `status`: its status line, if it can
be parsed. -/
def dataReceived (mine hdr : Bool) (status : Option Nat) (s : St) : St :=
  if !mine then s
  else if !hdr then s
  else
    match status with
    | none => s
    | some c => finalize (some c) s

/-- What happens. `data`: a new message is there to be sent; `post`: the application posts; `go`: the posting task
goes on; `disconnected`, `received`: the events HTTP_DISCONNECTED and HTTP_DATA_RECEIVED,
memfault_platform_http_client.c:106-129. -/
inductive Action
  | data (chunk : Bytes)
  | post (p : PostEnv)
  | go (e : SendEnv)
  | disconnected
  | received (mine hdr : Bool) (status : Option Nat)
  deriving Repr, DecidableEq

/-- The posting task goes on, memfault_platform_http_client.c:315-330, 338-345, with
MEMFAULT_PLATFORM_SPECIFIC_ERROR(e) = -1000 - e (core/errors.h:33, 51). -/
def go (e : SendEnv) (s : St) : Option St :=
  match s.pc with
  | .out => some s
  | .dead => some s
  | .loop =>
    if s.queue = [] then some (ret s 0)
    else (send e s).map fun r => if r.1 ≠ 0 then ret r.2 (-1000 - r.1) else { r.2 with pc := .flushed }
  | .flushed => some { s with pending := true, pc := .waiting 0 }
  | .waiting ms =>
    if s.pending && decide (ms < 10000) then some { s with pc := .waiting (ms + 100) }
    else if s.err then some (ret { s with off := 0 } (-5))
    else some { s with pc := .loop }

/-- One step. A device that was reset does nothing. -/
def step (s : St) : Action → Option St
  | .data c => some { s with queue := s.queue ++ [c] }
  | .post p => some (if s.pc = .out then post p s else s)
  | .go e => go e s
  | .disconnected => some (if s.pc = .dead then s else finalize none s)
  | .received m h st => some (if s.pc = .dead then s else dataReceived m h st s)

/-- A run from a state. -/
def run : St → List Action → Option St
  | s, [] => some s
  | s, a :: as => (step s a).bind fun s => run s as

/-- The calls of `memfault_platform_http_client_create`, memfault_platform_http_client.c:131-169, with what they
answer: the network is up, `malloc`, `http_client_init`, `http_client_configure`. The result: whether a client is
returned, and how many blocks and clients of the library are left. With the network down `free` is called with a
pointer that was never set. -/
def create (up malloc init configure : Bool) : Option (Bool × Nat × Nat) :=
  let error (blocks clients : Nat) : Bool × Nat × Nat := (false, blocks - 1, clients)
  if !up then none
  else if !malloc then some (error 0 0)
  else if !init then some (error 1 0)
  else
    let deinit (clients : Nat) : Nat := clients - 1
    if !configure then some (error 1 (deinit 1)) else some (true, 1, 1)

end Mflt.WicedHttp
