import Verif.Model.ZephyrUpload

/-
The HTTP client on top of Mbed TLS: `ports/mbedtls/memfault_platform_http_client.c`, with its functions
for lwIP, and the calls of it in `components/http/src/memfault_http_client.c` and
`memfault_http_client_post_chunk.c`.

Simplified: a descriptor or an address list has a number that is not given out again. The contexts of
Mbed TLS are only initialised and freed. The packetizer is any machine with the same calls. Log messages
are left out.
-/
namespace Mflt.MbedtlsHttp

open ZephyrUpload (Source Env)

/-! ## The client -/

/-- The contexts of Mbed TLS in `sMfltHttpClient`. -/
inductive Cx where
  | ssl | conf | drbg | cacert | entropy
deriving Repr, DecidableEq

/-- What is asked of the operating system and of Mbed TLS. -/
inductive Act where
  | made (c : Cx)
  | freed (c : Cx)
  | opened (fd : Nat)
  | closed (fd : Int)
  | looked (info : Nat)
  | dropped (info : Nat)
deriving Repr, DecidableEq

/-- One `mbedtls_ssl_handshake`: it wants to be called again, it is complete, or it fails. -/
inductive Shake where
  | want | done | fail
deriving Repr, DecidableEq

/-- What the calls of one `create` return: seeding, certificates, `getaddrinfo` (its result and whether it
gives a list), whether `socket` gives a descriptor, `connect`, the defaults, the setup, the name of the
host, and each handshake (failure when the list is over). -/
structure Net where
  seed : Int
  certs : Int
  dns : Int
  list : Bool
  socket : Bool
  connect : Int
  defaults : Int
  setup : Int
  hostname : Int
  shakes : List Shake
deriving Repr, DecidableEq

/-- `s_client`, memfault_platform_http_client.c:94-109, with the next number to give out and what was
asked for so far. -/
structure Client where
  active : Bool := false
  fd : Int := 0
  next : Nat := 0
  acts : List Act := []
deriving Repr, DecidableEq

def Client.act (c : Client) (as : List Act) : Client := { c with acts := c.acts ++ as }

/-- `mbedtls_net_connect`, memfault_platform_http_client.c:42-66: the result and the client. -/
def netConnect (net : Net) (c : Client) : Int × Client :=
  let i := c.next
  if net.dns ≠ 0 ∨ net.list = false then
    (net.dns, if net.list then { c.act [.looked i] with next := i + 1 } else c)
  else if net.socket = false then (-1, { c.act [.looked i] with next := i + 1, fd := -1 })
  else (net.connect,
    { c.act [.looked i, .opened (i + 1), .dropped i] with next := i + 2, fd := (i + 1 : Nat) })

/-- `mbedtls_net_free` and `mbedtls_net_close`, memfault_platform_http_client.c:78-85. -/
def netFree (c : Client) : Client :=
  if c.fd = -1 then c else { c.act [.closed c.fd] with fd := -1 }

/-- `prv_teardown_mbedtls`, memfault_platform_http_client.c:111-118. -/
def teardown (c : Client) : Client :=
  (netFree c).act [.freed .cacert, .freed .ssl, .freed .conf, .freed .drbg, .freed .entropy]

/-- The loop of handshakes, memfault_platform_http_client.c:183-196: whether it ends well. -/
def handshake : List Shake → Bool
  | [] => false
  | .done :: _ => true
  | .want :: t => handshake t
  | .fail :: _ => false

/-- `memfault_platform_http_client_create`, memfault_platform_http_client.c:120-204: whether there is a
client. The results of `mbedtls_net_connect` and `mbedtls_ssl_setup` are not looked at. -/
def create (net : Net) (c : Client) : Bool × Client :=
  if c.active then (false, c)
  else
    let c := c.act [.made .ssl, .made .conf, .made .drbg, .made .cacert]
    let c := { c with fd := -1 }
    let c := c.act [.made .entropy]
    if net.seed ≠ 0 then (false, teardown c)
    else if net.certs ≠ 0 then (false, teardown c)
    else
      let c := (netConnect net c).2
      if net.defaults ≠ 0 then (false, teardown c)
      else if net.hostname ≠ 0 then (false, teardown c)
      else if handshake net.shakes then (true, { c with active := true })
      else (false, teardown c)

/-- `memfault_platform_http_client_destroy`, memfault_platform_http_client.c:206-215, for a client that
is not null. -/
def destroy (c : Client) : Int × Client :=
  if !c.active then (-1, c) else (0, { teardown c with active := false })

/-- `memfault_http_client_destroy`, memfault_http_client.c:68-73, with a null pointer or the client;
`MemfaultInternalReturnCode_InvalidInput` is -2. -/
def httpDestroy (null : Bool) (c : Client) : Int × Client := if null then (-2, c) else destroy c

/-- `memfault_http_client_post_chunk`, memfault_http_client_post_chunk.c:14-37, with what
`memfault_packetizer_data_available` and `memfault_http_client_post_data` return. -/
def postChunk (available : Bool) (net : Net) (posted : Int) (c : Client) : Int × Client :=
  if !available then (1, c)
  else
    let r := create net c
    if !r.1 then (-1, r.2) else (posted, (destroy r.2).2)

/-- The calls for a client. -/
inductive Op where
  | create (net : Net)
  | destroy (null : Bool)
  | post (available : Bool) (net : Net) (posted : Int)
deriving Repr, DecidableEq

def step (c : Client) : Op → Client
  | .create net => (create net c).2
  | .destroy null => (httpDestroy null c).2
  | .post available net posted => (postChunk available net posted c).2

/-- A history of calls. -/
def run (c : Client) (ops : List Op) : Client := ops.foldl step c

/-! ## Uploads -/

/-- One `mbedtls_ssl_write`: it takes all bytes, at most `k + 1` of them, or fails. -/
inductive Wr where
  | whole
  | part (k : Nat)
  | fail
deriving Repr, DecidableEq

/-- One `mbedtls_ssl_read`: up to `k + 1` bytes, it wants to be called again, or it fails. -/
inductive Rd where
  | data (k : Nat)
  | want
  | fail
deriving Repr, DecidableEq

/-- A connection: what each write does (when the list is over, the connection is broken and each one
fails), the bytes that went out, what arrives, and what each read does (when the list is over, the server
has closed the connection and each one returns 0). -/
structure Conn where
  writes : List Wr := []
  wire : Bytes := []
  incoming : Bytes := []
  reads : List Rd := []
deriving Repr, DecidableEq

/-- The loop of `prv_try_send`, memfault_platform_http_client.c:223-236: every write is given the whole
buffer again. A `size_t` has 32 bits. -/
def tryLoop (buf : Bytes) : List Wr → Nat → Bytes → Bool × List Wr × Bytes
  | [], idx, wire => (decide (idx = buf.length), [], wire)
  | w :: t, idx, wire =>
    if idx = buf.length then (true, w :: t, wire)
    else
      match w with
      | .whole => tryLoop buf t ((idx + buf.length) % 2 ^ 32) (wire ++ buf)
      | .part k =>
        tryLoop buf t ((idx + min (k + 1) buf.length) % 2 ^ 32) (wire ++ buf.take (min (k + 1) buf.length))
      | .fail => (false, t, wire)

/-- `prv_try_send` and `prv_send_data`, memfault_platform_http_client.c:223-241. -/
def trySend (c : Conn) (buf : Bytes) : Bool × Conn :=
  let r := tryLoop buf c.writes 0 c.wire
  (r.1, { c with writes := r.2.1, wire := r.2.2 })

/-- `prv_read_socket_data`, memfault_platform_http_client.c:243-256, with a buffer of `n` bytes. -/
def recv (c : Conn) (n : Nat) : Option Bytes × Conn :=
  match c.reads with
  | [] => (some [], c)
  | .want :: t => (some [], { c with reads := t })
  | .fail :: t => (none, { c with reads := t })
  | .data k :: t =>
    (some (c.incoming.take (min (k + 1) n)),
      { c with reads := t, incoming := c.incoming.drop (min (k + 1) n) })

/-- `prv_wait_for_http_response`, memfault_platform_http_client.c:258-277. It does not look at the error
of the parser. -/
def waitResponse : Nat → Http.Ctx → Conn → Option (Int × Conn)
  | 0, _, _ => none
  | fuel + 1, ctx, c =>
    match (recv c 32).1 with
    | none => some (-1, (recv c 32).2)
    | some d =>
      match Http.parse false ctx d with
      | none => none
      | some (x, true) => some (x.status, (recv c 32).2)
      | some (x, false) => waitResponse fuel x (recv c 32).2

variable {π : Type}

/-- What a post did: the result, the status the callback was called with, and the state. -/
structure Out (π : Type) where
  rv : Int
  called : Option Int
  source : π
  conn : Conn

/-- The loop of `memfault_platform_http_client_post_data`, memfault_platform_http_client.c:303-320:
whether all was sent. -/
def sendPieces (src : Source π) : Nat → π → Conn → Option (Bool × π × Conn)
  | 0, _, _ => none
  | fuel + 1, p, c =>
    match src.next p with
    | (none, p) => some (true, p, c)
    | (some (d, last), p) =>
      if !(trySend c d).1 then some (false, src.abort p, (trySend c d).2)
      else if last then some (true, p, (trySend c d).2)
      else sendPieces src fuel p (trySend c d).2

/-- `memfault_platform_http_client_post_data`, memfault_platform_http_client.c:279-332. The result of
sending the header is not looked at. `fuel` is more than the number of pieces, `waits` is more than the
number of reads. -/
def postData (fuel waits : Nat) (e : Env) (src : Source π) (active : Bool) (p : π) (c : Conn) :
    Option (Out π) :=
  if !active then some ⟨-1, none, p, c⟩
  else
    match src.begin p with
    | (none, p) => some ⟨1, none, p, c⟩
    | (some n, p) =>
      match HttpRequest.startChunkPost e.cfg e.info e.junk trySend n c with
      | none => none
      | some (_, c) =>
        match sendPieces src fuel p c with
        | none => none
        | some (false, p, c) => some ⟨0, none, p, c⟩
        | some (true, p, c) =>
          match waitResponse waits Http.Ctx.init c with
          | none => none
          | some (status, c) => some ⟨if status ≠ 202 then status else 0, some status, p, c⟩

/-- `memfault_platform_http_response_get_status`, memfault_platform_http_client.c:334-340. -/
def getStatus (status : Int) : Nat := (status % 2 ^ 32).toNat

/-- `prv_handle_post_data_response`, memfault_http_client.c:35-51: whether a message about a failed
request is logged. -/
def logsFailure (status : Int) : Bool := getStatus status < 200 || getStatus status ≥ 300

end Mflt.MbedtlsHttp
