import Verif.Model.ZephyrOta
import Verif.Model.HttpRequest

/-
Connections and uploads of the Zephyr port: `ports/zephyr/common/memfault_platform_http.c`.

Simplified: a descriptor or an address list has a number that is not given out again (an operating
system does give it out again, which is why closing it twice is a mistake). The packetizer is any
machine with the same calls. What the server answers to a request arrives after the request, and
bytes beyond the end of an answer are dropped.
-/
namespace Mflt.ZephyrUpload

/-! ## Connections -/

/-- What the operating system is asked for: descriptors (`socket`, `close`) and address lists
(`getaddrinfo`, `freeaddrinfo`). -/
inductive Act where
  | opened (fd : Nat)
  | closed (fd : Int)
  | looked (info : Nat)
  | freed (info : Nat)
deriving Repr, DecidableEq

/-- The next number to give out, and what was asked for so far. -/
structure Os where
  next : Nat := 0
  acts : List Act := []
deriving Repr, DecidableEq

def Os.act (os : Os) (a : Act) : Os := { os with acts := os.acts ++ [a] }

/-- What the calls for one connection return: `getaddrinfo`, whether `socket` gives a descriptor, the
first result of `setsockopt` that is not 0, `connect`. -/
structure Net where
  dns : Int
  socket : Bool
  configure : Int
  connect : Int
deriving Repr, DecidableEq

/-- `sMemfaultHttpContext`, ports/zephyr/http.h, without the number of bytes sent. -/
structure Ctx where
  fd : Int := -1
  res : Option Nat := none
deriving Repr, DecidableEq

/-- `prv_create_socket` with `prv_getaddrinfo`, memfault_platform_http.c:182-219: the result, the
address list and what was asked for. -/
def createSocket (net : Net) (res : Option Nat) (os : Os) : Int × Option Nat × Os :=
  if net.dns ≠ 0 then (net.dns, res, os)
  else
    let os' := { os.act (.looked os.next) with next := os.next + 1 }
    if net.socket then
      (os'.next, some os.next, { os'.act (.opened os'.next) with next := os'.next + 1 })
    else (-1, some os.next, os')

/-- `prv_configure_socket`, memfault_platform_http.c:261-271. -/
def configureSocket (disableTls : Bool) (net : Net) : Int := if disableTls then 0 else net.configure

/-- `prv_connect_socket`, memfault_platform_http.c:273-282. A null address list is undefined
behaviour. -/
def connectSocket (net : Net) (fd : Int) (res : Option Nat) (os : Os) : Option (Int × Os) :=
  match res with
  | none => none
  | some _ => some (net.connect, if net.connect < 0 then os.act (.closed fd) else os)

/-- `prv_open_socket`, memfault_platform_http.c:324-341. -/
def openSocket (disableTls : Bool) (net : Net) (res : Option Nat) (os : Os) :
    Option (Int × Option Nat × Os) :=
  let r := createSocket net res os
  if r.1 < 0 then some (-1, r.2.1, r.2.2)
  else if configureSocket disableTls net < 0 then some (-1, r.2.1, r.2.2.act (.closed r.1))
  else
    match connectSocket net r.1 r.2.1 r.2.2 with
    | none => none
    | some (rv, os) => if rv < 0 then some (-1, r.2.1, os) else some (r.1, r.2.1, os)

/-- `memfault_zephyr_port_http_close_socket`, memfault_platform_http.c:776-786. -/
def closeSocket (c : Ctx) (os : Os) : Ctx × Os :=
  let os := if c.fd ≥ 0 then os.act (.closed c.fd) else os
  (⟨-1, none⟩, match c.res with
    | some i => os.act (.freed i)
    | none => os)

/-- `memfault_zephyr_port_http_is_connected`, memfault_platform_http.c:788-790. -/
def isConnected (c : Ctx) : Bool := c.fd ≥ 0

/-- The calls for a connection, with what the network does. `post` is
`memfault_zephyr_port_post_data_return_size`: whether there is data, and whether its upload works;
`ota` is the common part of `prv_fetch_ota_payload` and `prv_check_for_ota_update`. -/
inductive Op where
  | «open» (net : Net)
  | create (net : Net)
  | configure (net : Net)
  | connect (net : Net)
  | close
  | post (available : Bool) (net : Net) (uploaded : Bool)
  | ota (net : Net)
deriving Repr, DecidableEq

/-- `memfault_zephyr_port_http_open_socket`, memfault_platform_http.c:722-738. -/
def httpOpen (disableTls : Bool) (net : Net) (c : Ctx) (os : Os) : Option (Int × Ctx × Os) :=
  let r := closeSocket c os
  match openSocket disableTls net r.1.res r.2 with
  | none => none
  | some (fd, res, os) =>
    if fd < 0 then
      let r := closeSocket ⟨fd, res⟩ os
      some (-1, r.1, r.2)
    else some (0, ⟨fd, res⟩, os)

/-- `memfault_zephyr_port_http_create_socket`, memfault_platform_http.c:740-754. -/
def httpCreate (net : Net) (c : Ctx) (os : Os) : Int × Ctx × Os :=
  let r := closeSocket c os
  let s := createSocket net r.1.res r.2
  if s.1 < 0 then
    let t := closeSocket ⟨s.1, s.2.1⟩ s.2.2
    (-1, t.1, t.2)
  else (0, ⟨s.1, s.2.1⟩, s.2.2)

/-- `memfault_zephyr_port_http_configure_socket`, memfault_platform_http.c:756-765. -/
def httpConfigure (disableTls : Bool) (net : Net) (c : Ctx) (os : Os) : Int × Ctx × Os :=
  if configureSocket disableTls net < 0 then
    let r := closeSocket c os
    (configureSocket disableTls net, r.1, r.2)
  else (configureSocket disableTls net, c, os)

/-- `memfault_zephyr_port_http_connect_socket`, memfault_platform_http.c:767-774. -/
def httpConnect (net : Net) (c : Ctx) (os : Os) : Option (Int × Ctx × Os) :=
  match connectSocket net c.fd c.res os with
  | none => none
  | some (rv, os) =>
    if rv < 0 then
      let r := closeSocket c os
      some (rv, r.1, r.2)
    else some (rv, c, os)

/-- `memfault_zephyr_port_post_data_return_size`, memfault_platform_http.c:688-715: whether it
returns a size, and what was asked for. -/
def postData (disableTls : Bool) (available : Bool) (net : Net) (uploaded : Bool) (os : Os) :
    Option (Bool × Os) :=
  if !available then some (true, os)
  else
    match httpOpen disableTls net ⟨-1, none⟩ os with
    | none => none
    | some (rv, c, os) =>
      let rv := if rv = 0 then (if uploaded then 0 else -1) else rv
      some (rv == 0, if rv = 0 then (closeSocket c os).2 else os)

/-- `prv_check_for_ota_update` and `prv_fetch_ota_payload`, memfault_platform_http.c:549-572 and
620-647, as far as the connection goes. -/
def ota (disableTls : Bool) (net : Net) (os : Os) : Option Os :=
  match openSocket disableTls net none os with
  | none => none
  | some (fd, res, os) =>
    let os := if fd ≥ 0 then os.act (.closed fd) else os
    some (match res with
      | some i => os.act (.freed i)
      | none => os)

/-- One call on a context: its new state and what was asked for. -/
def step (disableTls : Bool) (s : Ctx × Os) : Op → Option (Ctx × Os)
  | .open net => (httpOpen disableTls net s.1 s.2).map (·.2)
  | .create net => some (httpCreate net s.1 s.2).2
  | .configure net => some (httpConfigure disableTls net s.1 s.2).2
  | .connect net => (httpConnect net s.1 s.2).map (·.2)
  | .close => some (closeSocket s.1 s.2)
  | .post available net uploaded =>
    (postData disableTls available net uploaded s.2).map fun r => (s.1, r.2)
  | .ota net => (ota disableTls net s.2).map fun os => (s.1, os)

/-- A history of calls. -/
def run (disableTls : Bool) : Ctx × Os → List Op → Option (Ctx × Os)
  | s, [] => some s
  | s, op :: ops => (step disableTls s op).bind fun s => run disableTls s ops

/-! ## Uploads -/

/-- One `send` that does not block, after `poll`: up to `n + 1` bytes taken, none taken (`EAGAIN`), or
a failure or a timeout. -/
inductive SendRes where
  | sent (n : Nat)
  | again
  | fail
deriving Repr, DecidableEq

/-- A connection: what each `send` that blocks does (all bytes, or only the first `k`; all bytes when
the list is over), what each one that does not block does (failure when the list is over), the bytes
that went out, and how the answers to the requests arrive. -/
structure Conn where
  blocking : List (Option Nat) := []
  sends : List SendRes := []
  wire : Bytes := []
  answers : List ZephyrOta.Sock := []
deriving Repr, DecidableEq

/-- `prv_send_data`, memfault_platform_http.c:176-180. -/
def sendData (c : Conn) (d : Bytes) : Bool × Conn :=
  match c.blocking with
  | some k :: t => (decide (d.length ≤ k), { c with blocking := t, wire := c.wire ++ d.take k })
  | none :: t => (true, { c with blocking := t, wire := c.wire ++ d })
  | [] => (true, { c with wire := c.wire ++ d })

/-- `prv_try_send`, memfault_platform_http.c:297-322. -/
def trySend : Nat → Bytes → Conn → Option (Bool × Conn)
  | 0, _, _ => none
  | fuel + 1, buf, c =>
    if buf = [] then some (true, c)
    else
      match c.sends with
      | [] => some (false, c)
      | .fail :: t => some (false, { c with sends := t })
      | .again :: t => trySend fuel buf { c with sends := t }
      | .sent n :: t =>
        trySend fuel (buf.drop (n + 1)) { c with sends := t, wire := c.wire ++ buf.take (n + 1) }

/-- `prv_wait_for_http_response`, memfault_platform_http.c:437-456. -/
def waitResponse : Nat → Http.Ctx → ZephyrOta.Sock → Option (Bool × ZephyrOta.Sock)
  | 0, _, _ => none
  | fuel + 1, ctx, s =>
    match (ZephyrOta.recv s 32).1 with
    | none => some (false, (ZephyrOta.recv s 32).2)
    | some d =>
      match Http.parse false ctx d with
      | none => none
      | some (_, true) => some (true, (ZephyrOta.recv s 32).2)
      | some (c, false) => waitResponse fuel c (ZephyrOta.recv s 32).2

/-- The answer to the last request; no answer at all is a timeout. -/
def response (c : Conn) : Option (Bool × Conn) :=
  match c.answers with
  | [] => some (false, c)
  | s :: t => (waitResponse (s.script.length + 2) Http.Ctx.init s).map fun r =>
      (r.1, { c with answers := t })

/-- The calls of the packetizer: `memfault_packetizer_get_chunk` with a buffer of the configured size,
`memfault_packetizer_begin` (the length of the message), `memfault_packetizer_get_next` with a buffer
of 128 bytes (the bytes, and whether the chunk ends with them), `memfault_packetizer_abort`. -/
structure Source (π : Type) where
  chunk : π → Option Bytes × π
  «begin» : π → Option Nat × π
  next : π → Option (Bytes × Bool) × π
  abort : π → π

/-- What stays the same: the configuration, the device, and what is in the buffer of
`memfault_http_start_chunk_post`. -/
structure Env where
  cfg : HttpRequest.Config
  info : HttpRequest.DeviceInfo
  junk : Bytes

variable {π : Type}

/-- What sending the next message did: the result (no data, sent, error), the bytes counted. -/
structure SendOut (π : Type) where
  rv : Int
  bytes : Nat
  source : π
  conn : Conn

/-- `prv_send_next_msg` with `CONFIG_MEMFAULT_HTTP_MAX_POST_SIZE`,
memfault_platform_http.c:347-373. The result of sending the header is not looked at. -/
def sendNextChunk (e : Env) (src : Source π) (p : π) (c : Conn) : Option (SendOut π) :=
  match src.chunk p with
  | (none, p) => some ⟨0, 0, p, c⟩
  | (some d, p) =>
    match HttpRequest.startChunkPost e.cfg e.info e.junk sendData d.length c with
    | none => none
    | some (_, c) =>
      match trySend (c.sends.length + 2) d c with
      | none => none
      | some (false, c) => some ⟨-1, 0, src.abort p, c⟩
      | some (true, c) => some ⟨1, d.length, p, c⟩

/-- The loop of `prv_send_next_msg` without that option, memfault_platform_http.c:391-411. -/
def sendPieces (src : Source π) : Nat → Nat → π → Conn → Option (SendOut π)
  | 0, _, _, _ => none
  | fuel + 1, bytes, p, c =>
    match src.next p with
    | (none, p) => some ⟨1, bytes, p, c⟩
    | (some (d, last), p) =>
      match trySend (c.sends.length + 2) d c with
      | none => none
      | some (false, c) => some ⟨-1, bytes, src.abort p, c⟩
      | some (true, c) =>
        if last then some ⟨1, bytes + d.length, p, c⟩
        else sendPieces src fuel (bytes + d.length) p c

/-- `prv_send_next_msg` without that option, memfault_platform_http.c:375-414. `fuel` is more than the
number of pieces. -/
def sendNextMsg (fuel : Nat) (e : Env) (src : Source π) (p : π) (c : Conn) : Option (SendOut π) :=
  match src.begin p with
  | (none, p) => some ⟨0, 0, p, c⟩
  | (some n, p) =>
    match HttpRequest.startChunkPost e.cfg e.info e.junk sendData n c with
    | none => none
    | some (_, c) => sendPieces src fuel 0 p c

/-- The number of messages of one upload, memfault_platform_http.c:793-800: with a RAM backed coredump
and a limited size of posts, `coredump / post`, but at least 5. -/
def maxMessages (ramCoredump : Option Nat) (maxPost : Nat) : Nat :=
  match ramCoredump with
  | some size => if maxPost = 0 then 5 else max 5 (size / maxPost)
  | none => 5

/-- `memfault_zephyr_port_http_upload_sdk_data`, memfault_platform_http.c:792-818: whether it returns
0, the bytes counted, and the state. -/
def upload (sendNext : π → Conn → Option (SendOut π)) :
    Nat → Nat → π → Conn → Option (Bool × Nat × π × Conn)
  | 0, bytes, p, c => some (true, bytes, p, c)
  | max + 1, bytes, p, c =>
    match sendNext p c with
    | none => none
    | some o =>
      if o.rv = 0 then some (true, bytes, o.source, o.conn)
      else if o.rv < 0 then some (false, bytes + o.bytes, o.source, o.conn)
      else
        match response o.conn with
        | none => none
        | some (false, c) => some (false, bytes + o.bytes, o.source, c)
        | some (true, c) => upload sendNext max (bytes + o.bytes) o.source c

/-- `memfault_zephyr_port_http_post_chunk`, memfault_platform_http.c:820-836. -/
def postChunk (e : Env) (connected : Bool) (d : Bytes) (c : Conn) : Option (Int × Conn) :=
  if !connected then some (-1, c)
  else
    match HttpRequest.startChunkPost e.cfg e.info e.junk sendData d.length c with
    | none => none
    | some (_, c) =>
      match trySend (c.sends.length + 2) d c with
      | none => none
      | some (false, c) => some (-2, c)
      | some (true, c) =>
        match response c with
        | none => none
        | some (false, c) => some (-3, c)
        | some (true, c) => some (0, c)

end Mflt.ZephyrUpload
