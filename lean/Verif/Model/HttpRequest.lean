import Verif.Model.Http

/-!
# Model of the request builders of `components/http/src/memfault_http_utils.c` and of
`memfault_http_build_url` (`components/http/src/memfault_http_client.c`)

Strings of C are byte lists without their terminator. Buffers on the stack have arbitrary contents `junk`.
The callback that sends is any function that changes a state `σ` and answers. `none` is undefined behaviour.
-/

namespace Mflt.HttpRequest

/-- The characters of a literal. -/
def ascii (s : String) : Bytes := s.toList.map fun c => UInt8.ofNat c.toNat

variable {σ : Type}

/-- `MfltHttpClientSendCb`, http/utils.h:34, with its context. -/
abbrev Send (σ : Type) := σ → Bytes → Bool × σ

/-- `if (!a) { return false; } b`. -/
def andThen (r : Option (Bool × σ)) (f : σ → Option (Bool × σ)) : Option (Bool × σ) :=
  match r with
  | none => none
  | some (false, s) => some (false, s)
  | some (true, s) => f s

/-- A call of the callback. -/
def put (send : Send σ) (d : Bytes) (s : σ) : Option (Bool × σ) := some (send s d)

/-- `sMemfaultDeviceInfo`, device_info.h:23-41. -/
structure DeviceInfo where
  serial : Bytes
  softwareType : Bytes
  softwareVersion : Bytes
  hardwareVersion : Bytes

/-- `g_mflt_http_client_config`, http_client.h:36-57, without the ports. -/
structure Config where
  apiKey : Bytes
  disableTls : Bool
  chunksHost : Option Bytes
  deviceHost : Option Bytes

/-- `MEMFAULT_HTTP_GET_CHUNKS_API_HOST`, http_client.h:73-75 and default_config.h:492. -/
def Config.chunksApiHost (c : Config) : Bytes := c.chunksHost.getD (ascii "chunks.memfault.com")

/-- `MEMFAULT_HTTP_GET_DEVICE_API_HOST`, http_client.h:81-83 and default_config.h:496. -/
def Config.deviceApiHost (c : Config) : Bytes := c.deviceHost.getD (ascii "device.memfault.com")

/-- Digits, least significant last. The fuel is more than the number of digits. -/
def digitsLoop : Nat → Nat → Bytes → Bytes
  | 0, _, acc => acc
  | fuel + 1, n, acc =>
    if n / 10 = 0 then UInt8.ofNat (48 + n % 10) :: acc
    else digitsLoop fuel (n / 10) (UInt8.ofNat (48 + n % 10) :: acc)

/-- `%d` of `printf`. -/
def formatInt (x : Int) : Bytes :=
  if x < 0 then 45 :: digitsLoop (x.natAbs + 1) x.natAbs [] else digitsLoop (x.natAbs + 1) x.natAbs []

/-- `snprintf(buf, sizeof(buf), ...)` where the formatted text is `text`: contents and result. -/
def snprintf (buf text : Bytes) : Option (Bytes × Nat) :=
  if buf.length = 0 then some (buf, text.length)
  else (memcpyIn buf 0 (text.take (buf.length - 1) ++ [0])).map fun b => (b, text.length)

/-- `prv_write_msg`, memfault_http_utils.c:30-37. -/
def writeMsg (send : Send σ) (msg : Bytes) (msgLen maxLen : Nat) (s : σ) : Option (Bool × σ) :=
  if msgLen ≥ maxLen then some (false, s)
  else (memcpyOut msg 0 msgLen).bind fun d => put send d s

/-- `prv_write_crlf`, memfault_http_utils.c:39-43. -/
def writeCrlf (send : Send σ) (s : σ) : Option (Bool × σ) := put send [13, 10] s

/-- `prv_write_host_hdr`, memfault_http_utils.c:47-60. -/
def writeHostHdr (send : Send σ) (host : Bytes) (s : σ) : Option (Bool × σ) :=
  andThen (put send (ascii "Host:") s) fun s =>
  andThen (put send host s) fun s => writeCrlf send s

/-- `prv_write_user_agent_hdr`, memfault_http_utils.c:62-66, with `MEMFAULT_SDK_VERSION_STR`,
version.h:24. -/
def writeUserAgentHdr (send : Send σ) (s : σ) : Option (Bool × σ) :=
  put send (ascii "User-Agent:MemfaultSDK/1.23.1\r\n") s

/-- `prv_write_project_key_hdr`, memfault_http_utils.c:68-83. -/
def writeProjectKeyHdr (cfg : Config) (send : Send σ) (s : σ) : Option (Bool × σ) :=
  andThen (put send (ascii "Memfault-Project-Key:") s) fun s =>
  andThen (put send cfg.apiKey s) fun s => writeCrlf send s

/-- `memfault_http_start_chunk_post`, memfault_http_utils.c:85-132. `junk`: the buffer of 100 bytes. -/
def startChunkPost (cfg : Config) (info : DeviceInfo) (junk : Bytes) (send : Send σ)
    (contentBodyLength : Nat) (s : σ) : Option (Bool × σ) :=
  match snprintf junk (ascii "POST /api/v0/chunks/" ++ info.serial ++ ascii " HTTP/1.1\r\n") with
  | none => none
  | some (buffer, msgLen) =>
    andThen (writeMsg send buffer msgLen 100 s) fun s =>
    andThen (writeHostHdr send cfg.chunksApiHost s) fun s =>
    andThen (writeUserAgentHdr send s) fun s =>
    andThen (writeProjectKeyHdr cfg send s) fun s =>
    andThen (put send (ascii "Content-Type:application/octet-stream\r\n") s) fun s =>
    match snprintf buffer
        (ascii "Content-Length:" ++ formatInt (Http.wrap contentBodyLength) ++ ascii "\r\n") with
    | none => none
    | some (buffer, msgLen) =>
      andThen (writeMsg send buffer msgLen 100 s) fun s => writeCrlf send s

/-- `strlen` and the string it measures: `none` if there is no terminator in the buffer. -/
def cString (buf : Bytes) : Option Bytes := if 0 ∈ buf then some (buf.takeWhile (· ≠ 0)) else none

/-- `prv_write_qparam`, memfault_http_utils.c:134-138. -/
def writeQparam (send : Send σ) (name value : Bytes) (s : σ) : Option (Bool × σ) :=
  andThen (put send [38] s) fun s =>
  andThen (put send name s) fun s =>
  andThen (put send [61] s) fun s => put send value s

/-- The loop over the parameters, memfault_http_utils.c:192-207. `junk`: the buffer of
MEMFAULT_DEVICE_INFO_URL_ENCODED_MAX_LEN bytes. -/
def writeQparams (junk : Bytes) (send : Send σ) : List (Bytes × Bytes) → σ → Option (Bool × σ)
  | [], s => some (true, s)
  | (name, value) :: rest, s =>
    match Http.urlencode value junk with
    | none => none
    | some (rv, buffer) =>
      if rv ≠ 0 then some (false, s)
      else
        match cString buffer with
        | none => none
        | some encoded =>
          andThen (writeQparam send name encoded s) fun s => writeQparams junk send rest s

/-- `memfault_http_get_latest_ota_payload_url`, memfault_http_utils.c:140-230. -/
def getLatestOtaPayloadUrl (cfg : Config) (info : DeviceInfo) (junk : Bytes) (send : Send σ) (s : σ) :
    Option (Bool × σ) :=
  andThen (put send (ascii "GET /api/v0/releases/latest/url?") s) fun s =>
  andThen (writeQparams junk send
    [(ascii "device_serial", info.serial), (ascii "hardware_version", info.hardwareVersion),
      (ascii "software_type", info.softwareType), (ascii "current_version", info.softwareVersion)] s)
    fun s =>
  andThen (put send (ascii " HTTP/1.1\r\n") s) fun s =>
  andThen (writeHostHdr send cfg.deviceApiHost s) fun s =>
  andThen (writeUserAgentHdr send s) fun s =>
  andThen (writeProjectKeyHdr cfg send s) fun s => writeCrlf send s

/-- `memfault_http_get_ota_payload`, memfault_http_utils.c:611-651. -/
def getOtaPayload (send : Send σ) (url : Bytes) (s : σ) : Option (Bool × σ) :=
  match Http.parseUri url with
  | none => none
  | some none => some (false, s)
  | some (some info) =>
    andThen (put send (ascii "GET ") s) fun s =>
    andThen (match info.path with
      | some path => put send path s
      | none => put send [47] s) fun s =>
    andThen (put send (ascii " HTTP/1.1\r\n") s) fun s =>
    andThen (writeHostHdr send info.host s) fun s =>
    andThen (writeUserAgentHdr send s) fun s => writeCrlf send s

/-- `memfault_http_build_url`, memfault_http_client.c:20-29: the buffer and the result. -/
def buildUrl (cfg : Config) (info : DeviceInfo) (urlBuffer subpath : Bytes) : Option (Bytes × Bool) :=
  (snprintf urlBuffer (ascii (if cfg.disableTls then "http" else "https") ++ ascii "://" ++
    cfg.chunksApiHost ++ ascii "/api/v0/" ++ subpath ++ ascii "/" ++ info.serial)).map
    fun r => (r.1, decide (r.2 < 128))

end Mflt.HttpRequest
