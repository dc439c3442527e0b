import Verif.Model.HttpRequest

/-
The HTTP clients of the ESP-IDF port, `ports/esp_idf/memfault/common/memfault_platform_http_client.c` and
`memfault_platform_http_client_buffer.c`, and of the ESP8266 port,
`ports/esp8266_sdk/memfault/memfault_platform_http_client.c`.

Simplified: `esp_http_client` is a list of results, one for each request. The packetizer is any machine with
the same calls. The callback of a post and the log are left out except for the status the callback is
called with.
-/
namespace Mflt.EspHttp

/-- `MEMFAULT_PLATFORM_SPECIFIC_ERROR`, components/include/memfault/core/errors.h:51-52. -/
def platformError (e : Int) : Int := -1000 - ((e.natAbs % 2 ^ 31 : Nat) : Int)

/-! ## The buffer -/

/-- The loop of `memfault_http_client_allocate_chunk_buffer`,
memfault_platform_http_client_buffer.c:24-42: the size of the buffer, `some none` without one. `heap` says
what `malloc` can give. -/
def allocLoop (heap : Nat → Bool) (min : Nat) : Nat → Nat → Option (Option Nat)
  | 0, _ => none
  | fuel + 1, size =>
    if size > min then
      if heap size then some (some size) else allocLoop heap min fuel (size / 2)
    else some none

/-- `memfault_http_client_allocate_chunk_buffer`, memfault_platform_http_client_buffer.c:24-42. -/
def allocBuffer (heap : Nat → Bool) (max min : Nat) : Option (Option Nat) := allocLoop heap min (max + 2) max

/-! ## Posts -/

/-- One `esp_http_client_perform`: the status of the answer, or an error (which may come before or after the
request has arrived). -/
inductive Perf where
  | answered (status : Int)
  | failed (err : Int) (arrived : Bool)
deriving Repr, DecidableEq

/-- A client: what each request does (an error when the list is over), the URL, the URLs and bodies that
arrived, and the status of the last answer. -/
structure Client where
  script : List Perf := []
  url : Bytes := []
  posts : List (Bytes × Bytes) := []
  status : Int := 0
deriving Repr, DecidableEq

/-- `esp_http_client_perform` of the ESP-IDF with a body: the error, 0 without one. -/
def perform (c : Client) (body : Bytes) : Int × Client :=
  match c.script with
  | [] => (-1, c)
  | .answered s :: t => (0, { c with script := t, posts := c.posts ++ [(c.url, body)], status := s })
  | .failed e arrived :: t =>
    (if e = 0 then -1 else e,
      { c with script := t, posts := if arrived then c.posts ++ [(c.url, body)] else c.posts })

/-- The calls of the packetizer: `memfault_esp_port_data_available` and `memfault_esp_port_get_chunk` with a
buffer of `n` bytes. -/
structure Source (π : Type) where
  available : π → Bool
  chunk : Nat → π → Option Bytes × π

variable {π : Type}

/-- `prv_post_chunks`, memfault_platform_http_client.c:85-113 (ESP8266: 79-103): the result, the bytes
counted. `fuel` is more than the number of requests. -/
def postChunks (src : Source π) (size : Nat) : Nat → Nat → π → Client → Option (Int × Nat × π × Client)
  | 0, _, _, _ => none
  | fuel + 1, bytes, p, c =>
    match src.chunk size p with
    | (none, p) => some (0, bytes, p, c)
    | (some d, p) =>
      if (perform c d).1 ≠ 0 then some (platformError (perform c d).1, bytes + d.length, p, (perform c d).2)
      else postChunks src size fuel (bytes + d.length) p (perform c d).2

/-- What a post did. -/
structure Out (π : Type) where
  rv : Int
  called : Option Nat
  bytes : Nat
  source : π
  client : Client

/-- What stays the same: the port (ESP8266 or ESP-IDF), the configuration, the device, the sizes of the
buffer, what `malloc` can give, and what is in the buffer for the URL. -/
structure Env where
  esp8266 : Bool
  cfg : HttpRequest.Config
  info : HttpRequest.DeviceInfo
  heap : Nat → Bool
  max : Nat
  min : Nat
  junk : Bytes

/-- `memfault_platform_http_client_post_data`, memfault_platform_http_client.c:383-425 (ESP8266: 169-207),
for `bytes` counted before. -/
def postData (e : Env) (src : Source π) (bytes : Nat) (p : π) (c : Client) : Option (Out π) :=
  if !src.available p then some ⟨0, none, bytes, p, c⟩
  else
    match allocBuffer e.heap e.max e.min with
    | none => none
    | some none => some ⟨-1, none, bytes, p, c⟩
    | some (some size) =>
      match HttpRequest.buildUrl e.cfg e.info e.junk (HttpRequest.ascii "chunks") with
      | none => none
      | some (buf, _) =>
        match HttpRequest.cString buf with
        | none => none
        | some url =>
          match postChunks src size (c.script.length + 2) 0 p { c with url := url } with
          | none => none
          | some (rv, n, p, c) =>
            if rv ≠ 0 then some ⟨rv, none, n, p, c⟩
            else
              let status := (c.status % 2 ^ 16).toNat
              some ⟨if e.esp8266 || status = 200 || status = 202 then 0 else -1, some status, n, p, c⟩

/-! ## The client and the connection -/

/-- One network interface: up, with an address that can be read (the address). -/
structure Netif where
  up : Bool
  addr : Option Nat
deriving Repr, DecidableEq

/-- `memfault_esp_port_netif_connected`, memfault_platform_http_client.c:439-461. -/
def connected : List Netif → Bool
  | [] => false
  | n :: t =>
    if !n.up then connected t
    else
      match n.addr with
      | some a => if a ≠ 0 then true else connected t
      | none => connected t

/-- `memfault_platform_http_client_create` of the ESP8266,
ports/esp8266_sdk/memfault/memfault_platform_http_client.c:107-144: for each certificate, whether the first
request with it works. The number of the certificate in use, and how many clients were opened and
closed. -/
def create8266 : List Bool → Nat → Option Nat × Nat × Nat
  | [], i => (none, i, i)
  | true :: _, i => (some i, i + 1, i)
  | false :: t, i => create8266 t (i + 1)

/-- What is counted: uploads that worked and that did not. -/
structure Sync where
  success : Nat := 0
  failure : Nat := 0
deriving Repr, DecidableEq

/-- The result of `memfault_esp_port_http_client_post_data`. -/
structure PortOut (π : Type) where
  rv : Int
  sync : Sync
  opened : Nat
  closed : Nat
  source : π

/-- `memfault_esp_port_http_client_post_data` of the ESP-IDF, memfault_platform_http_client.c:465-512, with
`CONFIG_MEMFAULT_METRICS_MEMFAULT_SYNC_SUCCESS`; `client` is what `esp_http_client_init` gives. -/
def portPost (e : Env) (src : Source π) (netifs : List Netif) (client : Option Client) (sync : Sync)
    (bytes : Nat) (p : π) : Option (PortOut π) :=
  if !connected netifs then some ⟨-1, sync, 0, 0, p⟩
  else if !src.available p then some ⟨0, sync, 0, 0, p⟩
  else
    match client with
    | none => some ⟨-1, { sync with failure := sync.failure + 1 }, 0, 0, p⟩
    | some c =>
      match postData e src bytes p c with
      | none => none
      | some o =>
        some ⟨o.rv,
          if o.rv = 0 then { sync with success := sync.success + 1 }
          else if o.rv = 1 then sync
          else { sync with failure := sync.failure + 1 }, 1, 1, o.source⟩

/-! ## The URL of a release -/

/-- The three parameters that are not encoded, `prv_deviceinfo_needs_url_escaping`,
memfault_platform_http_client.c:162-191. -/
def needsEscaping (info : HttpRequest.DeviceInfo) : Bool :=
  [info.serial, info.hardwareVersion, info.softwareType].any Http.needsEscape

/-- The text of `prv_build_latest_release_url`, memfault_platform_http_client.c:193-219; `none` is a negative
result. `junk` is what is in the buffer for the encoded version. -/
def releaseUrl (cfg : HttpRequest.Config) (info : HttpRequest.DeviceInfo) (junk : Bytes) :
    Option (Option Bytes) :=
  if needsEscaping info then some none
  else
    match Http.urlencode info.softwareVersion junk with
    | none => none
    | some (rv, out) =>
      if rv ≠ 0 then some none
      else
        match HttpRequest.cString out with
        | none => none
        | some v =>
          some (some (HttpRequest.ascii (if cfg.disableTls then "http" else "https") ++ HttpRequest.ascii "://" ++
            cfg.deviceApiHost ++
            HttpRequest.ascii "/api/v0/releases/latest/url?device_serial=" ++ info.serial ++
            HttpRequest.ascii "&hardware_version=" ++ info.hardwareVersion ++
            HttpRequest.ascii "&software_type=" ++ info.softwareType ++
            HttpRequest.ascii "&current_version=" ++ v))

/-- What a server answers to the request for a release: the result of `esp_http_client_open`, that of
`esp_http_client_fetch_headers` (the length, 0 without one), the body, how it arrives (up to `k + 1` bytes,
or an error; 0 bytes each time when the list is over), the status. -/
structure Server where
  «open» : Int
  length : Int
  body : Bytes
  reads : List (Nat ⊕ Int)
  status : Int
deriving Repr, DecidableEq

/-- The loop of `esp_http_client_read`, memfault_platform_http_client.c:283-291: the body, or an error. -/
def readBody (length : Nat) : Nat → Bytes → Bytes → List (Nat ⊕ Int) → Option (Bytes ⊕ Int)
  | 0, _, _, _ => none
  | fuel + 1, got, body, reads =>
    if got.length = length then some (.inl got)
    else
      match reads with
      | [] => readBody length fuel got body []
      | .inr e :: _ => some (.inr (if e < 0 then e else -1))
      | .inl k :: t =>
        let n := min (k + 1) (length - got.length)
        readBody length fuel (got ++ body.take n) (body.drop n) t

/-- What is asked of the heap and of the client. -/
inductive Act where
  | opened | closed | url | urlFreed | body | bodyFreed
deriving Repr, DecidableEq

/-- The result of `memfault_esp_port_ota_get_release_url`: the return value, what is written to the caller's
pointer (`none`: nothing; `some none`: null), the requested URL, and what was asked for. -/
structure Release where
  rv : Int
  out : Option (Option Bytes)
  requested : Option Bytes
  acts : List Act
deriving Repr, DecidableEq

/-- The end of `memfault_esp_port_ota_get_release_url`, memfault_platform_http_client.c:303-314. -/
def cleanup (rv status : Int) (body requested : Option Bytes) (acts : List Act) (url : Bool) : Release :=
  let acts := acts ++ (if url then [.urlFreed] else []) ++ [.closed]
  if status = 200 then ⟨rv, some body, requested, acts⟩
  else ⟨rv, some none, requested, acts ++ if body.isSome then [.bodyFreed] else []⟩

/-- What the heap gives: memory for the URL of the request, for the answer. -/
structure Heap where
  url : Bool
  body : Bool
deriving Repr, DecidableEq

/-- `memfault_esp_port_ota_get_release_url`, memfault_platform_http_client.c:221-315. The bytes behind those
that were read are 0, so the string ends at the first 0 in the body. `fuel` is more than the number of
reads. -/
def getReleaseUrl (fuel : Nat) (cfg : HttpRequest.Config) (info : HttpRequest.DeviceInfo) (junk : Bytes)
    (client : Bool) (heap : Heap) (s : Server) : Option Release :=
  if !client then some ⟨-1, none, none, []⟩
  else
    match releaseUrl cfg info junk with
    | none => none
    | some none => some (cleanup (-1) (-1) none none [.opened] false)
    | some (some url) =>
      if !heap.url then some (cleanup (-1) (-1) none none [.opened] false)
      else if s.open ≠ 0 then
        some (cleanup (platformError s.open) (-1) none (some url) [.opened, .url] true)
      else if s.length < 0 then
        some (cleanup (platformError s.length) (-1) none (some url) [.opened, .url] true)
      else if !heap.body then some (cleanup (-1) (-1) none (some url) [.opened, .url] true)
      else
        match readBody s.length.toNat fuel [] s.body s.reads with
        | none => none
        | some (.inr e) =>
          some (cleanup (platformError e) (-1) (some []) (some url) [.opened, .url, .body] true)
        | some (.inl d) =>
          let text := d.takeWhile (· ≠ 0)
          if s.status ≠ 200 ∧ s.status ≠ 204 then
            some (cleanup (-1) s.status (some text) (some url) [.opened, .url, .body] true)
          else some (cleanup 0 s.status (some text) (some url) [.opened, .url, .body] true)

/-! ## Updates -/

/-- The calls of an update handler, and `esp_https_ota` with its URL. -/
inductive Call where
  | available
  | download (url : Bytes)
  | complete
  | done (rv : Int)
deriving Repr, DecidableEq

/-- A handler: which callbacks it has and what they return. -/
structure Handler where
  available : Option Bool
  complete : Option Bool
  done : Bool
deriving Repr, DecidableEq

/-- The end of `memfault_esp_port_ota_update`, memfault_platform_http_client.c:374-381. -/
def finish (h : Handler) (rv : Int) (calls : List Call) : Int × List Call :=
  (rv, if h.done then calls ++ [.done rv] else calls)

/-- `memfault_esp_port_ota_update`, memfault_platform_http_client.c:317-381, with the result of the request
for a release and of `esp_https_ota`. A null handler is dereferenced at the end. -/
def otaUpdate (h : Option Handler) (release : Int × Option Bytes) (ota : Int) : Option (Int × List Call) :=
  match h with
  | none => none
  | some h =>
    match h.available, h.complete with
    | some available, some complete =>
      if release.1 ≠ 0 then some (finish h release.1 [])
      else
        match release.2 with
        | none => some (finish h release.1 [])
        | some url =>
          if !available then some (finish h 1 [.available])
          else if ota ≠ 0 then some (finish h (platformError ota) [.available, .download url])
          else some (finish h (if complete then 1 else -1) [.available, .download url, .complete])
    | _, _ => some (finish h (-2) [])

end Mflt.EspHttp
