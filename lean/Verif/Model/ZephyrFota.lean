import Verif.Model.ZephyrOta

/-!
# Model of `ports/zephyr/common/memfault_platform_fota.c` and `ports/zephyr/ncs/src/memfault_fota*.c`

Updates of the firmware: with the MCUboot backend of the Zephyr port, and with the download library of the nRF
Connect SDK.

Zephyr and the nRF Connect SDK are not part of the repository. Their functions are modelled by what the code relies
on: `flash_img_buffered_write` collects blocks of `CONFIG_IMG_BLOCK_BUF_SIZE` bytes and writes every block as soon
as it is full; what is left in the buffer is written by a call with `flush` only. An `int` has 32 bits. Undefined
behaviour (division by zero, overflow of an `int`) and failing assertions are `none`. Log output is left out.
-/

namespace Mflt.ZephyrFota
open ZephyrOta (Sock Call installPayload)

/-! ## The MCUboot backend -/

/-- Configuration and hardware for one attempt: `CONFIG_IMG_BLOCK_BUF_SIZE`, the size of the partition for the
image, the result of `flash_img_init`, whether the n-th write fails, the result of `boot_request_upgrade`. A custom
`memfault_zephyr_fota_download_callback` (`CONFIG_MEMFAULT_ZEPHYR_FOTA_DOWNLOAD_CALLBACK_CUSTOM`) is only what it
returns. -/
structure Env where
  block : Nat
  partition : Nat
  init : Int
  writeFails : Nat → Bool
  upgrade : Int
  custom : Option Bool

/-- `sMemfaultOtaDownloadCtx`, memfault_platform_fota.c:26-29: the announced size, the bytes written to flash and
those in the buffer, the number of writes; and whether the upgrade was requested, the reason of the reboot noted,
and the device rebooted. -/
structure Img where
  size : Nat
  slot : Bytes
  buffer : Bytes
  writes : Nat
  requested : Bool
  marked : Bool
  rebooted : Bool
  deriving Repr, DecidableEq

/-- After `flash_img_init`; `info` is not initialised (0 here; it is not used before the first call). -/
def Img.init : Img := ⟨0, [], [], 0, false, false, false⟩

/-- `flash_img_buffered_write` without `flush` (Zephyr's `stream_flash`): `none` is an error. -/
def buffered (e : Env) (i : Img) (d : Bytes) : Option Img :=
  if e.partition < i.slot.length + i.buffer.length + d.length then none
  else if e.writeFails i.writes then none
  else
    some { i with
      slot := i.slot ++ (i.buffer ++ d).take ((i.buffer ++ d).length / e.block * e.block)
      buffer := (i.buffer ++ d).drop ((i.buffer ++ d).length / e.block * e.block)
      writes := i.writes + 1 }

/-- `prv_handle_update_available`, `prv_handle_data`, `prv_handle_download_complete`,
`memfault_zephyr_fota_download_callback`, memfault_platform_fota.c:32-82: the answer. A reboot has the answer
`true`; it is not used. -/
def handle (e : Env) (i : Img) : Call → Option (Bool × Img)
  | .available size => some (true, { i with size := size })
  | .data d =>
    match buffered e i d with
    | none => some (false, { i with writes := i.writes + 1 })
    | some i =>
      if 2147483647 < i.slot.length * 100 then none
      else if i.size = 0 then none
      else some (true, i)
  | .complete =>
    match e.custom with
    | some ok => some (ok, i)
    | none =>
      if e.upgrade ≠ 0 then some (false, i)
      else some (true, { i with requested := true, marked := true, rebooted := true })

/-- The calls one after the other: the last answer. -/
def handleAll (e : Env) : Bool × Img → List Call → Option (Bool × Img)
  | r, [] => some r
  | r, c :: cs => (handle e r.2 c).bind fun r => handleAll e r cs

/-- What the handler answers, given all its calls so far. -/
def answer (e : Env) (calls : List Call) : Bool :=
  match handleAll e (false, Img.init) calls with
  | some r => r.1
  | none => false

/-- What the network does in one attempt: the result of `prv_check_for_ota_update` (`ZephyrOta.downloadUrl`), and the
connection for the image; none if the URL is invalid or no connection can be made or the request cannot be sent. -/
structure Net where
  check : Bool × Option Bytes
  sock : Option Sock

/-- `memfault_zephyr_port_ota_update`, memfault_platform_http.c:670-686, with the handler of
memfault_platform_fota.c:91-98: the result and what the handler did. -/
def otaUpdate (e : Env) (n : Net) : Option (Int × Img) :=
  match n.check with
  | (false, _) => some (-1, Img.init)
  | (true, none) => some (0, Img.init)
  | (true, some _) =>
    match n.sock with
    | none => some (-1, Img.init)
    | some s =>
      (installPayload (answer e) e.block s).bind fun r =>
        (handleAll e (false, Img.init) r.2).map fun h => (if r.1 then 1 else -1, h.2)

/-- The state of the device between attempts: `s_fota_in_progress`, and what the last attempt that got to the flash
left: bytes of the image in the flash, the upgrade requested, the reason of the reboot noted. -/
structure Dev where
  inProgress : Bool
  slot : Bytes
  requested : Bool
  marked : Bool
  deriving Repr, DecidableEq

/-- How an attempt ends. -/
inductive Outcome where
  | returned (rv : Int)
  | rebooted
  deriving Repr, DecidableEq

/-- `memfault_zephyr_fota_start`, memfault_platform_fota.c:84-130. -/
def start (e : Env) (n : Net) (d : Dev) : Option (Outcome × Dev) :=
  if d.inProgress then some (.returned (-1), d)
  else if e.init ≠ 0 then some (.returned e.init, { d with inProgress := true })
  else
    (otaUpdate e n).map fun r =>
      if r.2.rebooted then (.rebooted, ⟨true, r.2.slot, r.2.requested, r.2.marked⟩)
      else (.returned r.1, ⟨false, r.2.slot, r.2.requested, r.2.marked⟩)

/-- Attempts one after the other, until the device reboots: the results. -/
def attempts : Dev → List (Env × Net) → Option (List Outcome × Dev)
  | d, [] => some ([], d)
  | d, (e, n) :: rest =>
    (start e n d).bind fun r =>
      if r.1 = .rebooted then some ([.rebooted], r.2)
      else (attempts r.2 rest).map fun q => (r.1 :: q.1, q.2)

/-- After a boot. -/
def Dev.boot : Dev := ⟨false, [], false, false⟩

/-! ## nRF Connect SDK -/

/-- The download library, depending on the version of the nRF Connect SDK: memfault_fota.c (after 2.9), or
memfault_fota_legacy.c from 2.6 or before. -/
inductive Version where
  | current
  | any
  | start
  deriving Repr, DecidableEq

/-- A call of `fota_download_any` or `fota_download_start`. -/
structure Download where
  host : Bytes
  file : Bytes
  certs : List Nat
  deriving Repr, DecidableEq

/-- `s_memfault_fota_certs`, memfault_fota.c:94-96, memfault_fota_legacy.c:97-99; the numbers are those of
root_cert_storage.h:22-31. -/
def certs : List Nat := [1001, 1002, 1003]

/-- `s_download_url` (the allocation and the string in it), the allocations, the number of the next allocation, the
allocation with the URL that the library is downloading from, and the calls of the library with their results. -/
structure Ncs where
  url : Option (Nat × Bytes)
  live : List Nat
  next : Nat
  busy : Option Nat
  calls : List (Download × Int)
  deriving Repr, DecidableEq

/-- What the server answers: an error, up to date, or a URL. -/
inductive Server where
  | error
  | upToDate
  | url (s : Bytes)
  deriving Repr, DecidableEq

/-- `memfault_zephyr_port_get_download_url`, memfault_platform_http.c:649-660: `*download_url` is not written unless
there is a URL (574-614). -/
def getUrl (sv : Server) (s : Ncs) : Int × Ncs :=
  match sv with
  | .error => (-1, s)
  | .upToDate => (if s.url = none then 0 else 1, s)
  | .url u => (1, { s with url := some (s.next, u), live := s.live ++ [s.next], next := s.next + 1 })

/-- `prv_fota_url_cleanup`, memfault_fota.c:51-54, with `memfault_zephyr_port_release_download_url`,
memfault_platform_http.c:662-666. -/
def cleanup (s : Ncs) : Ncs :=
  match s.url with
  | none => s
  | some (a, _) => { s with url := none, live := s.live.erase a }

/-- A call of the library with its result; on success it uses the URL from now on. -/
def call (s : Ncs) (d : Download) (rv : Int) : Ncs :=
  { s with calls := s.calls ++ [(d, rv)],
           busy := if rv = 0 then s.url.map (·.1) else s.busy }

/-- The loop over the root certificates, memfault_fota_legacy.c:167-202, with the results of the calls (an error
when there is none). `-EALREADY` is -114 (Zephyr's C library). The result: the last one. -/
def certLoop (u : Bytes) : List Nat → List Int → Int → Ncs → Int × Ncs
  | [], _, rv, s => (rv, s)
  | c :: cs, results, _, s =>
    let rv := results.headD (-1)
    let s := call s ⟨u, u, [c]⟩ rv
    if rv = 0 then (rv, s)
    else if rv = -114 then (rv, s)
    else certLoop u cs results.tail rv s

/-- The first '/' of a string: what is before and after it. -/
def splitSlash : Bytes → Option (Bytes × Bytes)
  | [] => none
  | c :: cs => if c = 47 then some ([], cs) else (splitSlash cs).map fun r => (c :: r.1, r.2)

/-- `memfault_fota_start`, memfault_fota.c:98-152, memfault_fota_legacy.c:142-220: the results of
`fota_download_init` and of the calls of the library are given. -/
def ncsStart (v : Version) (sv : Server) (init : Int) (results : List Int) (s : Ncs) : Option (Int × Ncs) :=
  let g := getUrl sv s
  if g.1 ≤ 0 then some (g.1, g.2)
  else
    match g.2.url with
    | none => none
    | some (a, u) =>
      if init ≠ 0 then some (finish init g.2)
      else
        match v with
        | .current =>
          match splitSlash u with
          | none => some (finish (-1) g.2)
          | some (host, file) =>
            let rv := results.headD (-1)
            some (begun rv (call { g.2 with url := some (a, host) } ⟨host, file, certs⟩ rv))
        | .any =>
          let rv := results.headD (-1)
          some (begun rv (call g.2 ⟨u, u, certs⟩ rv))
        | .start =>
          let r := certLoop u certs results 0 g.2
          some (begun r.1 r.2)
where
  /-- memfault_fota.c:145-151 -/
  finish (rv : Int) (s : Ncs) : Int × Ncs := if rv ≠ 1 ∧ rv ≠ 0 then (rv, cleanup s) else (rv, s)
  /-- memfault_fota.c:137-151 -/
  begun (rv : Int) (s : Ncs) : Int × Ncs := if rv ≠ 0 then finish rv s else finish 1 s

/-- Events of the download library. -/
inductive Event where
  | progress
  | finished
  | error
  | cancelled
  deriving Repr, DecidableEq

/-- `memfault_fota_download_callback`, memfault_fota.c:57-72, unless it is custom: whether the device reboots. -/
def downloadCallback (custom : Bool) (e : Event) (s : Ncs) : Bool × Ncs :=
  if custom then (false, s)
  else
    match e with
    | .finished => (true, s)
    | .error => (false, cleanup s)
    | .cancelled => (false, cleanup s)
    | .progress => (false, s)

/-- `prv_fota_download_callback_wrapper`, memfault_fota.c:78-92: whether the device reboots. The library is done
with the URL when it reports that the download has ended. -/
def onEvent (custom : Bool) (e : Event) (s : Ncs) : Bool × Ncs :=
  let s := if e = .progress then s else { s with busy := none }
  let r := downloadCallback custom e s
  if r.1 then r
  else if e = .progress then r
  else (false, cleanup r.2)

/-- What happens: an attempt, with what the server and the library answer; an event of the library. -/
inductive Op where
  | start (sv : Server) (init : Int) (results : List Int)
  | event (e : Event)
  deriving Repr, DecidableEq

/-- The results of the attempts, and the state; a reboot ends it. -/
def ncsRun (v : Version) (custom : Bool) : Ncs → List Op → Option (List Int × Ncs)
  | s, [] => some ([], s)
  | s, .start sv init results :: ops =>
    (ncsStart v sv init results s).bind fun r =>
      (ncsRun v custom r.2 ops).map fun q => (r.1 :: q.1, q.2)
  | s, .event e :: ops =>
    if (onEvent custom e s).1 then some ([], (onEvent custom e s).2)
    else ncsRun v custom (onEvent custom e s).2 ops

/-- After a boot. -/
def Ncs.boot : Ncs := ⟨none, [], 0, none, []⟩

end Mflt.ZephyrFota
