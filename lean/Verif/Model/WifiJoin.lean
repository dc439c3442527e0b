import Verif.Spec.WifiJoin
import Verif.Model.Settings

/-!
# Model of the Wi-Fi commands of the ESP32 demo application

`examples/esp32/apps/memfault_demo_app/main/cmd_wifi.c` and the automatic join of `main.c`. The driver, FreeRTOS' event
group and NVS are the environment: the driver is a list of reports. Simplifications: the initialisation of the network
stack succeeds, texts are lists of bytes without a 0, the parsing of arguments, the project key and the logs are left
out, except for the log that a join failed. `cmd_wifi_legacy.c` is not modelled.
-/

namespace Mflt.WifiJoin

open Spec.WifiJoin

/-- The variables: the two bits of the event group, cmd_wifi.c:61-62, `s_retry_num`, cmd_wifi.c:66,
`connected_successfully`, cmd_wifi.c:93, and what happened (the latest first). -/
structure St where
  connBit : Bool
  failBit : Bool
  retry : Nat
  connected : Bool
  log : List Item
  deriving Repr, DecidableEq

def fresh : St := ⟨false, false, 0, false, []⟩

/-- `event_handler`, cmd_wifi.c:68-90; `EXAMPLE_ESP_MAXIMUM_RETRY` is 10, cmd_wifi.c:32. -/
def handle (s : St) (e : Ev) : St :=
  let s := { s with log := .heard e :: s.log }
  match e with
  | .started => { s with log := .connect :: s.log }
  | .lost =>
    if s.retry < 10 then { s with retry := s.retry + 1, log := .connect :: s.log }
    else { s with failBit := true }
  | .associated => s
  | .address => { s with retry := 0, connBit := true }

/-- `xEventGroupWaitBits` for one of the bits, which stay set, cmd_wifi.c:151-152: the driver reports until one is set.
`false`: the task waits on. Also gives the reports that are left. Simplification: the task goes
on before the next report. -/
def wait (s : St) : List Ev → Bool × St × List Ev
  | [] => (s.connBit || s.failBit, s, [])
  | e :: l => if s.connBit || s.failBit then (true, s, e :: l) else wait (handle s e) l

/-- The caller gets the result. -/
def tell (b : Bool) (s : St) : St := { s with log := .told b :: s.log }

/-- The rest of `wifi_join`, cmd_wifi.c:148-167: the wait and what is made of the bits. No result: the call has not
returned. The log prints the password where it means the network. -/
def finish (pass : Bytes) (evs : List Ev) (s : St) : Option Bool × St × List Ev :=
  match wait s evs with
  | (false, s, l) => (none, s, l)
  | (true, s, l) =>
    if s.connBit then (some true, tell true { s with connected := true }, l)
    else if s.failBit then (some false, tell false { s with log := .logged pass :: s.log }, l)
    else (some false, tell false s, l)

/-- `wifi_join`, cmd_wifi.c:92-167. `again`: the result of `esp_wifi_connect` is `ESP_OK`. `none`: out of bounds. -/
def join (ssid pass : Bytes) (again : Bool) (evs : List Ev) (s : St) : Option (Option Bool × St × List Ev) :=
  let s := { s with log := .asked ssid pass :: s.log }
  if s.connected then
    let s := { s with log := .connect :: .disconnect :: s.log }
    if again then some (finish pass evs s) else some (some false, tell false s, evs)
  else do
    let a ← Settings.strncpy ssid 31 (List.replicate 32 0)
    let b ← Settings.strncpy pass 63 (List.replicate 64 0)
    some (finish pass evs { s with log := .start :: .configure a b :: s.log })

/-- What happens: the driver reports something, or somebody joins (while the driver reports `evs`). -/
inductive Op
  | event (e : Ev)
  | join (ssid pass : Bytes) (again : Bool) (evs : List Ev)
  deriving Repr, DecidableEq

def step (s : St) : Op → Option St
  | .event e => some (handle s e)
  | .join a b c evs => (join a b c evs s).map fun (_, s, l) => l.foldl handle s

def run (s : St) : List Op → Option St
  | [] => some s
  | o :: l => (step s o).bind fun s => run s l

/-! ## Credentials -/

/-- The settings in NVS and the copies `s_wifi_ssid` and `s_wifi_pass`, cmd_wifi.c:26-30, which are zero after a restart;
what happened (the latest first). -/
structure Creds where
  nvs : Settings.St
  ssid : Bytes
  pass : Bytes
  log : List Saved
  deriving Repr, DecidableEq

def blank : Bytes := List.replicate 65 0

def freshCreds : Creds := ⟨Settings.fresh, blank, blank, []⟩

/-- What NVS does in a call: opening, reading or writing, and the commit. -/
structure Nvs where
  opened : Settings.Open
  rw : Int
  commit : Int
  deriving Repr, DecidableEq

abbrev Build := Spec.Settings.Build

/-- The device restarts; `kept`: what was not committed is there. -/
def restart (kept : Bool) (c : Creds) : Creds :=
  ⟨Settings.restart kept c.nvs, blank, blank, .restarted :: c.log⟩

/-- `prv_save_wifi_creds`, cmd_wifi.c:199-214. An error of the first call is lost. The outer `none`: out of bounds; the
result: whether the program goes on. -/
def save (d : Build) (e1 e2 : Nvs) (ssid pass : Bytes) (c : Creds) : Option (Bool × Creds) :=
  match Settings.settingsSet d e1.opened e1.rw e1.commit 0 (.text ssid) c.nvs with
  | (none, n) => some (false, { c with nvs := n })
  | (some _, n) =>
    match Settings.settingsSet d e2.opened e2.rw e2.commit 1 (.text pass) n with
    | (none, n) => some (false, { c with nvs := n })
    | (some r, n) =>
      let c := { c with nvs := n }
      if r = 0 then do
        let a ← Settings.strncpy ssid 64 c.ssid
        let b ← Settings.strncpy pass 64 c.pass
        some (true, { c with ssid := a, pass := b })
      else some (true, c)

/-- `wifi_creds_set` with arguments, cmd_wifi.c:256-289: the exit code. -/
def config (d : Build) (e1 e2 : Nvs) (ssid pass : Bytes) (c : Creds) : Option (Option Int × Creds) :=
  let c := { c with log := .given ssid pass :: c.log }
  if ssid.length > 32 then some (some 1, c)
  else if pass.length > 64 then some (some 1, c)
  else (save d e1 e2 ssid pass c).map fun (ok, c) => (if ok then some 0 else none, c)

/-- `wifi_load_creds`, cmd_wifi.c:217-246: the two texts, or nothing. `strlen` of a copy is not 0 if its first byte is
not. The outer `none`: out of bounds; the inner one: the program ended. -/
def load (d : Build) (e1 e2 : Nvs) (c : Creds) : Option (Option (Option (Bytes × Bytes)) × Creds) :=
  if (field c.ssid).length > 0 ∧ (field c.pass).length > 0 then some (some (some (c.ssid, c.pass)), c)
  else
    match Settings.settingsGet d e1.opened e1.rw 0 c.ssid 65 c.nvs with
    | none => none
    | some (none, b, _, n) => some (none, { c with nvs := n, ssid := b })
    | some (some r, b, _, n) =>
      let c := { c with nvs := n, ssid := b }
      if r ≠ 0 then some (some none, c)
      else
        match Settings.settingsGet d e2.opened e2.rw 1 c.pass 65 c.nvs with
        | none => none
        | some (none, b, _, n) => some (none, { c with nvs := n, pass := b })
        | some (some r, b, _, n) =>
          let c := { c with nvs := n, pass := b }
          if r ≠ 0 then some (some none, c) else some (some (some (c.ssid, c.pass)), c)

/-- What happens to the credentials: `wifi_config` with arguments, reading them, the settings command for any setting,
settings.c:183-236, and a restart. A program that ended is a restart. -/
inductive COp
  | config (e1 e2 : Nvs) (ssid pass : Bytes)
  | load (e1 e2 : Nvs)
  | setting (e : Nvs) (key : Nat) (v : Spec.Settings.Value)
  | restart (kept : Bool)
  deriving Repr, DecidableEq

def cstep (d : Build) (c : Creds) : COp → Option Creds
  | .config e1 e2 a b => (config d e1 e2 a b c).map fun (r, c) => if r.isSome then c else restart true c
  | .load e1 e2 => (load d e1 e2 c).map fun (r, c) => if r.isSome then c else restart true c
  | .setting e k v =>
    let (r, n) := Settings.settingsSet d e.opened e.rw e.commit k v c.nvs
    let c := { c with nvs := n }
    some (if r.isSome then c else restart true c)
  | .restart kept => some (restart kept c)

def crun (d : Build) (c : Creds) : List COp → Option Creds
  | [] => some c
  | o :: l => (cstep d c o).bind fun c => crun d c l

/-- `memfault_esp_port_wifi_autojoin`, main.c:226-242. `up`: the station is connected. -/
def autojoin (d : Build) (up : Bool) (e1 e2 : Nvs) (evs : List Ev) (c : Creds) (s : St) : Option (Creds × St) :=
  if up then some (c, s)
  else
    match load d e1 e2 c with
    | none => none
    | some (none, c) => some (restart true c, fresh)
    | some (some none, c) => some (c, s)
    | some (some (some (a, b)), c) =>
      if (field a).length = 0 ∨ (field b).length = 0 then some (c, s)
      else (join (field a) (field b) true evs s).map fun (_, s, l) => (c, l.foldl handle s)

end Mflt.WifiJoin
