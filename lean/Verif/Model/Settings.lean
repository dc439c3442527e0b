import Verif.Spec.Settings

/-!
# Model of the settings of the ESP32 demo application

`examples/esp32/apps/memfault_demo_app/main/settings.c`. NVS (ESP-IDF's storage of keys and values) is modelled by what
its documentation says: values that were set but not committed may or may not be there after a restart. Simplifications:
the console commands and logs are left out, as are values of the wrong kind in NVS.
-/

namespace Mflt.Settings

open Spec.Settings

/-- The contents of NVS: names and values, the latest first. -/
abbrev Store := List (List Char × Value)

/-- What is read now, what is there after a restart for certain, and what happened (the latest first). -/
structure St where
  cur : Store
  saved : Store
  log : List Ev
  deriving Repr, DecidableEq

def fresh : St := ⟨[], [], []⟩

/-- `settings_table`, settings.c:32-89: name and default value of a key; `prv_settings_key_is_valid`, settings.c:91-93. -/
def table (d : Build) (key : Nat) : Option (List Char × Value) :=
  [("wifi_ssid".toList, .text []), ("wifi_password".toList, .text []), ("project_key".toList, .text d.projectKey),
    ("led_brightness".toList, .number 5), ("led_blink_ms".toList, .number 500), ("chunks_url".toList, .text d.chunksHost),
    ("device_url".toList, .text d.deviceHost)][key]?

/-- The results of `nvs_flash_init`: usable, or one of the two errors after which NVS is erased, or another error. -/
inductive Init
  | ok
  | erase
  | error
  deriving Repr, DecidableEq

/-- What NVS does while it is opened: the results of both calls of `nvs_flash_init`, of `nvs_flash_erase` and of
`nvs_open`. -/
structure Open where
  first : Init
  erases : Bool
  second : Init
  opened : Int
  deriving Repr, DecidableEq

/-- `prv_open_nvs`, settings.c:95-114. No result: `ESP_ERROR_CHECK` ends the program. -/
def openNvs (e : Open) (s : St) : Option Int × St :=
  match e.first with
  | .ok => (some e.opened, s)
  | .error => (none, s)
  | .erase =>
    if e.erases then
      let s := ⟨[], [], .erased :: s.log⟩
      if e.second = .ok then (some e.opened, s) else (none, s)
    else (none, s)

/-- `memcpy` to the start of a buffer. `none`: out of bounds. -/
def copy (src buf : Bytes) : Option Bytes :=
  if src.length ≤ buf.length then some (src ++ buf.drop src.length) else none

/-- `strncpy(buf, src, n)`: exactly `n` bytes are written. `none`: out of bounds. -/
def strncpy (src : Bytes) (n : Nat) (buf : Bytes) : Option Bytes :=
  if n ≤ buf.length then some (src.take n ++ List.replicate (n - src.length) 0 ++ buf.drop n) else none

/-- An `int32_t` in memory. -/
def bytes (v : BitVec 32) : Bytes :=
  [BitVec.ofNat 8 v.toNat, BitVec.ofNat 8 (v.toNat / 256), BitVec.ofNat 8 (v.toNat / 65536),
    BitVec.ofNat 8 (v.toNat / 16777216)]

/-- `nvs_get_str` and `nvs_get_i32` for a value that is there: result, buffer and length (`ESP_ERR_NVS_INVALID_LENGTH`
is 0x110c). -/
def nvsGet (v : Value) (buf : Bytes) (len : Nat) : Option (Int × Bytes × Nat) :=
  match v with
  | .text s =>
    if len < s.length + 1 then some (0x110c, buf, s.length + 1)
    else (copy (s ++ [0]) buf).map fun b => (0, b, s.length + 1)
  | .number v => (copy (bytes v) buf).map fun b => (0, b, len)

/-- Loading the default, settings.c:151-167: the length minus one is computed in 32 bits. -/
def loadDefault (v : Value) (buf : Bytes) (len : Nat) : Option (Int × Bytes × Nat) :=
  match v with
  | .text s => (strncpy s ((len + (2 ^ 32 - 1)) % 2 ^ 32) buf).map fun b => (0, b, s.length)
  | .number v => (copy (bytes v) buf).map fun b => (0, b, len)

/-- `settings_get`, settings.c:119-178: result, buffer and length; no result: the program ended. `read`: an error of NVS
other than a missing key. `none`: out of bounds. `ESP_ERR_INVALID_ARG` is 0x102. -/
def settingsGet (d : Build) (e : Open) (read : Int) (key : Nat) (buf : Bytes) (len : Nat) (s : St) :
    Option (Option Int × Bytes × Nat × St) :=
  match table d key with
  | none => some (some 0x102, buf, len, s)
  | some (name, dflt) =>
    match openNvs e s with
    | (none, s) => some (none, buf, len, s)
    | (some r, s) =>
      if r ≠ 0 then some (some r, buf, len, s)
      else if read ≠ 0 then some (some read, buf, len, s)
      else
        (match s.cur.lookup name with
          | some v => nvsGet v buf len
          | none => loadDefault dflt buf len).map fun (r, b, n) => (some r, b, n, s)

/-- `settings_set`, settings.c:183-236. `write`, `commit`: the results of `nvs_set_str` or `nvs_set_i32` and of
`nvs_commit`. -/
def settingsSet (d : Build) (e : Open) (write commit : Int) (key : Nat) (v : Value) (s : St) : Option Int × St :=
  match table d key with
  | none => (some 0x102, s)
  | some (name, _) =>
    match openNvs e s with
    | (none, s) => (none, s)
    | (some r, s) =>
      if r ≠ 0 then (some r, s)
      else
        let s := if write = 0 then { s with cur := (name, v) :: s.cur } else s
        let s := if commit = 0 then { s with saved := s.cur } else s
        (some commit, s)

/-- What happens: a setting is set or read, or the device restarts (`kept`: what was not committed is there). A program
that ended is a restart. -/
inductive Op
  | set (e : Open) (write commit : Int) (key : Nat) (v : Value)
  | get (e : Open) (read : Int) (key : Nat) (buf : Bytes) (len : Nat)
  | restart (kept : Bool)
  deriving Repr, DecidableEq

def restart (kept : Bool) (s : St) : St :=
  { s with cur := if kept then s.cur else s.saved, log := .restarted :: s.log }

def step (d : Build) (s : St) : Op → Option St
  | .set e w c key v =>
    let (r, s) := settingsSet d e w c key v s
    match r with
    | none => some (restart true s)
    | some r => some { s with log := .set key v r :: s.log }
  | .get e rd key buf len =>
    (settingsGet d e rd key buf len s).map fun (r, _, _, s) => match r with
      | none => restart true s
      | some _ => s
  | .restart kept => some (restart kept s)

/-- A run. -/
def run (d : Build) : St → List Op → Option St
  | s, [] => some s
  | s, o :: os => (step d s o).bind fun s => run d s os

end Mflt.Settings
