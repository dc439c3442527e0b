import Verif.Model.DataExport

/-!
# Model of what the ports do with log messages of the SDK

Modelled code: `memfault_platform_log` and `memfault_platform_log_raw` of
`ports/dialog/{da145xx,da1469x}/memfault_platform_debug_log.c`, `ports/esp8266_sdk/memfault/memfault_platform_core.c`,
`ports/esp_idf/memfault/common/memfault_platform_debug_log.c`, `ports/zephyr/common/memfault_platform_debug_log.c`, and the
hook of ESP-IDF's log in `ports/esp_idf/memfault/common/memfault_platform_core.c`.

A message is the text its format and arguments stand for. The environment: the lines ESP-IDF's and Zephyr's logs write
for a message, with a time stamp, if its level is enabled. Each message is written to the console as a whole.
-/

namespace Mflt.PortLog

/-- The ports. `zephyrPrintk` is Zephyr with `CONFIG_MEMFAULT_PLATFORM_LOG_FALLBACK_TO_PRINTK`. -/
inductive Port
  | da145xx | da1469x | esp8266 | espIdf | zephyr | zephyrPrintk
  deriving Repr, DecidableEq

/-- What is configured: `MEMFAULT_DEBUG_LOG_BUFFER_SIZE_BYTES` (at least 1), whether there is a console (`CFG_PRINTF`,
`CONFIG_RETARGET`), and the largest level ESP-IDF's or Zephyr's log shows (1 error, 2 warning, 3 info, 4 debug). -/
structure Cfg where
  bufSize : Nat
  console : Bool
  shown : Nat
  deriving Repr, DecidableEq

/-- The string in the buffer after `vsnprintf(log_buf, sizeof(log_buf), …)`, as "%s" reads it. -/
def inBuf (n : Nat) (text : Bytes) : Bytes := (text.take (n - 1)).takeWhile (· ≠ 0)

def ascii (s : String) : Bytes := s.toUTF8.data.toList

/-- The letter of da145xx/memfault_platform_debug_log.c:30-50, da1469x/…:26-46, and of ESP_LOGD, ESP_LOGI, ESP_LOGW,
ESP_LOGE. -/
def letter : Nat → Option Bytes
  | 0 => some (ascii "D")
  | 1 => some (ascii "I")
  | 2 => some (ascii "W")
  | 3 => some (ascii "E")
  | _ => none

/-- Zephyr's names of the levels, zephyr/common/memfault_platform_debug_log.c:50-53, and the beginning of the text,
62-82: other levels are shown as errors. -/
def zephyrLevel : Nat → Bytes × Nat × Bytes
  | 0 => (ascii "dbg", 4, [])
  | 1 => (ascii "inf", 3, [])
  | 2 => (ascii "wrn", 2, [])
  | 3 => (ascii "err", 1, [])
  | _ => (ascii "err", 1, ascii "??? ")

/-- `memfault_platform_log`: da145xx/memfault_platform_debug_log.c:22-57, da1469x/memfault_platform_debug_log.c:18-53,
esp8266_sdk/memfault/memfault_platform_core.c:37-65, esp_idf/memfault/common/memfault_platform_debug_log.c:24-52,
zephyr/common/memfault_platform_debug_log.c:28-85. What is written to the console at time `ts`. -/
def log (p : Port) (c : Cfg) (ts : Bytes) (level : Nat) (text : Bytes) : Bytes :=
  let s := inBuf c.bufSize text
  match p with
  | .da145xx | .da1469x =>
    if !c.console then []
    else
      match letter level with
      | none => []
      | some l => ascii "[" ++ l ++ ascii "] MFLT: " ++ s ++ ascii "\r\n"
  | .esp8266 | .espIdf =>
    match letter level with
    | none => []
    | some l => if 4 - level ≤ c.shown then l ++ ascii " (" ++ ts ++ ascii ") mflt: " ++ s ++ ascii "\n" else []
  | .zephyr =>
    let (name, l, q) := zephyrLevel level
    if l ≤ c.shown then ascii "[" ++ ts ++ ascii "] <" ++ name ++ ascii "> mflt: " ++ q ++ s ++ ascii "\r\n" else []
  | .zephyrPrintk =>
    let (name, _, q) := zephyrLevel level
    ascii "<" ++ name ++ ascii "> mflt: " ++ q ++ s ++ ascii "\n"

/-- `memfault_platform_log_raw`: da145xx/memfault_platform_debug_log.c:59-69, da1469x/memfault_platform_debug_log.c:55-65,
esp8266_sdk/memfault/memfault_platform_core.c:67-75, esp_idf/memfault/common/memfault_platform_debug_log.c:54-62,
zephyr/common/memfault_platform_debug_log.c:87-100. -/
def raw (p : Port) (c : Cfg) (text : Bytes) : Bytes :=
  match p with
  | .da145xx => if c.console then text ++ ascii "\r\n" else []
  | .da1469x => if c.console then text ++ ascii "\n" else []
  | .esp8266 | .espIdf => text ++ ascii "\n"
  | .zephyr | .zephyrPrintk => inBuf c.bufSize text ++ ascii "\n"

/-- `memfault_data_export_base64_encoded_chunk`, memfault_data_export.c:17-19: the line of a chunk as a message with level
info. On these ports `MEMFAULT_LOG_INFO` is `memfault_platform_log`, debug_log.h:46-55 with `MEMFAULT_SDK_LOG_SAVE_DISABLE`
or without a log buffer. -/
def exportLine (p : Port) (c : Cfg) (ts : Bytes) (line : Bytes) : Bytes := log p c ts 1 line

/-- What is logged: a chunk that is exported, or a message of the SDK. -/
inductive Op
  | chunk (bytes : Bytes)
  | message (level : Nat) (text : Bytes)
  deriving Repr, DecidableEq

/-- What is written to the console one after the other, each with its time stamp. `stack`: what was in the buffer of
`prv_memfault_data_export_chunk` before. -/
def run (p : Port) (c : Cfg) (max : Nat) (stack : Bytes) : List (Bytes × Op) → Option Bytes
  | [] => some []
  | (ts, .chunk b) :: ops =>
    (DataExport.exportChunk max stack b).bind fun line =>
      (run p c max stack ops).map fun out => exportLine p c ts line ++ out
  | (ts, .message level text) :: ops => (run p c max stack ops).map fun out => log p c ts level text ++ out

/-- A line saved with `memfault_log_save_preformatted`. -/
structure Saved where
  level : Nat
  text : Bytes
  deriving Repr, DecidableEq

/-- `memfault_esp_port_vprintf_log_hook`, esp_idf/memfault/common/memfault_platform_core.c:176-197, with
`MEMFAULT_LOG_MAX_LINE_SAVE_LEN` `maxLine` at least 1: what is returned and what is saved. `text` is a line of ESP-IDF's log,
shorter than 2^31 bytes; `none` is an access outside of the buffer. -/
def hook (maxLine : Nat) (text : Bytes) : Option (Int × Option Saved) :=
  let space := maxLine + 1
  let buf := text.take (space - 1) ++ [0]
  let rv := text.length
  if rv ≤ 0 then some (-1, none)
  else if rv = 0 ∧ buf[0]? = some 10 then some (0, none)
  else
    let n := if rv ≥ space then space - 1 else rv
    if n ≤ buf.length then some (rv, some ⟨1, buf.take n⟩) else none

/-- `prv_memfault_log_wrapper`, esp_idf/memfault/common/memfault_platform_core.c:207-212: what is saved, and what is
written to the console. -/
def wrapper (maxLine : Nat) (text : Bytes) : Option (Option Saved × Bytes) :=
  (hook maxLine text).map fun r => (r.2, text)

end Mflt.PortLog
