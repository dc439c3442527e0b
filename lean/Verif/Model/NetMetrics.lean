import Verif.Model.MetricsCollect

/-!
# Metrics of network stacks

`ports/lwip/memfault_lwip_metrics.c`, `ports/mbedtls/memfault_mbedtls_metrics.c`, the network part of
`ports/zephyr/common/memfault_platform_metrics.c` and of
`ports/esp_idf/memfault/common/memfault_platform_metrics.c`, and
`ports/zephyr/ncs/src/memfault_platform_metrics_connectivity_lte.c`. `none` is undefined behaviour. Setting a metric
is the value that is set; adding to and timing metrics is C34 and C35.
-/

namespace Mflt.NetMetrics

/-! ## lwIP -/

/-- The counters of a protocol (`xmit`, `recv` and `drop` of `struct stats_proto`), as they are read, or the values
of `s_..._tx_prev`, `s_..._rx_prev` and `s_..._drop_prev`, or the metrics set. -/
structure Proto where
  tx : UInt32
  rx : UInt32
  drop : UInt32
  deriving Repr, DecidableEq

/-- The macro `SET_PROTOCOL_METRICS`, memfault_lwip_metrics.c:19-32: the metrics and the new previous values. -/
def setProtocol (prev now : Proto) : Proto × Proto :=
  let d : Proto := ⟨now.tx - prev.tx, now.rx - prev.rx, now.drop - prev.drop⟩
  (d, ⟨prev.tx + d.tx, prev.rx + d.rx, prev.drop + d.drop⟩)

/-- `memfault_lwip_heartbeat_collect_data`, memfault_lwip_metrics.c:34-48, for TCP and UDP. -/
def lwipCollect (prev now : Proto × Proto) : (Proto × Proto) × (Proto × Proto) :=
  (((setProtocol prev.1 now.1).1, (setProtocol prev.2 now.2).1), ((setProtocol prev.1 now.1).2, (setProtocol prev.2 now.2).2))

/-- The metrics of successive heartbeats, which read these counters. The static variables are zero at first. -/
def lwipBeats : Proto × Proto → List (Proto × Proto) → List (Proto × Proto)
  | _, [] => []
  | prev, now :: rest => (lwipCollect prev now).1 :: lwipBeats (lwipCollect prev now).2 rest

/-! ## Mbed TLS -/

/-- A block of the heap: its address, its size, and the `requested_size` in its first bytes. -/
structure Block where
  addr : Nat
  size : Nat
  requested : Nat
  deriving Repr, DecidableEq

/-- `s_mbedtls_metrics`, memfault_mbedtls_metrics.c:35, and the blocks that are allocated. -/
structure Tls where
  used : BitVec 32
  max : BitVec 32
  blocks : List Block
  deriving Repr, DecidableEq

/-- `__wrap_mbedtls_calloc`, memfault_mbedtls_metrics.c:41-66. `size_t` has 32 bits; `overhead` is
`ALLOC_METADATA_OVERHEAD`; `real` is what `__real_mbedtls_calloc` answers to the size it is asked for. The result is
the pointer (0 is `NULL`). Storing the size in a block of less than 4 bytes is out of bounds. -/
def wrapCalloc (overhead : Nat) (s : Tls) (n size : Nat) (real : Nat → Option Nat) : Option (Nat × Tls) :=
  let requested := n * size % 2 ^ 32
  let total := (requested + overhead) % 2 ^ 32
  match real total with
  | none => some (0, s)
  | some addr =>
    if total < 4 then none
    else
      let used := s.used + BitVec.ofNat 32 requested
      some (addr + overhead,
        ⟨used, if s.max.toInt < used.toInt then used else s.max, s.blocks ++ [⟨addr, total, requested⟩]⟩)

/-- `__wrap_mbedtls_free`, memfault_mbedtls_metrics.c:72-86. Freeing anything that is not the start of a block is
undefined. The result is the state and what was given to `__real_mbedtls_free`. -/
def wrapFree (overhead : Nat) (s : Tls) (ptr : Nat) : Option (Option Nat × Tls) :=
  if ptr = 0 then some (none, s)
  else
    (s.blocks.find? fun b => b.addr + overhead = ptr).map fun b =>
      (some b.addr, { s with used := s.used - BitVec.ofNat 32 b.requested, blocks := s.blocks.erase b })

/-! ## Statistics of Zephyr's network stack -/

/-- One heartbeat of `prv_collect_ip_statistics`, memfault_platform_metrics.c:57-80 (Zephyr), on a counter `c` of
`struct net_stats`: `fails` if the statistics cannot be read, `during` is counted between reading and resetting them.
The result is the metric set and the counter. -/
def ipStatistics (fails : Bool) (c during : Nat) : Option Nat × Nat :=
  if fails then (none, c + during) else (some (c % 2 ^ 32), 0)

/-- Heartbeats: what is counted before each, whether the statistics can be read, what is counted meanwhile. -/
def ipBeats : Nat → List (Nat × Bool × Nat) → List (Option Nat) × Nat
  | c, [] => ([], c)
  | c, (before, fails, during) :: rest =>
    let r := ipStatistics fails (c + before) during
    let q := ipBeats r.2 rest
    (r.1 :: q.1, q.2)

/-- `prv_collect_cpu_temp`, memfault_platform_metrics.c:141-173 (Zephyr): the metric for a reading of `val1` degrees
and `val2` millionths. -/
def cpuTemp (val1 val2 : Int) : Int := val1 * 10 + val2.tdiv 100000

/-! ## Signal strength, ESP-IDF -/

/-- `s_min_rssi`, memfault_platform_metrics.c:52 (ESP-IDF), and the threshold of the Wi-Fi driver, if it waits for a
weaker signal. -/
structure Wifi where
  min : Int
  threshold : Option Int
  deriving Repr, DecidableEq

/-- What happens: the station connects, the driver measures the signal, the two parts of a heartbeat. -/
inductive WifiOp
  | connected
  | measure (rssi : Int)
  | report
  | clear
  deriving Repr, DecidableEq

/-- The case WIFI_EVENT_STA_BSS_RSSI_LOW of `metric_event_handler`, memfault_platform_metrics.c:80-125. -/
def rssiLow (s : Wifi) (rssi : Int) : Wifi :=
  let m := if rssi < s.min then rssi else s.min
  ⟨m, some m⟩

/-- The driver raises the event when the signal is below the threshold, once for each time the threshold is set;
WIFI_EVENT_STA_CONNECTED of `metric_event_handler`, memfault_platform_metrics.c:80-125, sets the threshold;
`report` and `clear` are the lines 208-209 and 210-216 of `prv_collect_wifi_metrics`, of which the second is executed
if the first set the metric. -/
def wifiStep (s : Wifi) : WifiOp → Option Int × Wifi
  | .connected => (none, { s with threshold := some (-10) })
  | .measure rssi =>
    match s.threshold with
    | some t => (none, if rssi < t then rssiLow { s with threshold := none } rssi else s)
    | none => (none, s)
  | .report => (if s.min ≤ -10 then some s.min else none, s)
  | .clear => (none, ⟨0, some (-10)⟩)

/-- The lines 208-216 of `prv_collect_wifi_metrics` without interruption. -/
def wifiBeat (s : Wifi) : Option Int × Wifi :=
  match (wifiStep s .report).1 with
  | some m => (some m, (wifiStep s .clear).2)
  | none => (none, s)

/-! ## The access point, ESP-IDF -/

/-- The bits of `wifi_ap_record_t`. -/
structure Phy where
  b : Bool
  g : Bool
  n : Bool
  a : Bool
  ac : Bool
  ax : Bool
  deriving Repr, DecidableEq

/-- The text of `wifi_standard_version`. -/
inductive Standard
  | unknown | b | g | a | n | ac | ax
  deriving Repr, DecidableEq

/-- `prv_collect_wifi_version`, memfault_platform_metrics.c:180-205 (ESP-IDF), from version 5.3 on. -/
def wifiVersion (p : Phy) : Standard :=
  if p.n then .n else if p.ac then .ac else if p.a then .a else if p.ax then .ax else if p.g then .g
  else if p.b then .b else .unknown

/-- A hexadecimal digit, as printed by `%02x`. -/
def hexDigit (n : Nat) : UInt8 := if n < 10 then UInt8.ofNat (48 + n) else UInt8.ofNat (87 + n)

/-- `%02x`. -/
def hex2 (b : UInt8) : Bytes := [hexDigit (b.toNat / 16), hexDigit (b.toNat % 16)]

/-- The text of `prv_collect_oui` and of `prv_record_iface_ap_oui`: `%02x:%02x:%02x` in 9 bytes with the terminator. -/
def ouiText (bssid : Bytes) : Bytes :=
  hex2 (bssid.getD 0 0) ++ [58] ++ hex2 (bssid.getD 1 0) ++ [58] ++ hex2 (bssid.getD 2 0)

/-- `prv_collect_oui`, memfault_platform_metrics.c:134-144 (ESP-IDF): the metric set, if any, and
`s_memfault_ap_bssid`. -/
def collectOui (last bssid : Bytes) : Option Bytes × Bytes :=
  if last = bssid then (none, last) else (some (ouiText bssid), bssid)

/-! ## Connectivity -/

open Collect (ConnState)

/-- The timers `connectivity_expected_time_ms` and `connectivity_connected_time_ms`: whether they run, and their
milliseconds. -/
structure Timers where
  expected : Bool
  connected : Bool
  expectedMs : Nat
  connectedMs : Nat
  deriving Repr, DecidableEq

/-- `memfault_metrics_connectivity_connected_state_change`, memfault_metrics_connectivity.c:40-67. -/
def change (t : Timers) : ConnState → Timers
  | .stopped => { t with connected := false, expected := false }
  | .started => { t with expected := true }
  | .connected => { t with expected := true, connected := true }
  | .lost => { t with expected := true, connected := false }

/-- Time passes (see C35 for the timers). -/
def elapse (t : Timers) (ms : Nat) : Timers :=
  { t with
    expectedMs := t.expectedMs + if t.expected then ms else 0
    connectedMs := t.connectedMs + if t.connected then ms else 0 }

/-- `enum lte_lc_nw_reg_status`; the others are ignored. -/
inductive Reg
  | notRegistered | home | searching | denied | unknown | roaming | uiccFail | other
  deriving Repr, DecidableEq

/-- `enum lte_lc_func_mode`; the others are ignored. -/
inductive Mode
  | powerOff | normal | offline | deactivateLte | activateLte | other
  deriving Repr, DecidableEq

/-- `prv_memfault_lte_event_handler`, memfault_platform_metrics_connectivity_lte.c:24-55. -/
def regState : Reg → Option ConnState
  | .home | .roaming => some .connected
  | .notRegistered | .searching | .denied | .unknown | .uiccFail => some .lost
  | .other => none

/-- `prv_memfault_lte_mode_cb`, memfault_platform_metrics_connectivity_lte.c:60-81. -/
def modeState : Mode → Option ConnState
  | .normal | .activateLte => some .started
  | .powerOff | .offline | .deactivateLte => some .stopped
  | .other => none

/-- What the modem tells. -/
inductive Lte
  | reg (r : Reg)
  | mode (m : Mode)
  deriving Repr, DecidableEq

def lteState : Lte → Option ConnState
  | .reg r => regState r
  | .mode m => modeState m

/-- The Wi-Fi events of ESP-IDF. -/
inductive Sta
  | start | stop | connected | disconnected | other
  deriving Repr, DecidableEq

/-- The calls in `metric_event_handler`, memfault_platform_metrics.c:80-125 (ESP-IDF). -/
def staState : Sta → Option ConnState
  | .start => some .started
  | .connected => some .connected
  | .disconnected => some .lost
  | .stop | .other => none

/-- A history: each event is followed by some milliseconds. -/
def timersAfter {ε : Type} (state : ε → Option ConnState) : Timers → List (ε × Nat) → Timers
  | t, [] => t
  | t, (e, ms) :: rest =>
    timersAfter state (elapse (match state e with | some c => change t c | none => t) ms) rest

end Mflt.NetMetrics
