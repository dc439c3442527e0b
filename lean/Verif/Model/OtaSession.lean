import Verif.Spec.OtaSession

/-!
# Model of the metrics of an update of the ESP32 demo application

`examples/esp32/apps/memfault_demo_app/main/ota_session_metrics.c`. Simplifications: the metrics of the session are a
report (sessions are modelled in `Model/MetricsSession.lean`), TLS is used by one task at a time, and the metric of Mbed
TLS's heap and the upload at the end are left out.
-/

namespace Mflt.OtaSession

open Spec.OtaSession

/-- `s_ota_session_metrics_lwip_stats_prev`, `s_ota_session_metrics_mbedtls_stats`, ota_session_metrics.c:19-27, the
counters of lwIP, and the reports (the latest first). -/
structure St where
  prevTx : Nat
  prevRx : Nat
  tlsSent : Nat
  tlsRecv : Nat
  xmit : Nat
  recv : Nat
  log : List Report
  deriving Repr, DecidableEq

def fresh : St := ⟨0, 0, 0, 0, 0, 0, []⟩

/-- `ota_session_metrics_start`, ota_session_metrics.c:29-40. -/
def start (s : St) : St := { s with prevTx := s.xmit, prevRx := s.recv, tlsSent := 0, tlsRecv := 0 }

/-- `__wrap_mbedtls_net_send`, ota_session_metrics.c:43-49. -/
def netSend (rv : Int) (s : St) : St :=
  if rv > 0 then { s with tlsSent := (s.tlsSent + rv.toNat) % 2 ^ 32 } else s

/-- `__wrap_mbedtls_net_recv`, ota_session_metrics.c:52-58. -/
def netRecv (rv : Int) (s : St) : St :=
  if rv > 0 then { s with tlsRecv := (s.tlsRecv + rv.toNat) % 2 ^ 32 } else s

/-- `ota_session_metrics_end`, ota_session_metrics.c:60-98: differences of 32 bits. -/
def finish (error : Int) (rssi : Option Int) (s : St) : St :=
  let tx := (s.xmit + 2 ^ 32 - s.prevTx) % 2 ^ 32
  let rx := (s.recv + 2 ^ 32 - s.prevRx) % 2 ^ 32
  { s with log := ⟨error, rssi, tx, rx, s.tlsSent, s.tlsRecv⟩ :: s.log }

/-- A step, with counters of lwIP of `w` bits (`STAT_COUNTER`: 32 with `LWIP_STATS_LARGE`, 16 without). -/
def step (w : Nat) (s : St) : Op → St
  | .start => start s
  | .packets tx rx => { s with xmit := (s.xmit + tx) % 2 ^ w, recv := (s.recv + rx) % 2 ^ w }
  | .sent rv => netSend rv s
  | .received rv => netRecv rv s
  | .finish e r => finish e r s

/-- A run. -/
def run (w : Nat) (s : St) (ops : List Op) : St := ops.foldl (step w) s

end Mflt.OtaSession
