import Verif.Model.NetMetrics

/-!
# Specification: metrics of network stacks
-/

namespace Mflt.Spec.NetMetrics

/-! ## Counters -/

/-- What was counted in each interval, from the totals at their ends. -/
def differences : Nat → List Nat → List Nat
  | _, [] => []
  | p, t :: ts => (t - p) :: differences t ts

/-- Totals grow; no more than 32 bits in one interval; and a counter of fewer than 32 bits (`w`) does not begin anew. -/
def Countable (w : Nat) : Nat → List Nat → Prop
  | _, [] => True
  | p, t :: ts => p ≤ t ∧ t - p < 2 ^ 32 ∧ (w < 32 → t / 2 ^ w = p / 2 ^ w) ∧ Countable w t ts

/-- The true totals of a protocol. -/
structure Totals where
  tx : Nat
  rx : Nat
  drop : Nat

/-- What counters of `w` bits show. -/
def Totals.shown (w : Nat) (t : Totals) : Mflt.NetMetrics.Proto :=
  ⟨UInt32.ofNat (t.tx % 2 ^ w), UInt32.ofNat (t.rx % 2 ^ w), UInt32.ofNat (t.drop % 2 ^ w)⟩

/-! ## Memory of Mbed TLS -/

/-- The calls of Mbed TLS; `heap` is what the heap answers to the size it is asked for. -/
inductive Op
  | calloc (n size : Nat) (heap : Nat → Option Nat)
  | free (ptr : Nat)

/-- Their results: a pointer, or what was given back to the heap. -/
inductive Out
  | ptr (p : Nat)
  | freed (addr : Option Nat)
  deriving DecidableEq, Repr

/-- Pointers in use and the bytes that were asked for. -/
abbrev Live := List (Nat × Nat)

def Live.bytes (l : Live) : Nat := (l.map (·.2)).sum

/-- The histories: `k` extra bytes are put in front of what is asked for. The heap answers with memory that is not in
use; Mbed TLS frees what it has; no request overflows, and less than 2 GiB are in use. -/
def Legal (k : Nat) : Live → List Op → Prop
  | _, [] => True
  | l, .calloc n size heap :: ops =>
    n * size + k < 2 ^ 32 ∧ l.bytes + n * size < 2 ^ 31 ∧
    match heap (n * size + k) with
    | none => Legal k l ops
    | some a => 0 < a ∧ (∀ x ∈ l, x.1 + x.2 ≤ a ∨ a + (n * size + k) + k ≤ x.1) ∧ Legal k (l ++ [(a + k, n * size)]) ops
  | l, .free p :: ops => if p = 0 then Legal k l ops else p ∈ l.map (·.1) ∧ Legal k (l.filter fun x => x.1 ≠ p) ops

/-- What Mbed TLS and the heap should see; the pointers in use at the end; the most bytes in use at a time. -/
def meant (k : Nat) : Live → Nat → List Op → List Out × Live × Nat
  | l, peak, [] => ([], l, peak)
  | l, peak, .calloc n size heap :: ops =>
    match heap (n * size + k) with
    | none => let r := meant k l peak ops; (.ptr 0 :: r.1, r.2)
    | some a => let r := meant k (l ++ [(a + k, n * size)]) (max peak (l.bytes + n * size)) ops; (.ptr (a + k) :: r.1, r.2)
  | l, peak, .free p :: ops =>
    if p = 0 then let r := meant k l peak ops; (.freed none :: r.1, r.2)
    else let r := meant k (l.filter fun x => x.1 ≠ p) peak ops; (.freed (some (p - k)) :: r.1, r.2)

/-! ## Signal strength -/

/-- The weakest signal, if one was below -10 dBm. -/
def weakest (rs : List Int) : Option Int := (rs.filter fun r => r < -10).min?

/-- What the driver measured. -/
def measured : List Mflt.NetMetrics.WifiOp → List Int
  | [] => []
  | .measure r :: ops => r :: measured ops
  | _ :: ops => measured ops

/-! ## The access point -/

/-- The newest standard. -/
def newest (p : Mflt.NetMetrics.Phy) : Mflt.NetMetrics.Standard :=
  if p.ax then .ax else if p.ac then .ac else if p.n then .n else if p.a then .a else if p.g then .g
  else if p.b then .b else .unknown

/-- The value of a hexadecimal digit. -/
def digit (c : UInt8) : Option Nat :=
  if 48 ≤ c.toNat ∧ c.toNat ≤ 57 then some (c.toNat - 48)
  else if 97 ≤ c.toNat ∧ c.toNat ≤ 102 then some (c.toNat - 87)
  else none

/-- Reading `xx:xx:xx`. -/
def readOui : Bytes → Option (Nat × Nat × Nat)
  | [a, b, 58, c, d, 58, e, f] =>
    (digit a).bind fun a => (digit b).bind fun b => (digit c).bind fun c => (digit d).bind fun d =>
      (digit e).bind fun e => (digit f).map fun f => (a * 16 + b, c * 16 + d, e * 16 + f)
  | _ => none

/-! ## Connectivity -/

/-- The time during which `up` held of the events so far. -/
def timeWhile {ε : Type} (up : List ε → Bool) (past : List ε) : List (ε × Nat) → Nat
  | [] => 0
  | (e, ms) :: rest => (if up (past ++ [e]) then ms else 0) + timeWhile up (past ++ [e]) rest

open Mflt.NetMetrics (Lte Sta)

/-- The modem is registered: of the events that say whether it is, the last one says so. -/
def registered (es : List Lte) : Bool :=
  match (es.filter fun e => e ≠ .reg .other ∧ e ≠ .mode .other ∧ e ≠ .mode .normal ∧ e ≠ .mode .activateLte).getLast? with
  | some (.reg .home) => true
  | some (.reg .roaming) => true
  | _ => false

/-- The modem is switched on: the last change of its mode was to a mode with LTE. -/
def lteOn (es : List Lte) : Bool :=
  match (es.filter fun e => e ∈ [Lte.mode .normal, .mode .activateLte, .mode .powerOff, .mode .offline, .mode .deactivateLte]).getLast? with
  | some (.mode .normal) => true
  | some (.mode .activateLte) => true
  | _ => false

/-- The station is connected: the last of the events that say so. -/
def staConnected (es : List Sta) : Bool :=
  (es.filter fun e => e = .connected ∨ e = .disconnected).getLast? = some .connected

/-- The station was started, and not stopped since. -/
def staOn (es : List Sta) : Bool :=
  (es.filter fun e => e = .start ∨ e = .stop).getLast? = some .start

end Mflt.Spec.NetMetrics

namespace Mflt.NetMetrics

open Spec.NetMetrics (Op Out)

/-- A history of calls on the model. -/
def tlsRun (overhead : Nat) : Tls → List Op → Option (List Out × Tls)
  | s, [] => some ([], s)
  | s, .calloc n size heap :: ops =>
    (wrapCalloc overhead s n size heap).bind fun r => (tlsRun overhead r.2 ops).map fun q => (.ptr r.1 :: q.1, q.2)
  | s, .free p :: ops =>
    (wrapFree overhead s p).bind fun r => (tlsRun overhead r.2 ops).map fun q => (.freed r.1 :: q.1, q.2)

/-- What the metrics say at the end of intervals. -/
def wifiBeats : Wifi → List (List WifiOp) → List (Option Int)
  | _, [] => []
  | s, ops :: rest =>
    let s := ops.foldl (fun s op => (wifiStep s op).2) s
    (wifiBeat s).1 :: wifiBeats (wifiBeat s).2 rest

end Mflt.NetMetrics
