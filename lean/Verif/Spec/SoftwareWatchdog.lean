import Verif.Model.SoftwareWatchdog

/-
What `watchdog.h` promises of a software watchdog, independent of the ports. Only the calls, events
and observations are shared with the model.
-/
namespace Mflt.Spec.SoftwareWatchdog
open Mflt.SoftwareWatchdog (Op Ev Obs)

/-- A watchdog: is it running, its timeout, and the time since it was started, fed or given a new
timeout; times are in ticks. -/
structure Wd where
  running : Bool
  timeout : Nat
  since : Nat
deriving Repr, DecidableEq

/-- The timeout that enabling gives, and the timeout in ticks for a request in milliseconds (`none`:
the request is refused). -/
structure Cfg where
  start : Nat
  ticks : Nat → Option Nat

/-- Whether a call succeeds and what it does. -/
def Wd.op (c : Cfg) (w : Wd) : Op → Bool × Wd
  | .enable => (true, ⟨true, c.start, 0⟩)
  | .disable => (true, { w with running := false })
  | .feed => (true, { w with since := 0 })
  | .update ms =>
    match c.ticks ms with
    | none => (false, w)
    | some t => (true, ⟨true, t, 0⟩)

/-- A stopped watchdog never fires; a running one fires when its timeout has passed since it was
last started, fed or given a new timeout. -/
def Wd.run (c : Cfg) (w : Wd) : List Ev → List Obs
  | [] => []
  | .op o :: es => .ret (w.op c o).1 :: Wd.run c (w.op c o).2 es
  | .tick :: es =>
    if w.running then
      if w.since + 1 = w.timeout then [.fired]
      else .quiet :: Wd.run c { w with since := w.since + 1 } es
    else .quiet :: Wd.run c w es

/-- The history stays within the condition `g` on calls. -/
def Within (g : Wd → Op → Prop) (c : Cfg) (w : Wd) : List Ev → Prop
  | [] => True
  | .op o :: es => g w o ∧ Within g c (w.op c o).2 es
  | .tick :: es => Within g c (if w.running then { w with since := w.since + 1 } else w) es

/-! The timeouts of the ports. -/

/-- 125 ms ticks. -/
def nrf5Cfg (startMs : Nat) : Cfg := ⟨startMs / 125, fun ms => some (ms / 125)⟩

/-- 1 ms ticks. -/
def zephyrCfg (startMs : Nat) : Cfg := ⟨startMs, fun ms => some ms⟩

/-- 4 ms ticks, at most 262 s. -/
def h7Cfg (startSecs : Nat) : Cfg :=
  ⟨startSecs * 250, fun ms => if ms ≤ 262000 then some (ms / 4) else none⟩

/-- Ticks of a clock of `hz`, at most 32 bits. -/
def s32Cfg (hz startSecs : Nat) : Cfg :=
  ⟨startSecs * hz, fun ms => if ms * hz / 1000 < 4294967296 then some (ms * hz / 1000) else none⟩

/-- 1 ms ticks: the largest power of two that is not more than the request, at most 131072. -/
def emlibCfg (startSecs : Nat) : Cfg :=
  ⟨2 ^ Nat.log2 (startSecs * 1000), fun ms => if ms ≤ 131072 then some (2 ^ Nat.log2 ms) else none⟩

/-- 10.24 ms ticks: the first tick after the request, at most `maxCount`. -/
def da1468xCfg (maxCount : Nat) : Cfg :=
  ⟨maxCount, fun ms =>
    if 0 < ms ∧ ms * 1000 / 10240 + 1 ≤ maxCount then some (ms * 1000 / 10240 + 1) else none⟩

end Mflt.Spec.SoftwareWatchdog
