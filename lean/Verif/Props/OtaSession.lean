import Verif.Model.OtaSession

/-!
# C120: the metrics of an update of the ESP32 demo application
-/

namespace Mflt.Props

open Spec.OtaSession Mflt.OtaSession

namespace OtaSessionAux

/-- All that was counted since boot. -/
def total (f : Op → Nat) : List Op → Nat
  | [] => 0
  | o :: l => f o + total f l

structure Good (w : Nat) (l : List Op) (s : St) : Prop where
  tx : s.xmit = total packetsSent l % 2 ^ w
  rx : s.recv = total packetsReceived l % 2 ^ w
  le1 : since packetsSent l ≤ total packetsSent l
  le2 : since packetsReceived l ≤ total packetsReceived l
  ptx : s.prevTx = (total packetsSent l - since packetsSent l) % 2 ^ w
  prx : s.prevRx = (total packetsReceived l - since packetsReceived l) % 2 ^ w
  ts : s.tlsSent = since bytesSent l % 2 ^ 32
  tr : s.tlsRecv = since bytesReceived l % 2 ^ 32

theorem good_step {w : Nat} {l : List Op} {s : St} (h : Good w l s) (o : Op) : Good w (o :: l) (step w s o) := by
  obtain ⟨h1, h2, h3, h4, h5, h6, h7, h8⟩ := h
  cases o with
  | start =>
    constructor <;> simp [step, start, since, total, packetsSent, packetsReceived, h1, h2]
  | packets a b =>
    constructor
    · simp only [step, total, packetsSent, h1]
      rw [Nat.mod_add_mod, Nat.add_comm]
    · simp only [step, total, packetsReceived, h2]
      rw [Nat.mod_add_mod, Nat.add_comm]
    · simp only [since, total]; omega
    · simp only [since, total]; omega
    · simp only [step, since, total, h5]
      rw [Nat.add_sub_add_left]
    · simp only [step, since, total, h6]
      rw [Nat.add_sub_add_left]
    · simpa only [step, since, bytesSent, Nat.zero_add] using h7
    · simpa only [step, since, bytesReceived, Nat.zero_add] using h8
  | sent r =>
    simp only [step, netSend]
    split
    · constructor <;> simp only [since, total, packetsSent, packetsReceived, bytesReceived, bytesSent, Nat.zero_add] <;> try assumption
      rw [h7, Nat.mod_add_mod, Nat.add_comm]
    · have : r.toNat = 0 := by omega
      constructor <;> simp only [since, total, packetsSent, packetsReceived, bytesReceived, bytesSent, Nat.zero_add, this] <;> assumption
  | received r =>
    simp only [step, netRecv]
    split
    · constructor <;> simp only [since, total, packetsSent, packetsReceived, bytesReceived, bytesSent, Nat.zero_add] <;> try assumption
      rw [h8, Nat.mod_add_mod, Nat.add_comm]
    · have : r.toNat = 0 := by omega
      constructor <;> simp only [since, total, packetsSent, packetsReceived, bytesReceived, bytesSent, Nat.zero_add, this] <;> assumption
  | finish e r =>
    constructor <;> simp only [step, finish, since, total, packetsSent, packetsReceived, bytesReceived, bytesSent, Nat.zero_add] <;> assumption

theorem good_run {w : Nat} (ops : List Op) : Good w ops.reverse (run w fresh ops) := by
  suffices h : ∀ (ops l : List Op) (s : St), Good w l s → Good w (ops.reverse ++ l) (run w s ops) by
    have := h ops [] fresh ⟨by simp [fresh, total], by simp [fresh, total], by simp [since], by simp [since],
      by simp [fresh, total], by simp [fresh, total], by simp [fresh, since], by simp [fresh, since]⟩
    simpa using this
  intro ops
  induction ops with
  | nil => intro l s h; simpa [run] using h
  | cons o os ih =>
    intro l s h
    have := ih (o :: l) _ (good_step h o)
    simpa [run] using this

theorem diff32 {t d : Nat} (h : d ≤ t) : (t % 2 ^ 32 + 2 ^ 32 - (t - d) % 2 ^ 32) % 2 ^ 32 = d % 2 ^ 32 := by omega

/-- The reports of a run, given what the differences of lwIP's counters are. -/
theorem log_eq {w : Nat} {P : List Op → Prop} (hP : ∀ o l, P (o :: l) → P l)
    (hd : ∀ l s, P l → Good w l s → (s.xmit + 2 ^ 32 - s.prevTx) % 2 ^ 32 = since packetsSent l % 2 ^ 32 ∧
      (s.recv + 2 ^ 32 - s.prevRx) % 2 ^ 32 = since packetsReceived l % 2 ^ 32) :
    ∀ (l : List Op), P l → (run w fresh l.reverse).log = reports l
  | [], _ => rfl
  | o :: l, hp => by
    have ih := log_eq hP hd l (hP o l hp)
    have g := good_run (w := w) l.reverse
    rw [List.reverse_reverse] at g
    have hr : run w fresh (o :: l).reverse = step w (run w fresh l.reverse) o := by simp [run]
    rw [hr]
    cases o with
    | start => exact ih
    | packets a b => exact ih
    | sent r => simp only [step, netSend, reports]; split <;> exact ih
    | received r => simp only [step, netRecv, reports]; split <;> exact ih
    | finish e r =>
      obtain ⟨h1, h2⟩ := hd l _ (hP _ l hp) g
      simp only [step, finish, reports, h1, h2, g.ts, g.tr, ih]

end OtaSessionAux

open OtaSessionAux

/-- C120 (large counters): with lwIP's counters of 32 bits, after every history, also over wraps of all counters, each
update that ended is reported once, with its error and signal strength, and with the packets and bytes since it started
(in 32 bits). -/
theorem C120_reports (ops : List Op) : (run 32 fresh ops).log = reports ops.reverse := by
  have := log_eq (w := 32) (P := fun _ => True) (fun _ _ _ => trivial)
    (fun l s _ g => by
      rw [g.tx, g.ptx, g.rx, g.prx]
      exact ⟨diff32 g.le1, diff32 g.le2⟩) ops.reverse trivial
  rwa [List.reverse_reverse] at this

/-- Beside `C120_reports`: the counter of packets wraps during the update. -/
example : (run 32 fresh [.packets (2 ^ 32 - 5) 1, .sent 9, .start, .packets 7 2, .sent 100, .sent (-3), .received 40,
    .finish (-1) none]).log = [⟨-1, none, 7, 2, 100, 40⟩] := by decide

/-- All packets of a history. -/
def allPackets (f : Op → Nat) (ops : List Op) : Nat := (ops.map f).sum

/-- C120 (small counters): the same with lwIP's counters of 16 bits, as long as they did not wrap since boot. Missing
(false of the code): counters that wrap (`C120_false_wrap`). -/
theorem C120_reports_partial (ops : List Op) (h1 : allPackets packetsSent ops < 2 ^ 16)
    (h2 : allPackets packetsReceived ops < 2 ^ 16) : (run 16 fresh ops).log = reports ops.reverse := by
  have ht : ∀ (f : Op → Nat) (l : List Op), total f l = (l.map f).sum := by
    intro f l
    induction l with
    | nil => rfl
    | cons o l ih => simp [total, ih]
  have := log_eq (w := 16) (P := fun l => total packetsSent l < 2 ^ 16 ∧ total packetsReceived l < 2 ^ 16)
    (fun o l h => by simp only [total] at h; omega)
    (fun l s hp g => by
      have h3 := g.le1
      have h4 := g.le2
      rw [g.tx, g.ptx, g.rx, g.prx]
      omega) ops.reverse (by
      simp only [ht, List.map_reverse, List.sum_reverse]
      exact ⟨h1, h2⟩)
  rwa [List.reverse_reverse] at this

/-- C120 (false if small counters wrap): 7 packets are reported as 4294901767. -/
theorem C120_false_wrap : ¬ ∀ ops : List Op, (run 16 fresh ops).log = reports ops.reverse := by
  intro h
  have := h [.packets 65531 0, .start, .packets 7 0, .finish 0 none]
  exact absurd this (by decide)

end Mflt.Props
