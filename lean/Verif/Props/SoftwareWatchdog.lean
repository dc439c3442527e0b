import Verif.Spec.SoftwareWatchdog

/-
C81: a software watchdog fires when, and only when, it is running and its timeout has passed since it
was last started, fed or given a new timeout.
-/
namespace Mflt.Props
open Mflt.SoftwareWatchdog Mflt.Spec.SoftwareWatchdog

private theorem cons_obs {a : Obs} {x y : List Obs} (h : x = y) : a :: x = a :: y := by rw [h]

/-- A port that follows the specification call by call and tick by tick has its histories. -/
private theorem wd_sim {σ : Type} (p : Port σ) (c : Cfg) (g : Wd → Op → Prop) (R : σ → Wd → Prop)
    (hop : ∀ s w o, R s w → g w o → (p.op s o).1 = (w.op c o).1 ∧ R (p.op s o).2 (w.op c o).2)
    (hstop : ∀ s w, R s w → w.running = false → (p.tick s).1 = false ∧ R (p.tick s).2 w)
    (hrun : ∀ s w, R s w → w.running = true →
      (p.tick s).1 = decide (w.since + 1 = w.timeout) ∧
      (w.since + 1 ≠ w.timeout → R (p.tick s).2 { w with since := w.since + 1 })) :
    ∀ es s w, R s w → Within g c w es → run p s es = Wd.run c w es := by
  intro es
  induction es with
  | nil => intro s w _ _; rfl
  | cons e es ih =>
    intro s w hR hw
    cases e with
    | op o =>
      obtain ⟨h1, h2⟩ := hop s w o hR hw.1
      simp only [run, Wd.run, h1]
      rw [ih _ _ h2 hw.2]
    | tick =>
      simp only [run, Wd.run]
      simp only [Within] at hw
      cases hr : w.running with
      | false =>
        obtain ⟨h1, h2⟩ := hstop s w hR hr
        rw [h1, ih _ _ h2 (by simpa [hr] using hw)]
        simp
      | true =>
        obtain ⟨h1, h2⟩ := hrun s w hR hr
        rw [h1]
        by_cases hd : w.since + 1 = w.timeout
        · simp [hd]
        · rw [ih _ { w with since := w.since + 1 } (h2 hd) (by simpa [hr] using hw)]
          simp [hd, hr]

/-! ## nRF5 -/

/-- The nRF5 watchdog after it was enabled: for every history of feeding, disabling and waiting, and
of new timeouts that are given right after feeding. What is missing: new timeouts at other times,
timeouts under 125 ms and enabling it again (see the `C81_false_nrf5` theorems). -/
theorem C81_nrf5_partial (startMs : Nat) (h1 : 125 ≤ startMs) (h2 : startMs < 125 * 2 ^ 24)
    (es : List Ev)
    (hw : Within (fun w o => match o with
        | .enable => False
        | .update ms => w.running = true ∧ w.since = 0 ∧ 125 ≤ ms ∧ ms < 125 * 2 ^ 24
        | _ => True) (nrf5Cfg startMs) ⟨true, startMs / 125, 0⟩ es) :
    run (nrf5 startMs) {} (.op .enable :: es)
      = Wd.run (nrf5Cfg startMs) ⟨false, 0, 0⟩ (.op .enable :: es) := by
  simp only [run, Wd.run, nrf5, nrf5Op, Wd.op, nrf5Cfg]
  refine cons_obs (wd_sim _ _ _
    (fun s w => s.init = true ∧ s.running = w.running ∧ s.cc = some w.timeout ∧
      s.counter = w.since ∧ w.since < w.timeout ∧ w.timeout < 2 ^ 24) ?_ ?_ ?_ es _ _ ?_ hw)
  · intro s w o hR hg
    obtain ⟨a1, a2, a3, a4, a5, a6⟩ := hR
    cases o with
    | enable => exact hg.elim
    | disable => exact ⟨rfl, a1, rfl, a3, a4, a5, a6⟩
    | feed => exact ⟨rfl, a1, a2, a3, rfl, by simp only [Wd.op]; omega, a6⟩
    | update ms =>
      obtain ⟨g1, g2, g3, g4⟩ := hg
      have : ms / 125 < 2 ^ 24 := by omega
      refine ⟨rfl, a1, ?_, ?_, ?_, ?_, ?_⟩
      · simp only [nrf5Op, nrf5Update, Wd.op, nrf5Cfg, a2, g1]
      · simp only [nrf5Op, nrf5Update, Wd.op, nrf5Cfg]
        rw [Nat.mod_eq_of_lt this]
      · simp only [nrf5Op, nrf5Update, Wd.op, nrf5Cfg]; omega
      · simp only [Wd.op, nrf5Cfg]; omega
      · simp only [Wd.op, nrf5Cfg]; omega
  · intro s w hR hr
    obtain ⟨a1, a2, a3, a4, a5, a6⟩ := hR
    simp only [nrf5Tick, a2, hr]
    exact ⟨rfl, a1, by simp [a2, hr], a3, a4, a5, a6⟩
  · intro s w hR hr
    obtain ⟨a1, a2, a3, a4, a5, a6⟩ := hR
    simp only [nrf5Tick, a2, hr, if_true, a4]
    rw [Nat.mod_eq_of_lt (by omega : w.since + 1 < 2 ^ 24)]
    refine ⟨?_, fun hne => ⟨a1, by simp [a2, hr], a3, rfl, by omega, a6⟩⟩
    rw [a3, Bool.eq_iff_iff]
    simp only [beq_iff_eq, Option.some.injEq, decide_eq_true_eq]
    exact ⟨fun h => h.symm, fun h => h.symm⟩
  · refine ⟨rfl, rfl, ?_, rfl, by simp only; omega, by simp only; omega⟩
    simp only [nrf5Update]
    rw [Nat.mod_eq_of_lt (by omega)]
    rfl

example : Within (fun w o => match o with
        | .enable => False
        | .update ms => w.running = true ∧ w.since = 0 ∧ 125 ≤ ms ∧ ms < 125 * 2 ^ 24
        | _ => True) (nrf5Cfg 1000) ⟨true, 1000 / 125, 0⟩
    [.tick, .tick, .op .feed, .op (.update 500), .tick, .tick, .tick, .tick] := by
  simp [Within, Wd.op, nrf5Cfg]

example : run (nrf5 1000) {}
    (.op .enable :: [.tick, .tick, .op .feed, .op (.update 500), .tick, .tick, .tick, .tick])
    = [.ret true, .quiet, .quiet, .ret true, .ret true, .quiet, .quiet, .quiet, .fired] := by
  decide +kernel

/-- The nRF5 port with the automatic configuration: the software watchdog fires at least 125 ms
before the hardware watchdog. -/
theorem C81_nrf5_margin (reload secs ms : Nat) (h : nrf5StartMs true reload secs = some ms) :
    ms / 125 * 125 + 125 ≤ reload := by
  simp only [nrf5StartMs, if_true] at h
  split at h
  · exact absurd h (by simp)
  · simp only [Option.some.injEq] at h
    omega

example : nrf5StartMs true 10000 8 = some 9875 := rfl

/-- Without it, a software watchdog that fires together with the hardware watchdog is accepted,
although the message of the check says it must be less. -/
theorem C81_false_nrf5_margin (secs : Nat) :
    nrf5StartMs false (secs * 1000) secs = some (secs * 1000) := by
  simp [nrf5StartMs]

/-- The compare value is not met while the counter is on the way from above it to its wrap. -/
private theorem nrf5_quiet (p : Nat) (k : Nat) : ∀ s : Rtc, ∀ v, s.running = true → s.cc = some v →
    v ≤ s.counter → s.counter + k < 2 ^ 24 →
    run (nrf5 p) s (List.replicate k .tick) = List.replicate k .quiet := by
  induction k with
  | zero => intro s v _ _ _ _; rfl
  | succ k ih =>
    intro s v h1 h2 h3 h4
    have hm : (s.counter + 1) % 2 ^ 24 = s.counter + 1 := Nat.mod_eq_of_lt (by omega)
    have hf : ((nrf5 p).tick s).1 = false := by
      simp only [nrf5, nrf5Tick, h1, if_true, hm, h2]
      simp only [beq_eq_false_iff_ne, ne_eq, Option.some.injEq]
      omega
    have hs : ((nrf5 p).tick s).2 = { s with counter := s.counter + 1 } := by
      simp only [nrf5, nrf5Tick, h1, if_true, hm]
    simp only [List.replicate_succ, run, hf, hs]
    rw [ih { s with counter := s.counter + 1 } v h1 h2 (by simp only; omega) (by simp only; omega)]
    simp

private theorem nrf5_count (p : Nat) (es : List Ev) (n : Nat) : ∀ s : Rtc, ∀ v, s.running = true →
    s.cc = some v → s.counter + n < v → v < 2 ^ 24 →
    run (nrf5 p) s (List.replicate n .tick ++ es)
      = List.replicate n .quiet ++ run (nrf5 p) { s with counter := s.counter + n } es := by
  induction n with
  | zero => intro s v _ _ _ _; rfl
  | succ n ih =>
    intro s v h1 h2 h3 h4
    have hm : (s.counter + 1) % 2 ^ 24 = s.counter + 1 := Nat.mod_eq_of_lt (by omega)
    have hf : ((nrf5 p).tick s).1 = false := by
      simp only [nrf5, nrf5Tick, h1, if_true, hm, h2]
      simp only [beq_eq_false_iff_ne, ne_eq, Option.some.injEq]
      omega
    have hs : ((nrf5 p).tick s).2 = { s with counter := s.counter + 1 } := by
      simp only [nrf5, nrf5Tick, h1, if_true, hm]
    simp only [List.replicate_succ, List.cons_append, run, hf, hs]
    rw [ih { s with counter := s.counter + 1 } v h1 h2 (by simp only; omega) h4]
    simp only [Nat.add_assoc, Nat.add_comm 1 n]
    simp

/-- A new timeout does not restart the countdown of the nRF5 port: when the watchdog has not been fed
for longer than a new, shorter timeout, it does not fire until the 24-bit counter wraps (24 days). -/
theorem C81_false_nrf5_update (startMs ms n k : Nat) (h2 : startMs < 125 * 2 ^ 24)
    (hn : n < startMs / 125) (hms : ms / 125 ≤ n) (hk : n + k < 2 ^ 24) :
    run (nrf5 startMs) {} (.op .enable :: (List.replicate n .tick ++
        .op (.update ms) :: List.replicate k .tick))
      = .ret true :: (List.replicate n .quiet ++ .ret true :: List.replicate k .quiet) := by
  simp only [run]
  refine cons_obs ?_
  rw [nrf5_count startMs _ n _ (startMs / 125) rfl ?_ ?_ (by omega)]
  · refine congrArg _ ?_
    simp only [run]
    refine cons_obs ?_
    refine nrf5_quiet startMs k _ (ms / 125) rfl ?_ ?_ ?_
    · simp only [nrf5, nrf5Op, nrf5Update]
      rw [Nat.mod_eq_of_lt (by omega)]
    · simp only [nrf5, nrf5Op, nrf5Update]
      simp
      omega
    · simp only [nrf5, nrf5Op, nrf5Update]
      simp
      omega
  · simp only [nrf5, nrf5Op, nrf5Update]
    simp
    omega
  · simp only [nrf5, nrf5Op, nrf5Update]
    simp
    omega

/-- One minute, 30 s of it gone; with a new timeout of 10 s it does not fire within a million ticks
(35 hours). -/
example : 240 < 60000 / 125 ∧ 10000 / 125 ≤ 240 ∧ 240 + 1000000 < 2 ^ 24 := by decide

/-- And a watchdog that was given a new timeout fires before that timeout has passed. -/
theorem C81_false_nrf5_update_early :
    run (nrf5 1000) {} (.op .enable :: (List.replicate 7 .tick ++ [.op (.update 1000), .tick]))
      = .ret true :: (List.replicate 7 .quiet ++ [.ret true, .fired]) := by
  decide +kernel

/-- A timeout under 125 ms never fires (until the counter wraps); the automatic configuration yields
one when the hardware watchdog is set to less than 250 ms. -/
theorem C81_false_nrf5_short (startMs k : Nat) (h : startMs < 125) (hk : k < 2 ^ 24) :
    run (nrf5 startMs) {} (.op .enable :: List.replicate k .tick)
        = .ret true :: List.replicate k .quiet ∧
      nrf5StartMs true 200 8 = some 75 := by
  refine ⟨?_, rfl⟩
  simp only [run]
  refine cons_obs ?_
  refine nrf5_quiet startMs k _ 0 rfl ?_ (Nat.zero_le _) ?_
  · simp only [nrf5, nrf5Op, nrf5Update]
    simp
    rw [Nat.div_eq_of_lt h]
  · simp only [nrf5, nrf5Op, nrf5Update]
    simp
    omega

/-- Once disabled, the nRF5 watchdog cannot be enabled again: no later history makes it fire. -/
theorem C81_false_nrf5_enable (startMs : Nat) (es : List Ev) :
    Obs.fired ∉ run (nrf5 startMs) {} (.op .enable :: .op .disable :: es) ∧
      run (nrf5 startMs) {} [.op .enable, .op .disable, .op .enable]
        = [.ret true, .ret true, .ret false] := by
  have key : ∀ es (s : Rtc), s.init = true → s.running = false →
      Obs.fired ∉ run (nrf5 startMs) s es := by
    intro es
    induction es with
    | nil => intro s _ _; simp [run]
    | cons e es ih =>
      intro s h1 h2
      cases e with
      | tick =>
        simp only [run, nrf5, nrf5Tick, h2]
        have := ih s h1 h2
        simpa [nrf5] using this
      | op o =>
        simp only [run, List.mem_cons, not_or]
        refine ⟨by simp, ih _ ?_ ?_⟩ <;> cases o <;> simp [nrf5, nrf5Op, nrf5Update, h1, h2]
  refine ⟨?_, rfl⟩
  simp only [run, List.mem_cons, not_or]
  exact ⟨by simp, by simp, key es _ rfl rfl⟩

/-! ## Zephyr -/

/-- The Zephyr watchdog, for every history in which only a running watchdog is fed, and it is not
enabled again with another timeout in force. What is missing: see the `C81_false_zephyr` theorems. -/
theorem C81_zephyr_partial (startMs : Nat) (h1 : 0 < startMs) (es : List Ev)
    (hw : Within (fun w o => match o with
        | .enable => w.timeout = startMs
        | .feed => w.running = true
        | .update ms => 0 < ms
        | .disable => True) (zephyrCfg startMs) ⟨false, startMs, 0⟩ es) :
    run zephyr { timeoutMs := startMs } es = Wd.run (zephyrCfg startMs) ⟨false, startMs, 0⟩ es := by
  refine wd_sim _ _ _ (fun s w => s.running = w.running ∧ s.timeoutMs = w.timeout ∧ 0 < w.timeout ∧
    (w.running = true → s.left = w.timeout - w.since ∧ w.since < w.timeout)) ?_ ?_ ?_ es _ _
    ⟨rfl, rfl, h1, by simp⟩ hw
  · intro s w o hR hg
    obtain ⟨a1, a2, a3, a4⟩ := hR
    cases o with
    | enable =>
      refine ⟨rfl, rfl, ?_, h1, fun _ => ⟨?_, h1⟩⟩
      · simp only [zephyr, zephyrOp, zephyrStart, Wd.op, zephyrCfg]; omega
      · simp only [zephyr, zephyrOp, zephyrStart, Wd.op, zephyrCfg]; omega
    | disable => exact ⟨rfl, rfl, a2, a3, by simp [Wd.op]⟩
    | feed =>
      refine ⟨rfl, hg.symm, a2, a3, fun _ => ⟨?_, a3⟩⟩
      simp only [zephyr, zephyrOp, zephyrStart, Wd.op]; omega
    | update ms => exact ⟨rfl, rfl, rfl, hg, fun _ => ⟨rfl, hg⟩⟩
  · intro s w hR hr
    obtain ⟨a1, a2, a3, a4⟩ := hR
    simp only [zephyr, zephyrTick, a1, hr]
    exact ⟨rfl, by simp [a1, hr], a2, a3, by simp [hr]⟩
  · intro s w hR hr
    obtain ⟨a1, a2, a3, a4⟩ := hR
    obtain ⟨b1, b2⟩ := a4 hr
    simp only [zephyr, zephyrTick, a1, hr, if_true]
    by_cases hd : w.since + 1 = w.timeout
    · rw [if_pos (by omega)]
      exact ⟨by simp [hd], fun h => absurd hd h⟩
    · rw [if_neg (by omega)]
      refine ⟨by simp [hd], fun _ => ⟨by simp [a1, hr], a2, a3, fun _ => ⟨?_, ?_⟩⟩⟩
      · simp only; omega
      · omega

example : Within (fun w o => match o with
        | .enable => w.timeout = 3
        | .feed => w.running = true
        | .update ms => 0 < ms
        | .disable => True) (zephyrCfg 3) ⟨false, 3, 0⟩
    [.op .enable, .tick, .op .feed, .tick, .tick, .op .disable, .tick, .tick, .op .enable, .tick,
      .op (.update 2), .tick, .tick] := by
  simp [Within, Wd.op, zephyrCfg]

private theorem zephyr_count (n : Nat) : ∀ s : KTimer, s.running = true → s.left = n + 1 →
    run zephyr s (List.replicate (n + 1) .tick) = List.replicate n .quiet ++ [.fired] := by
  induction n with
  | zero =>
    intro s h1 h2
    simp [run, zephyr, zephyrTick, h1, h2]
  | succ n ih =>
    intro s h1 h2
    have h := ih { s with left := n + 1 } h1 rfl
    rw [List.replicate_succ, run, List.replicate_succ (n := n) (a := Obs.quiet), List.cons_append, ← h]
    simp [zephyr, zephyrTick, h1, h2]

/-- Feeding the Zephyr watchdog after it was disabled starts it again: it fires. -/
theorem C81_false_zephyr_feed (startMs : Nat) (h : 0 < startMs) :
    run zephyr { timeoutMs := startMs }
        (.op .enable :: .op .disable :: .op .feed :: List.replicate startMs .tick)
      = .ret true :: .ret true :: .ret true :: (List.replicate (startMs - 1) .quiet ++ [.fired]) := by
  obtain ⟨n, rfl⟩ : ∃ n, startMs = n + 1 := ⟨startMs - 1, by omega⟩
  simp only [run]
  rw [zephyr_count n _ rfl rfl]
  rfl

/-- Enabling it after a new timeout was given does not start it with the configured timeout. -/
theorem C81_false_zephyr_enable (startMs ms : Nat) (h : startMs < ms) :
    run zephyr { timeoutMs := startMs }
        (.op (.update ms) :: .op .disable :: .op .enable :: List.replicate ms .tick)
      = .ret true :: .ret true :: .ret true :: (List.replicate (ms - 1) .quiet ++ [.fired]) := by
  obtain ⟨n, rfl⟩ : ∃ n, ms = n + 1 := ⟨ms - 1, by omega⟩
  simp only [run]
  rw [zephyr_count n _ rfl rfl]
  rfl

/-! ## STM32H7 -/

/-- The STM32H7 watchdog, for every history with timeouts of at least 4 ms (requests for more than
262 s are refused and change nothing); the timer driver does not fail. Missing: shorter timeouts, and a timer
driver that fails (`C81_false_h7_enable`). -/
theorem C81_h7_partial (startSecs : Nat) (h1 : 0 < startSecs) (h2 : startSecs ≤ 262) (es : List Ev)
    (hw : Within (fun _ o => match o with
        | .update ms => 4 ≤ ms
        | _ => True) (h7Cfg startSecs) ⟨false, 0, 0⟩ es) :
    run (h7 true true startSecs) {} es = Wd.run (h7Cfg startSecs) ⟨false, 0, 0⟩ es := by
  refine wd_sim _ _ _ (fun s w => s.running = w.running ∧
    (w.running = true → s.irq = true ∧ s.arr = w.timeout ∧ s.counter = w.since ∧
      w.since < w.timeout ∧ w.timeout ≤ 65535)) ?_ ?_ ?_ es _ _ ⟨rfl, by simp⟩ hw
  · intro s w o hR hg
    obtain ⟨a1, a2⟩ := hR
    cases o with
    | enable =>
      have hx : startSecs * 1000 * 250 % 2 ^ 32 / 1000 = startSecs * 250 := by
        rw [Nat.mod_eq_of_lt (by omega)]; omega
      simp only [h7, h7Op, h7Update, Wd.op, h7Cfg, hx]
      rw [if_neg (by omega)]
      simp only [Bool.not_true, Bool.false_eq_true, if_false]
      refine ⟨trivial, trivial, fun _ => ⟨trivial, ?_, trivial, ?_, ?_⟩⟩ <;> omega
    | disable => exact ⟨rfl, rfl, by simp [Wd.op]⟩
    | feed =>
      refine ⟨rfl, a1, fun hr => ?_⟩
      obtain ⟨b1, b2, b3, b4, b5⟩ := a2 hr
      exact ⟨b1, b2, rfl, by simp only [Wd.op]; omega, b5⟩
    | update ms =>
      have hg : 4 ≤ ms := hg
      simp only [h7, h7Op, h7Update, Wd.op, h7Cfg]
      by_cases hm : ms ≤ 262000
      · have hx : ms * 250 % 2 ^ 32 / 1000 = ms / 4 := by
          rw [Nat.mod_eq_of_lt (by omega)]; omega
        rw [if_neg (by omega), if_pos hm, hx]
        simp only [Bool.not_true, Bool.false_eq_true, if_false]
        refine ⟨trivial, trivial, fun _ => ⟨trivial, ?_, trivial, ?_, ?_⟩⟩ <;> omega
      · rw [if_pos (by omega), if_neg hm]
        exact ⟨rfl, a1, a2⟩
  · intro s w hR hr
    obtain ⟨a1, a2⟩ := hR
    simp only [h7, h7Tick, a1, hr]
    exact ⟨rfl, by simp [a1, hr], by simp [hr]⟩
  · intro s w hR hr
    obtain ⟨a1, a2⟩ := hR
    obtain ⟨b1, b2, b3, b4, b5⟩ := a2 hr
    simp only [h7, h7Tick, a1, hr, if_true, b2, b3]
    by_cases hd : w.since + 1 = w.timeout
    · rw [if_pos hd]
      exact ⟨by simp [hd, b1], fun h => absurd hd h⟩
    · rw [if_neg hd]
      refine ⟨by simp [hd], fun _ => ⟨by simp [a1, hr], fun _ => ⟨b1, ?_, ?_, ?_, b5⟩⟩⟩
      · simp only
      · simp only; omega
      · omega

example : run (h7 true true 1) {} ([.op .feed, .tick, .op .enable, .tick, .op (.update 8),
    .op (.update 300000), .tick, .op .feed, .tick, .op .disable, .tick, .op (.update 9), .tick, .tick])
    = [.ret true, .quiet, .ret true, .quiet, .ret true, .ret false, .quiet, .ret true, .quiet,
      .ret true, .quiet, .ret true, .quiet, .fired] := by decide +kernel

/-- When the timer cannot be started, enabling the STM32H7 watchdog returns success all the same and
the watchdog never fires. -/
theorem C81_false_h7_enable (startSecs k : Nat) (h2 : startSecs ≤ 262) :
    run (h7 true false startSecs) {} (.op .enable :: List.replicate k .tick)
      = .ret true :: List.replicate k .quiet := by
  have key : ∀ s : Lptim, s.running = false →
      run (h7 true false startSecs) s (List.replicate k .tick) = List.replicate k .quiet := by
    intro s hs
    induction k with
    | zero => rfl
    | succ k ih =>
      simp only [List.replicate_succ, run, h7, h7Tick, hs]
      rw [← ih]
      simp [h7]
  simp only [run]
  refine cons_obs (key _ ?_)
  simp only [h7, h7Op, h7Update]
  rw [if_neg (by omega)]
  simp

/-- **C81 (STM32H7, failures).** Whatever state the watchdog is in: a timeout that is too long is refused
and changes nothing; so does a timer that cannot be stopped; an update that cannot start the timer
reports it and the watchdog does not fire; disabling reports whether the timer was stopped, and the
watchdog does not fire after it in either case. -/
theorem C81_h7_failures (stopOk startOk : Bool) (startSecs k ms : Nat) (s : Lptim) (es : List Ev) :
    (262000 < ms → run (h7 stopOk startOk startSecs) s (.op (.update ms) :: es)
      = .ret false :: run (h7 stopOk startOk startSecs) s es) ∧
    run (h7 false startOk startSecs) s (.op (.update ms) :: es)
      = .ret false :: run (h7 false startOk startSecs) s es ∧
    (ms ≤ 262000 → run (h7 true false startSecs) s (.op (.update ms) :: List.replicate k .tick)
      = .ret false :: List.replicate k .quiet) ∧
    run (h7 stopOk startOk startSecs) s (.op .disable :: List.replicate k .tick)
      = .ret stopOk :: List.replicate k .quiet := by
  have key : ∀ (a b : Bool) (k : Nat) (s : Lptim), s.irq = false →
      run (h7 a b startSecs) s (List.replicate k .tick) = List.replicate k .quiet := by
    intro a b k
    induction k with
    | zero => intro s _; rfl
    | succ k ih =>
      intro s hs
      have h1 : ((h7 a b startSecs).tick s).1 = false ∧ ((h7 a b startSecs).tick s).2.irq = false := by
        simp only [h7, h7Tick]
        split
        · split <;> exact ⟨by simp [hs], hs⟩
        · exact ⟨rfl, hs⟩
      rw [List.replicate_succ, run, if_neg (by simp [h1.1]), ih _ h1.2, List.replicate_succ]
  refine ⟨fun h => ?_, ?_, fun h => ?_, ?_⟩
  · simp only [run]
    have : (h7 stopOk startOk startSecs).op s (.update ms) = (false, s) := by
      simp only [h7, h7Op, h7Update]
      rw [if_pos (by omega)]
    rw [this]
  · simp only [run]
    have : (h7 false startOk startSecs).op s (.update ms) = (false, s) := by
      simp only [h7, h7Op, h7Update]
      split <;> simp
    rw [this]
  · simp only [run]
    have : (h7 true false startSecs).op s (.update ms) = (false, { s with running := false, irq := false }) := by
      simp only [h7, h7Op, h7Update]
      rw [if_neg (by omega)]
      simp
    rw [this]
    exact cons_obs (key _ _ _ _ rfl)
  · simp only [run]
    have : ((h7 stopOk startOk startSecs).op s .disable).1 = stopOk ∧
        ((h7 stopOk startOk startSecs).op s .disable).2.irq = false := by
      simp only [h7, h7Op]
      cases stopOk <;> simp
    rw [this.1]
    exact cons_obs (key _ _ _ _ this.2)

/-! ## S32 -/

/-- The S32 watchdog on one of the channels 0 to 3 with a clock of `hz`, for every history in which
only a running watchdog is fed and timeouts are at least one cycle. What is missing: see the
`C81_false_s32` theorems. -/
theorem C81_s32_partial (source startSecs hz : Nat) (c : S32Clock) (hc : s32Freq c = .ok hz)
    (hs : source < 4) (h1 : 0 < startSecs * hz) (h2 : startSecs * hz < 2 ^ 32) (es : List Ev)
    (hw : Within (fun w o => match o with
        | .feed => w.running = true
        | .update ms => 1000 ≤ ms * hz
        | _ => True) (s32Cfg hz startSecs) ⟨false, 0, 0⟩ es) :
    run (s32 source c startSecs) {} es = Wd.run (s32Cfg hz startSecs) ⟨false, 0, 0⟩ es := by
  have he : startSecs * 1000 * hz / 1000 = startSecs * hz := by
    rw [Nat.mul_right_comm, Nat.mul_div_cancel _ (by decide)]
  refine wd_sim _ _ _ (fun s w => s.running = w.running ∧
    (w.running = true → s.irq = true ∧ s.tval = w.timeout ∧ s.current = w.timeout - w.since ∧
      w.since < w.timeout)) ?_ ?_ ?_ es _ _ ⟨rfl, by simp⟩ hw
  · intro s w o hR hg
    obtain ⟨a1, a2⟩ := hR
    cases o with
    | enable =>
      simp only [s32, s32Op, s32Update, hc, Wd.op, s32Cfg, he, hs, if_true]
      rw [if_neg (by omega)]
      exact ⟨rfl, rfl, fun _ => ⟨rfl, rfl, rfl, h1⟩⟩
    | disable => exact ⟨rfl, rfl, by simp [Wd.op]⟩
    | feed =>
      refine ⟨rfl, hg.symm, fun hr => ?_⟩
      obtain ⟨b1, b2, b3, b4⟩ := a2 hr
      exact ⟨b1, b2, b2, by simp only [Wd.op]; omega⟩
    | update ms =>
      have hg : 1000 ≤ ms * hz := hg
      simp only [s32, s32Op, s32Update, hc, Wd.op, s32Cfg, hs, if_true]
      generalize ms * hz = x at hg ⊢
      by_cases hm : x / 1000 < 4294967296
      · rw [if_neg (by omega), if_pos hm]
        exact ⟨rfl, rfl, fun _ => ⟨rfl, rfl, rfl, by simp only; omega⟩⟩
      · rw [if_pos (by omega), if_neg hm]
        exact ⟨rfl, a1, a2⟩
  · intro s w hR hr
    obtain ⟨a1, a2⟩ := hR
    simp only [s32, s32Tick, a1, hr]
    exact ⟨rfl, by simp [a1, hr], by simp [hr]⟩
  · intro s w hR hr
    obtain ⟨a1, a2⟩ := hR
    obtain ⟨b1, b2, b3, b4⟩ := a2 hr
    simp only [s32, s32Tick, a1, hr, if_true]
    by_cases hd : w.since + 1 = w.timeout
    · rw [if_pos (by omega)]
      exact ⟨by simp [hd, b1], fun h => absurd hd h⟩
    · rw [if_neg (by omega)]
      refine ⟨by simp [hd], fun _ => ⟨by simp [a1, hr], fun _ => ⟨b1, b2, ?_, ?_⟩⟩⟩
      · simp only; omega
      · omega

/-- The slow oscillator, divided by four. -/
example : s32Freq ⟨2, 3, true, 0⟩ = .ok 2000000 := rfl

/-- The frequency that the S32 port computes: the selected source divided by a power of two. -/
theorem C81_s32_clock (c : S32Clock) (hz : Nat) (h : s32Freq c = .ok hz) :
    c.div ≠ 0 ∧ ∃ f, f ≠ 0 ∧ hz = f / 2 ^ (c.div - 1) ∧
      ((c.pcs = 1 ∧ f = c.freq) ∨ (c.pcs = 2 ∧ f = if c.sircHigh then 8000000 else 2000000) ∨
        (c.pcs = 3 ∧ f = 48000000)) := by
  have key : ∀ f, (if c.div = 0 then Except.error (-2)
      else if f = 0 then Except.error (-3) else Except.ok (f >>> (c.div - 1))) = Except.ok (ε := Int) hz →
      c.div ≠ 0 ∧ f ≠ 0 ∧ hz = f / 2 ^ (c.div - 1) := by
    intro f hf
    split at hf
    · exact absurd hf (by simp)
    · split at hf
      · exact absurd hf (by simp)
      · simp only [Except.ok.injEq] at hf
        exact ⟨‹_›, ‹_›, by rw [← hf, Nat.shiftRight_eq_div_pow]⟩
  unfold s32Freq at h
  by_cases h1 : c.pcs = 1
  · simp only [h1, if_true] at h
    obtain ⟨k1, k2, k3⟩ := key _ h
    exact ⟨k1, _, k2, k3, Or.inl ⟨h1, rfl⟩⟩
  · by_cases h2 : c.pcs = 2
    · simp only [h2, if_true, if_neg (show ¬(2 = 1) by decide)] at h
      obtain ⟨k1, k2, k3⟩ := key _ h
      exact ⟨k1, _, k2, k3, Or.inr (Or.inl ⟨h2, rfl⟩)⟩
    · by_cases h3 : c.pcs = 3
      · simp only [h3, if_true, if_neg (show ¬(3 = 1) by decide), if_neg (show ¬(3 = 2) by decide)] at h
        obtain ⟨k1, k2, k3⟩ := key _ h
        exact ⟨k1, _, k2, k3, Or.inr (Or.inr ⟨h3, rfl⟩)⟩
      · simp [h1, h2, h3] at h

/-- With the PLL as the source the S32 watchdog can never be enabled, whatever the configuration: the
case for it falls into the error case. -/
theorem C81_false_s32_pll (source startSecs : Nat) (c : S32Clock) (h : c.pcs = 6) (s : Lpit) :
    run (s32 source c startSecs) s [.op .enable] = [.ret false] := by
  simp [run, s32, s32Op, s32Update, s32Freq, h]

/-- **C81 (S32 channels).** The channels 0 to 4 are accepted. -/
theorem C81_s32_source (source : Int) : s32SourceOk source = true ↔ 0 ≤ source ∧ source ≤ 4 := by
  unfold s32SourceOk
  simp

/-- Channel 4, which does not exist, passes the check of the configuration; no interrupt is ever
enabled for it and no history fires. -/
theorem C81_false_s32_channel (startSecs : Nat) (c : S32Clock) (es : List Ev) :
    s32SourceOk 4 = true ∧ Obs.fired ∉ run (s32 4 c startSecs) {} es := by
  refine ⟨rfl, ?_⟩
  have hu : ∀ (s : Lpit) ms, s.irq = false → (s32Update 4 c s ms).2.irq = false := by
    intro s ms h
    unfold s32Update
    split
    · exact h
    · split
      · exact h
      · simpa using h
  have key : ∀ es (s : Lpit), s.irq = false → Obs.fired ∉ run (s32 4 c startSecs) s es := by
    intro es
    induction es with
    | nil => intro s _; simp [run]
    | cons e es ih =>
      intro s h
      cases e with
      | tick =>
        have hf : ((s32 4 c startSecs).tick s).1 = false ∧
            ((s32 4 c startSecs).tick s).2.irq = false := by
          simp only [s32, s32Tick]
          split
          · split
            · exact ⟨h, h⟩
            · exact ⟨rfl, h⟩
          · exact ⟨rfl, h⟩
        have := ih _ hf.2
        simp only [run, hf.1]
        simpa using this
      | op o =>
        simp only [run, List.mem_cons, not_or]
        refine ⟨by simp, ih _ ?_⟩
        cases o with
        | enable => exact hu s _ h
        | disable => exact h
        | feed => exact h
        | update ms => exact hu s _ h
  exact key es _ rfl

private theorem s32_count (source startSecs : Nat) (c : S32Clock) (n : Nat) : ∀ s : Lpit,
    s.running = true → s.irq = true → s.current = n + 1 →
    run (s32 source c startSecs) s (List.replicate (n + 1) .tick)
      = List.replicate n .quiet ++ [.fired] := by
  induction n with
  | zero =>
    intro s h1 h2 h3
    simp [run, s32, s32Tick, h1, h2, h3]
  | succ n ih =>
    intro s h1 h2 h3
    have h := ih { s with current := n + 1 } h1 h2 rfl
    rw [List.replicate_succ, run, List.replicate_succ (n := n) (a := Obs.quiet), List.cons_append, ← h]
    simp [s32, s32Tick, h1, h3]

/-- Feeding the S32 watchdog after it was disabled starts it again: it fires. -/
theorem C81_false_s32_feed (source startSecs hz : Nat) (c : S32Clock) (hc : s32Freq c = .ok hz)
    (hs : source < 4) (h1 : 0 < startSecs * hz) (h2 : startSecs * hz < 2 ^ 32) :
    run (s32 source c startSecs) {}
        (.op .enable :: .op .disable :: .op .feed :: List.replicate (startSecs * hz) .tick)
      = .ret true :: .ret true :: .ret true ::
          (List.replicate (startSecs * hz - 1) .quiet ++ [.fired]) := by
  have he : startSecs * 1000 * hz / 1000 = startSecs * hz := by
    rw [Nat.mul_right_comm, Nat.mul_div_cancel _ (by decide)]
  have hen : (s32 source c startSecs).op {} .enable
      = (true, ⟨true, true, startSecs * hz, startSecs * hz⟩) := by
    simp only [s32, s32Op, s32Update, hc, he, hs, if_true]
    rw [if_neg (by omega)]
  simp only [run, hen]
  generalize startSecs * hz = t at *
  obtain ⟨n, rfl⟩ : ∃ n, t = n + 1 := ⟨t - 1, by omega⟩
  rw [s32_count source startSecs c n _ rfl rfl rfl]
  rfl

/-! ## emlib -/

private theorem em_warning (p : Nat) : emWarningMs (emPeriodMs p) = 2 ^ (2 + p) := by
  unfold emWarningMs emPeriodMs
  rw [Nat.mul_div_cancel_left _ (by decide), show 3 + p = (2 + p) + 1 by omega, Nat.pow_succ,
    Nat.mul_div_cancel _ (by decide)]

private theorem em_search (ms : Nat) (hm : ms ≤ 131072) : ∀ fuel p, p ≤ 16 → 17 ≤ fuel + p →
    (∀ q, q < p → 2 ^ (2 + q) ≤ ms) →
    ∃ r, emSearch ms fuel p = some r ∧ p ≤ r ∧ r ≤ 16 ∧ (∀ q, q < r → 2 ^ (2 + q) ≤ ms) ∧
      ms < 2 ^ (2 + r) := by
  intro fuel
  induction fuel with
  | zero => intro p h1 h2; omega
  | succ fuel ih =>
    intro p h1 h2 h3
    simp only [emSearch, em_warning]
    by_cases hp : p ≤ 15
    · rw [if_pos hp]
      by_cases hg : 2 ^ (2 + p) > ms
      · rw [if_pos hg]
        exact ⟨p, rfl, Nat.le_refl _, h1, h3, hg⟩
      · rw [if_neg hg]
        obtain ⟨r, e1, e2, e3⟩ := ih (p + 1) (by omega) (by omega) (fun q hq => by
          by_cases hqp : q < p
          · exact h3 q hqp
          · rw [show q = p by omega]; omega)
        exact ⟨r, e1, by omega, e3⟩
    · rw [if_neg hp]
      have : p = 16 := by omega
      subst this
      exact ⟨16, rfl, Nat.le_refl _, by omega, h3, by
        have : (2 : Nat) ^ (2 + 16) = 262144 := rfl
        omega⟩

private theorem em_select (ms : Nat) (h4 : 4 ≤ ms) (hm : ms ≤ 131072) :
    ∃ p, emSelect ms = some p ∧ emWarningMs (emPeriodMs p) = 2 ^ Nat.log2 ms := by
  obtain ⟨r, e1, _, _, e3, e4⟩ := em_search ms hm 40 0 (by omega) (by omega) (by intro q hq; omega)
  have hr : r ≠ 0 := by
    intro h
    subst h
    have : (2 : Nat) ^ (2 + 0) = 4 := rfl
    omega
  refine ⟨r - 1, ?_, ?_⟩
  · unfold emSelect
    rw [em_warning, if_neg (by
      have : (2 : Nat) ^ (2 + 15) = 131072 := rfl
      omega), e1]
    simp [hr]
  · rw [em_warning]
    have : Nat.log2 ms = 2 + (r - 1) :=
      (Nat.log2_eq_iff (by omega)).2 ⟨e3 _ (by omega), by
        rw [show 2 + (r - 1) + 1 = 2 + r by omega]; exact e4⟩
    rw [this]

private theorem em_refuse (ms : Nat) (hm : ¬ ms ≤ 131072) : emSelect ms = none := by
  unfold emSelect
  rw [em_warning, if_pos (by
    have : (2 : Nat) ^ (2 + 15) = 131072 := rfl
    omega)]

/-- The EFM32/EFR32 watchdog, for every history with timeouts of at least 4 ms: its timeout is the
largest power of two of milliseconds that is not more than what was asked for; more than 131072 ms
is refused and changes nothing; the watchdog is not locked. Missing: shorter timeouts (`C81_false_emlib_short`)
and a locked watchdog. -/
theorem C81_emlib_partial (startSecs : Nat) (h1 : 0 < startSecs) (h2 : startSecs ≤ 131)
    (es : List Ev)
    (hw : Within (fun _ o => match o with
        | .update ms => 4 ≤ ms
        | _ => True) (emlibCfg startSecs) ⟨false, 0, 0⟩ es) :
    run (emlib false startSecs) {} es = Wd.run (emlibCfg startSecs) ⟨false, 0, 0⟩ es := by
  refine wd_sim _ _ _ (fun s w => s.running = w.running ∧
    (w.running = true → emWarningMs (emPeriodMs s.persel) = w.timeout ∧ s.counter = w.since))
    ?_ ?_ ?_ es _ _ ⟨rfl, by simp⟩ hw
  · intro s w o hR hg
    obtain ⟨a1, a2⟩ := hR
    cases o with
    | enable =>
      obtain ⟨p, e1, e2⟩ := em_select (startSecs * 1000) (by omega) (by omega)
      simp only [emlib, emOp, emUpdate, e1, Wd.op, emlibCfg]
      exact ⟨rfl, rfl, fun _ => ⟨e2, rfl⟩⟩
    | disable => exact ⟨rfl, rfl, by simp [Wd.op]⟩
    | feed => exact ⟨rfl, a1, fun hr => ⟨(a2 hr).1, rfl⟩⟩
    | update ms =>
      have hg : 4 ≤ ms := hg
      simp only [emlib, emOp, emUpdate, Wd.op, emlibCfg]
      by_cases hm : ms ≤ 131072
      · obtain ⟨p, e1, e2⟩ := em_select ms hg hm
        rw [if_pos hm, e1]
        exact ⟨rfl, rfl, fun _ => ⟨e2, rfl⟩⟩
      · rw [if_neg hm, em_refuse ms hm]
        exact ⟨rfl, a1, a2⟩
  · intro s w hR hr
    obtain ⟨a1, a2⟩ := hR
    simp only [emlib, emTick, a1, hr]
    exact ⟨rfl, by simp [a1, hr], by simp [hr]⟩
  · intro s w hR hr
    obtain ⟨a1, a2⟩ := hR
    obtain ⟨b1, b2⟩ := a2 hr
    simp only [emlib, emTick, a1, hr, if_true, b1, b2]
    exact ⟨trivial, fun _ => ⟨by simp [a1, hr], by simp⟩⟩

example : run (emlib false 1) {} [.op (.update 9), .op (.update 131073), .tick, .tick, .tick, .tick,
    .op .feed, .op .disable, .tick, .op (.update 4), .tick, .tick, .tick, .tick]
    = [.ret true, .ret false, .quiet, .quiet, .quiet, .quiet, .ret true, .ret true, .quiet, .ret true,
      .quiet, .quiet, .quiet, .fired] := by decide +kernel

/-- The timeout of the EFM32/EFR32 watchdog is not more than what was asked for and more than half of
it. -/
theorem C81_emlib_period (startSecs ms : Nat) (h : 4 ≤ ms) (hm : ms ≤ 131072) :
    ∃ t, (emlibCfg startSecs).ticks ms = some t ∧ t ≤ ms ∧ ms < 2 * t := by
  refine ⟨2 ^ Nat.log2 ms, by simp [emlibCfg, hm], Nat.log2_self_le (by omega), ?_⟩
  have := Nat.lt_log2_self (n := ms)
  rw [Nat.pow_succ] at this
  omega

example : (emlibCfg 8).start = 4096 := by decide +kernel

/-- A locked watchdog is not changed by any call but feeding, and they all report it. -/
theorem C81_emlib_locked (startSecs : Nat) (s : Wdog) (o : Op) (ho : o ≠ .feed) :
    (emlib true startSecs).op s o = (false, s) := by
  have hu : ∀ ms, emUpdate true s ms = (false, s) := by
    intro ms
    unfold emUpdate
    split <;> rfl
  cases o with
  | enable => exact hu _
  | disable => rfl
  | feed => exact absurd rfl ho
  | update ms => exact hu _

/-- Less than 4 ms cannot be had: the request is accepted and the watchdog waits longer than that. -/
theorem C81_false_emlib_short (startSecs ms : Nat) (h : ms < 4) :
    run (emlib false startSecs) {} [.op (.update ms), .tick, .tick, .tick, .tick]
      = [.ret true, .quiet, .quiet, .quiet, .fired] := by
  have hu : emUpdate false {} ms = (true, ⟨true, 0, 0⟩) := by
    revert h; revert ms; decide +kernel
  simp only [run, emlib, emOp, hu]
  decide +kernel

/-! ## DA1468x -/

/-- The DA1468x watchdog, for every history in which new timeouts are given to a running watchdog and
it is enabled with its full count. Requests of less than 1 ms or of more than `maxCount` ticks are
refused and change nothing, for every 32-bit request: the multiplication by 1000 cannot wrap to an
accepted value. What is missing: see `C81_false_da1468x_enable`. -/
theorem C81_da1468x_partial (maxCount : Nat) (h1 : 0 < maxCount) (h2 : maxCount < 256) (es : List Ev)
    (hw : Within (fun w o => match o with
        | .enable => w.since = 0 ∧ w.timeout = maxCount
        | .update ms => w.running = true ∧ ms < 2 ^ 32
        | _ => True) (da1468xCfg maxCount) ⟨false, maxCount, 0⟩ es) :
    run (da1468x maxCount) ⟨true, maxCount, maxCount⟩ es
      = Wd.run (da1468xCfg maxCount) ⟨false, maxCount, 0⟩ es := by
  refine wd_sim _ _ _ (fun s w => s.frozen = !w.running ∧ s.reload = w.timeout ∧
    s.value = w.timeout - w.since ∧ w.since < w.timeout) ?_ ?_ ?_ es _ _ ⟨rfl, rfl, rfl, h1⟩ hw
  · intro s w o hR hg
    obtain ⟨a1, a2, a3, a4⟩ := hR
    cases o with
    | enable =>
      obtain ⟨g1, g2⟩ := hg
      refine ⟨rfl, rfl, ?_, ?_, h1⟩
      · simp only [da1468x, daOp, Wd.op, da1468xCfg]; omega
      · simp only [da1468x, daOp, Wd.op, da1468xCfg]; omega
    | disable => exact ⟨rfl, rfl, a2, a3, a4⟩
    | feed => exact ⟨rfl, a1, a2, a2, by simp only [Wd.op]; omega⟩
    | update ms =>
      obtain ⟨g1, g2⟩ := hg
      simp only [da1468x, daOp, daUpdate, Wd.op, da1468xCfg]
      by_cases hm : 0 < ms ∧ ms * 1000 / 10240 + 1 ≤ maxCount
      · have hw : 1000 * ms % 2 ^ 32 = ms * 1000 := by omega
        rw [if_pos hm, hw, if_pos (by omega), if_pos hm.2]
        exact ⟨rfl, by simp [a1, g1], by simp only; omega, rfl, by simp only; omega⟩
      · rw [if_neg hm]
        have hno : ¬ (1000 * ms % 2 ^ 32 > ms ∧ 1000 * ms % 2 ^ 32 / 10240 + 1 ≤ maxCount) := by
          intro hx
          omega
        by_cases hx : 1000 * ms % 2 ^ 32 > ms
        · rw [if_pos hx, if_neg (fun h => hno ⟨hx, h⟩)]
          exact ⟨rfl, a1, a2, a3, a4⟩
        · rw [if_neg hx]
          exact ⟨rfl, a1, a2, a3, a4⟩
  · intro s w hR hr
    obtain ⟨a1, a2, a3, a4⟩ := hR
    simp only [da1468x, daTick, a1, hr]
    exact ⟨rfl, by simp [a1, hr], a2, a3, a4⟩
  · intro s w hR hr
    obtain ⟨a1, a2, a3, a4⟩ := hR
    simp only [da1468x, daTick, a1, hr, a3]
    refine ⟨?_, fun hne => ⟨by simp [a1, hr], a2, ?_, ?_⟩⟩
    · simp only [Bool.not_true, Bool.false_eq_true, if_false]
      rw [decide_eq_decide]
      omega
    · simp only [Bool.not_true, Bool.false_eq_true, if_false]; omega
    · omega

example : Within (fun w o => match o with
        | .enable => w.since = 0 ∧ w.timeout = 255
        | .update ms => w.running = true ∧ ms < 2 ^ 32
        | _ => True) (da1468xCfg 255) ⟨false, 255, 0⟩
    [.op .enable, .tick, .op .feed, .op (.update 20), .tick, .op (.update 4000000), .tick, .op .feed] := by
  simp [Within, Wd.op, da1468xCfg]

/-- The timeout of the DA1468x watchdog is more than what was asked for, by at most one tick of
10240 µs. -/
theorem C81_da1468x_period (maxCount ms t : Nat) (h : (da1468xCfg maxCount).ticks ms = some t) :
    ms * 1000 < t * 10240 ∧ t * 10240 ≤ ms * 1000 + 10240 := by
  simp only [da1468xCfg] at h
  split at h
  · simp only [Option.some.injEq] at h
    omega
  · exact absurd h (by simp)

example : (da1468xCfg 255).ticks 20 = some 2 := by decide

/-- Enabling the DA1468x watchdog does not restart its countdown: what was left when it was disabled
is all there is, here one tick. -/
theorem C81_false_da1468x_enable :
    run (da1468x 5) ⟨true, 5, 5⟩
        (.op .enable :: (List.replicate 4 .tick ++ [.op .disable, .op .enable, .tick]))
      = .ret true :: (List.replicate 4 .quiet ++ [.ret true, .ret true, .fired]) := by
  decide +kernel

end Mflt.Props
