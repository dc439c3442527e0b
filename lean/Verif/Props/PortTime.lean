import Verif.Spec.PortTime

/-! # C77: time since boot and the heartbeat timer of the FreeRTOS and nRF5 ports -/

namespace Mflt.Props

open PortTime Spec.PortTime

/-! ## FreeRTOS -/

private def K (hz : Nat) : Nat := 65536000 / hz

private theorem tick_sync {e t : Nat} (h1 : e ≤ t) (h2 : t < e + 2 ^ 32) (h3 : t < 2 ^ 64) :
    FreeRtos.tick 32 { elapsed := e, last := e % 2 ^ 32 } t
      = { elapsed := t, last := t % 2 ^ 32 } := by
  simp only [FreeRtos.tick, FreeRtos.mk.injEq, and_true]
  omega

private theorem toMs_eq {hz t : Nat} (h : t * K hz < 2 ^ 64) :
    FreeRtos.toMs hz t = t * K hz / 65536 := by
  unfold FreeRtos.toMs
  unfold K at h ⊢
  simp only [Nat.reducePow, Nat.reduceMul] at h ⊢
  rw [Nat.mod_eq_of_lt h]

private theorem small {hz t : Nat} (hhz : 0 < hz) (h : t * 1000 < 2 ^ 48 * hz) :
    t * K hz < 2 ^ 64 := by
  have h1 : K hz * hz ≤ 65536000 := Nat.div_mul_le_self _ _
  refine Nat.lt_of_mul_lt_mul_right (a := hz) ?_
  calc t * K hz * hz = t * (K hz * hz) := Nat.mul_assoc _ _ _
    _ ≤ t * 65536000 := Nat.mul_le_mul_left _ h1
    _ = (t * 1000) * 65536 := by omega
    _ < (2 ^ 48 * hz) * 65536 := Nat.mul_lt_mul_of_pos_right h (by omega)
    _ = 2 ^ 64 * hz := by rw [Nat.mul_right_comm]

private theorem calls_eq {hz : Nat} (hhz : 0 < hz) :
    ∀ (times : List Nat) (e : Nat), Spaced (2 ^ 32) e times →
      (∀ t ∈ times, t * 1000 < 2 ^ 48 * hz ∧ t < 2 ^ 64) →
      FreeRtos.calls 32 hz { elapsed := e, last := e % 2 ^ 32 } times
        = times.map (fun t => t * K hz / 65536)
  | [], _, _, _ => rfl
  | t :: rest, e, hs, hb => by
    obtain ⟨h1, h2, h3⟩ := hs
    have hb' := hb t (List.mem_cons_self ..)
    rw [FreeRtos.calls]
    simp only [FreeRtos.get, tick_sync h1 h2 hb'.2, List.map_cons, List.cons.injEq]
    exact ⟨toMs_eq (small hhz hb'.1), calls_eq hhz rest t h3
      (fun x hx => hb x (List.mem_cons_of_mem _ hx))⟩

private theorem spaced_ge {g : Nat} : ∀ {l : List Nat} {p : Nat}, Spaced g p l → ∀ t ∈ l, p ≤ t
  | a :: l, p, h, t, ht => by
    rcases List.mem_cons.1 ht with rfl | ht
    · exact h.1
    · exact Nat.le_trans h.1 (spaced_ge h.2.2 t ht)

private theorem pairwise_map {g : Nat} {f : Nat → Nat} (hf : ∀ a b, a ≤ b → f a ≤ f b) :
    ∀ {l : List Nat} {p : Nat}, Spaced g p l → (l.map f).Pairwise (· ≤ ·)
  | [], _, _ => List.Pairwise.nil
  | a :: l, p, h => by
    rw [List.map_cons, List.pairwise_cons]
    refine ⟨?_, pairwise_map hf h.2.2⟩
    intro x hx
    obtain ⟨t, ht, rfl⟩ := List.mem_map.1 hx
    exact hf _ _ (spaced_ge h.2.2 t ht)

/-- **C77** (FreeRTOS, 32-bit ticks).  However the time since boot is asked for, at any sequence of
times less than `2 ^ 32` ticks apart and for `2 ^ 48` ms after boot, across any number of
wrap-arounds of the tick counter, the results never decrease, never run ahead of the true time
`t * 1000 / hz`, and lag behind it by at most one millisecond plus one per 65536 ticks; they are
exact if the tick rate divides 65536000 (as 1000, 500, 250, 128, 100, …).
Missing: 16-bit ticks and calls further apart (false, see below), and preemption (see
`C77_false_torn`). -/
theorem C77_freertos_partial {hz : Nat} (hhz : 0 < hz) (times : List Nat)
    (hs : Spaced (2 ^ 32) 0 times)
    (hb : ∀ t ∈ times, t * 1000 < 2 ^ 48 * hz ∧ t < 2 ^ 64) :
    (FreeRtos.calls 32 hz {} times).length = times.length ∧
    (FreeRtos.calls 32 hz {} times).Pairwise (· ≤ ·) ∧
    ∀ i (h1 : i < (FreeRtos.calls 32 hz {} times).length) (h2 : i < times.length),
      let r := (FreeRtos.calls 32 hz {} times)[i]
      let t := times[i]
      r ≤ t * 1000 / hz ∧ t * 1000 / hz ≤ r + t / 65536 + 1 ∧
      (65536000 % hz = 0 → r = t * 1000 / hz) := by
  have he : FreeRtos.calls 32 hz {} times = times.map (fun t => t * K hz / 65536) :=
    calls_eq hhz times 0 hs hb
  refine ⟨by rw [he, List.length_map], ?_, ?_⟩
  · rw [he]
    exact pairwise_map (fun a b h => Nat.div_le_div_right (Nat.mul_le_mul_right _ h)) hs
  · intro i h1 h2
    simp only [he, List.getElem_map]
    generalize times[i] = t
    have hk1 : K hz * hz ≤ 65536000 := Nat.div_mul_le_self _ _
    have hk2 : 65536000 < (K hz + 1) * hz := Nat.lt_mul_of_div_lt (Nat.lt_succ_self _) hhz
    refine ⟨?_, ?_, ?_⟩
    · rw [Nat.le_div_iff_mul_le hhz]
      have : t * K hz / 65536 * 65536 ≤ t * K hz := Nat.div_mul_le_self _ _
      have h3 : t * K hz / 65536 * 65536 * hz ≤ t * K hz * hz := Nat.mul_le_mul_right _ this
      have h4 : t * K hz * hz ≤ t * 65536000 := by
        rw [Nat.mul_assoc]; exact Nat.mul_le_mul_left _ hk1
      have h5 : t * K hz / 65536 * 65536 * hz = 65536 * (t * K hz / 65536 * hz) := by
        rw [Nat.mul_comm (t * K hz / 65536) 65536, Nat.mul_assoc]
      omega
    · have h3 : t * 65536000 ≤ (t * (K hz + 1)) * hz := by
        rw [Nat.mul_assoc]; exact Nat.mul_le_mul_left _ (Nat.le_of_lt hk2)
      have h4 : t * 1000 / hz ≤ t * (K hz + 1) / 65536 := by
        rw [Nat.le_div_iff_mul_le (by omega)]
        have := Nat.div_mul_le_self (t * 1000) hz
        refine Nat.le_of_mul_le_mul_right (c := hz) ?_ hhz
        calc t * 1000 / hz * 65536 * hz = (t * 1000 / hz * hz) * 65536 := by
              rw [Nat.mul_right_comm]
          _ ≤ t * 1000 * 65536 := Nat.mul_le_mul_right _ this
          _ = t * 65536000 := by omega
          _ ≤ _ := h3
      rw [Nat.mul_add, Nat.mul_one] at h4
      omega
    · intro hd
      have h3 : K hz * hz = 65536000 := Nat.div_mul_cancel (Nat.dvd_of_mod_eq_zero hd)
      rw [Nat.div_eq_iff (by omega)]
      have h4 : t * K hz * hz = t * 1000 * 65536 := by rw [Nat.mul_assoc, h3]; omega
      have h5 := Nat.div_add_mod (t * 1000) hz
      have h6 := Nat.mod_lt (t * 1000) hhz
      generalize t * 1000 / hz = q at *
      generalize t * 1000 % hz = m at *
      generalize t * K hz = y at *
      rw [← h5] at h4
      constructor
      · refine Nat.le_of_mul_le_mul_right (c := hz) ?_ hhz
        rw [h4, Nat.add_mul]
        have : q * 65536 * hz = hz * q * 65536 := by
          rw [Nat.mul_right_comm, Nat.mul_comm q hz]
        omega
      · suffices y < (q + 1) * 65536 by omega
        refine Nat.lt_of_mul_lt_mul_right (a := hz) ?_
        have : (q + 1) * 65536 * hz = hz * q * 65536 + hz * 65536 := by
          rw [Nat.mul_right_comm, Nat.add_mul, Nat.one_mul, Nat.mul_comm q hz, Nat.add_mul]
        omega

/-- Non-vacuity of `C77_freertos_partial`: calls across a wrap of the tick counter. -/
example : Spaced (2 ^ 32) 0 [5, 4294967295, 4294967296, 8589934000] ∧
    FreeRtos.calls 32 1000 {} [5, 4294967295, 4294967296, 8589934000]
      = [5, 4294967295, 4294967296, 8589934000] := by
  simp [Spaced, FreeRtos.calls, FreeRtos.get, FreeRtos.tick, FreeRtos.toMs]

/-- **C77, false with 16-bit ticks** (`configUSE_16_BIT_TICKS`).  The first call after the tick
counter wraps reports a time almost `2 ^ 32` ticks ahead: with a 1000 Hz tick, 49.7 days. -/
theorem C77_false_16bit {t1 t2 : Nat} (h1 : t1 < 65536) (h2 : 65536 ≤ t2) (h3 : t2 < t1 + 65536) :
    FreeRtos.calls 16 1000 {} [t1, t2] = [t1, t2 + (2 ^ 32 - 2 ^ 16)] := by
  simp only [FreeRtos.calls, FreeRtos.get, FreeRtos.tick, FreeRtos.toMs, List.cons.injEq, and_true]
  omega

/-- Non-vacuity of `C77_false_16bit`: one tick after 65.535 s. -/
example : FreeRtos.calls 16 1000 {} [65535, 65536] = [65535, 4294967296] := by
  rw [C77_false_16bit (by omega) (by omega) (by omega)]

/-- **C77, false when preempted.**  The sum is read again after the critical section, and on a
32-bit target in two halves: if other tasks ask for the time in between while the sum passes a
multiple of `2 ^ 32` ticks, the caller gets a time `2 ^ 32` ticks ahead of the truth, and a call
after it a smaller one.  -/
theorem C77_false_torn {e t1 t2 : Nat} (h1 : e ≤ t1) (h2 : t1 < 2 ^ 32) (h3 : 2 ^ 32 ≤ t2)
    (h4 : t2 < t1 + 2 ^ 32) :
    FreeRtos.getTorn 32 1000 { elapsed := e, last := e % 2 ^ 32 } t1 [t2]
      = (t1 + 2 ^ 32, { elapsed := t2, last := t2 % 2 ^ 32 }) ∧
    (FreeRtos.get 32 1000 { elapsed := t2, last := t2 % 2 ^ 32 } t2).1 = t2 ∧ t2 < t1 + 2 ^ 32 := by
  refine ⟨?_, ?_, h4⟩
  · simp only [FreeRtos.getTorn, List.foldl]
    rw [tick_sync h1 (by omega) (by omega), tick_sync (by omega) (by omega) (by omega)]
    simp only [FreeRtos.toMs, Prod.mk.injEq, and_true]
    omega
  · simp only [FreeRtos.get]
    rw [tick_sync (by omega) (by omega) (by omega)]
    simp only [FreeRtos.toMs]
    omega

/-- Non-vacuity of `C77_false_torn`. -/
example : (FreeRtos.getTorn 32 1000 { elapsed := 7, last := 7 } 4294967295 [4294967296]).1
    = 8589934591 := by
  have := (C77_false_torn (e := 7) (t1 := 4294967295) (t2 := 4294967296)
    (by omega) (by omega) (by omega) (by omega)).1
  rw [show (7 : Nat) % 2 ^ 32 = 7 by omega] at this
  rw [this]

/-- **C77, false for calls far apart.**  After `2 ^ 32` ticks or more without a call, that many are
lost for good: here the clock reads `t` ms when `t + 2 ^ 32` ms have gone by. -/
theorem C77_false_gap {t : Nat} (h : t < 2 ^ 32) :
    FreeRtos.calls 32 1000 {} [t + 2 ^ 32] = [t] := by
  simp only [FreeRtos.calls, FreeRtos.get, FreeRtos.tick, FreeRtos.toMs, List.cons.injEq, and_true]
  omega

/-- **C77** (FreeRTOS heartbeat timer).  With a tick rate that divides 1000 Hz, the heartbeat timer
is given exactly the requested period, for every period the build accepts. Missing: tick rates that do not
divide 1000 Hz (`C77_false_freertos_timer`). -/
theorem C77_freertos_timer_partial {hz period : Nat} (hhz : 1000 % hz = 0)
    (hp : period ≤ (2 ^ 32 - 1) / 1000) :
    freertosTimerTicks 32 hz period = some (period * hz) := by
  have hpos : 0 < hz := by
    rcases Nat.eq_zero_or_pos hz with rfl | h
    · simp at hhz
    · exact h
  have h1 : hz ≤ 1000 := Nat.le_of_dvd (by omega) (Nat.dvd_of_mod_eq_zero hhz)
  obtain ⟨k, hk⟩ := Nat.dvd_of_mod_eq_zero hhz
  have hkpos : 0 < k := by
    rcases Nat.eq_zero_or_pos k with rfl | h
    · simp at hk
    · exact h
  have h2 : 1000 / hz = k := by rw [hk, Nat.mul_div_cancel_left _ hpos]
  unfold freertosTimerTicks
  simp only [h2]
  rw [if_neg (by omega), show period * 1000 / k = period * hz by
    rw [hk, ← Nat.mul_assoc, Nat.mul_div_cancel _ hkpos], Nat.mod_eq_of_lt]
  calc period * hz ≤ period * 1000 := Nat.mul_le_mul_left _ h1
    _ < 2 ^ 32 := by omega

/-- Non-vacuity of `C77_freertos_timer_partial`. -/
example : freertosTimerTicks 32 100 3600 = some 360000 := by decide

/-- **C77, false for other tick rates.**  Between 501 and 1000 Hz the timer always gets `1000` ticks
per second, so that an hourly heartbeat at 600 Hz comes every 100 minutes; above 1000 Hz the
conversion divides by zero. -/
theorem C77_false_freertos_timer :
    (∀ hz period, 500 < hz → hz ≤ 1000 → period ≤ (2 ^ 32 - 1) / 1000 →
      freertosTimerTicks 32 hz period = some (period * 1000)) ∧
    (∀ hz period, 1000 < hz → freertosTimerTicks 32 hz period = none) := by
  refine ⟨fun hz period h1 h2 h3 => ?_, fun hz period h1 => ?_⟩
  · have : 1000 / hz = 1 := by
      rw [Nat.div_eq_iff (by omega)]; omega
    unfold freertosTimerTicks
    simp only [this]
    rw [if_neg (by omega), Nat.div_one, Nat.mod_eq_of_lt (by omega)]
  · unfold freertosTimerTicks
    simp only [Nat.div_eq_of_lt h1, if_true]

example : freertosTimerTicks 32 600 3600 = some 3600000 := by decide

/-! ## nRF5 -/

private theorem diff_eq {t u : Nat} (h1 : u ≤ t) (h2 : t < u + 2 ^ 24) :
    appTimerDiff (appTimerCnt t) (u % 2 ^ 24) = t - u := by
  unfold appTimerDiff appTimerCnt
  omega

private theorem value_eq {freq tps u t c : Nat} (hf : (freq + 1) * tps = 32768)
    (hd : (u + appTimerDiff c (u % 2 ^ 24)) = t) (hb : t * 1000 < 2 ^ 64) :
    Nrf5.value freq { last := u % 2 ^ 24, ticks := u } c = t * 1000 * (freq + 1) / 32768 := by
  have htps : 0 < tps := by
    rcases Nat.eq_zero_or_pos tps with rfl | h
    · simp at hf
    · exact h
  have h1 : 32768 / (freq + 1) = tps := by
    rw [← hf, Nat.mul_div_cancel_left _ (by omega)]
  simp only [Nrf5.value, hd, h1]
  rw [Nat.mod_eq_of_lt (a := t) (by omega), Nat.mul_comm 1000 t, Nat.mod_eq_of_lt hb, ← hf,
    Nat.mul_comm (t * 1000) (freq + 1), Nat.mul_div_mul_left _ _ (by omega)]

private theorem run_eq {freq tps : Nat} (hf : (freq + 1) * tps = 32768) :
    ∀ (ops : List Nrf5Op) (u now : Nat), u ≤ now → Timed (2 ^ 24) u now ops →
      (∀ op ∈ ops, match op with
        | .get t => t * 1000 < 2 ^ 64
        | .timer t => t * 1000 < 2 ^ 64) →
      Nrf5.run freq { last := u % 2 ^ 24, ticks := u } ops
        = (asked ops).map (fun t => t * 1000 * (freq + 1) / 32768)
  | [], _, _, _, _, _ => rfl
  | .get t :: rest, u, now, hu, ht, hb => by
    obtain ⟨h1, h2, h3⟩ := ht
    have hb1 := hb (.get t) (List.mem_cons_self ..)
    rw [Nrf5.run, asked, List.map_cons, List.cons.injEq]
    refine ⟨?_, run_eq hf rest u t (by omega) h3 (fun x hx => hb x (List.mem_cons_of_mem _ hx))⟩
    rw [Nrf5.get]
    exact value_eq hf (by rw [diff_eq (by omega) h2]; omega) hb1
  | .timer t :: rest, u, now, hu, ht, hb => by
    obtain ⟨h1, h2, h3⟩ := ht
    have hb1 : t * 1000 < 2 ^ 64 := hb (.timer t) (List.mem_cons_self ..)
    rw [Nrf5.run, asked]
    have : Nrf5.update { last := u % 2 ^ 24, ticks := u } t
        = { last := t % 2 ^ 24, ticks := t } := by
      simp only [Nrf5.update]
      rw [diff_eq (by omega) h2]
      simp only [appTimerCnt, Nrf5.mk.injEq, true_and]
      omega
    rw [this]
    exact run_eq hf rest t t (Nat.le_refl _) h3 (fun x hx => hb x (List.mem_cons_of_mem _ hx))

/-- **C77** (nRF5).  In every history in which the metrics timer's handler runs at least once per
period of the 24-bit counter and does not interrupt a call, the time since boot is exactly the
true one in milliseconds, `t * 1000 / (32768 / (freq + 1))` rounded down, for each prescaler that
divides 32768 Hz.
Missing: calls interrupted by the handler (false, see `C77_false_interrupted`). -/
theorem C77_nrf5_partial {freq tps : Nat} (hf : (freq + 1) * tps = 32768) (ops : List Nrf5Op)
    (ht : Timed (2 ^ 24) 0 0 ops)
    (hb : ∀ op ∈ ops, match op with
      | .get t => t * 1000 < 2 ^ 64
      | .timer t => t * 1000 < 2 ^ 64) :
    Nrf5.run freq {} ops = (asked ops).map (fun t => t * 1000 * (freq + 1) / 32768) :=
  run_eq hf ops 0 0 (Nat.le_refl _) ht hb

/-- Non-vacuity of `C77_nrf5_partial`: 700 s, past the wrap of the counter after 512 s. -/
example : Timed (2 ^ 24) 0 0 [.get 32768, .timer 16000000, .get 22937600] ∧
    Nrf5.run 0 {} [.get 32768, .timer 16000000, .get 22937600] = [1000, 700000] := by
  constructor
  · simp [Timed]
  · decide

/-- **C77, false when the metrics timer's handler interrupts a call.**  If the handler runs between
the read of the counter and the use of the context, the call returns a time one whole period of the
counter (512 s at 32768 Hz) ahead; the next call returns a smaller one. -/
theorem C77_false_interrupted {freq tps u now irq : Nat} (hf : (freq + 1) * tps = 32768)
    (h1 : u ≤ now) (h2 : now < irq) (h3 : irq < u + 2 ^ 24) (h4 : (now + 2 ^ 24) * 1000 < 2 ^ 64) :
    Nrf5.getInterrupted freq { last := u % 2 ^ 24, ticks := u } now irq
      = (now + 2 ^ 24) * 1000 * (freq + 1) / 32768 ∧
    Nrf5.get freq (Nrf5.update { last := u % 2 ^ 24, ticks := u } irq) irq
      = irq * 1000 * (freq + 1) / 32768 := by
  have : Nrf5.update { last := u % 2 ^ 24, ticks := u } irq
      = { last := irq % 2 ^ 24, ticks := irq } := by
    simp only [Nrf5.update]
    rw [diff_eq (by omega) h3]
    simp only [appTimerCnt, Nrf5.mk.injEq, true_and]
    omega
  rw [Nrf5.getInterrupted, Nrf5.get, this]
  constructor
  · refine value_eq hf ?_ h4
    unfold appTimerDiff appTimerCnt
    omega
  · refine value_eq (t := irq) hf ?_
      (Nat.lt_of_le_of_lt (Nat.mul_le_mul_right 1000 (by omega)) h4)
    have := diff_eq (t := irq) (u := irq) (Nat.le_refl _) (by omega)
    omega

/-- Non-vacuity of `C77_false_interrupted`: asked after 1000 s, interrupted one tick later, the
answer is 1512 s; one tick later it is 1000 s again. -/
example : Nrf5.getInterrupted 0 { last := 32000000 % 2 ^ 24, ticks := 32000000 } 32768000 32768001
      = 1512000 ∧
    Nrf5.get 0 (Nrf5.update { last := 32000000 % 2 ^ 24, ticks := 32000000 } 32768001) 32768001
      = 1000000 := by decide

private theorem ticks_eq {freq tps p : Nat} (hf : (freq + 1) * tps = 32768)
    (hp : p * tps < 2 ^ 32) : appTimerTicks freq (p * 1000) = p * tps := by
  have hpos : 0 < 1000 * (freq + 1) := by omega
  have h1 : (p * 1000 * 32768 + 1000 * (freq + 1) / 2) / (1000 * (freq + 1)) = p * tps := by
    rw [Nat.div_eq_iff hpos]
    have : p * 1000 * 32768 = p * tps * (1000 * (freq + 1)) := by
      rw [← hf]; simp only [Nat.mul_comm, Nat.mul_left_comm, Nat.mul_assoc]
    omega
  rw [appTimerTicks, h1, Nat.mod_eq_of_lt hp]

private theorem fires_get {m : Nat} (hm : m ≠ 0) :
    ∀ (n : Nat) (t : Nrf5Timer), t.interval = m → t.elapsed + n < 2 ^ 32 →
      ∀ i, i < n → (Nrf5Timer.fires n t)[i]? = some ((t.elapsed + i + 1) % m == 0)
  | n + 1, t, ht, hb, i, hi => by
    have he : t.expire = ((t.elapsed + 1) % m == 0, { t with elapsed := t.elapsed + 1 }) := by
      unfold Nrf5Timer.expire
      rw [if_pos (by omega), Nat.mod_eq_of_lt (by omega), ht]
    rw [Nrf5Timer.fires, he]
    cases i with
    | zero => rfl
    | succ i =>
      rw [List.getElem?_cons_succ]
      have := fires_get hm n { t with elapsed := t.elapsed + 1 } ht (by simp only; omega) i (by omega)
      rw [this]
      simp only [Option.some.injEq]
      congr 2
      omega

private theorem fires_all (t : Nrf5Timer) (h : t.interval = 0) :
    ∀ n i, i < n → (Nrf5Timer.fires n t)[i]? = some true
  | n + 1, i, hi => by
    have he : t.expire = (true, t) := by
      unfold Nrf5Timer.expire
      rw [if_neg (by omega)]
    rw [Nrf5Timer.fires, he]
    cases i with
    | zero => rfl
    | succ i => exact fires_all t h n i (by omega)

/-- **C77** (nRF5 heartbeat timer).  While the requested period is less than `2 ^ 32` ticks, the
`i`-th expiration of the app timer calls the heartbeat callback exactly when `i` is a multiple of
`m`, and `m` expirations take the requested period: to the tick if the period fits the 24-bit
counter, else to within 30 seconds.
Missing: longer periods (false, see `C77_false_nrf5_period`). -/
theorem C77_nrf5_timer_partial {freq tps period : Nat} (hf : (freq + 1) * tps = 32768)
    (hp : period * 1000 < 2 ^ 32) (ht : period * tps < 2 ^ 32) :
    ∃ m, 0 < m ∧
      (∀ n i, i < n → n < 2 ^ 32 →
        (Nrf5Timer.fires n (nrf5TimerBoot freq period))[i]? = some ((i + 1) % m == 0)) ∧
      (nrf5TimerBoot freq period).periodTicks < 2 ^ 24 ∧
      (period * tps < 2 ^ 24 → m * (nrf5TimerBoot freq period).periodTicks = period * tps) ∧
      (2 ^ 24 ≤ period * tps →
        m * (nrf5TimerBoot freq period).periodTicks ≤ period * tps + 30 * tps ∧
        period * tps ≤ m * (nrf5TimerBoot freq period).periodTicks + 30 * tps) := by
  have htps : tps ≤ 32768 := Nat.le_of_dvd (by omega) ⟨freq + 1, by rw [Nat.mul_comm]; omega⟩
  have h0 : appTimerTicks freq (period * 1000 % 2 ^ 32) = period * tps := by
    rw [Nat.mod_eq_of_lt hp, ticks_eq hf ht]
  have h60 : appTimerTicks freq (60 * 1000) = 60 * tps := ticks_eq hf (by omega)
  by_cases h : 0xffffff < period * tps
  · have hboot : nrf5TimerBoot freq period
        = { interval := (period + 30) / 60, periodTicks := 60 * tps } := by
      unfold nrf5TimerBoot
      simp only [h0, if_pos h, h60]
      rw [Nat.mod_eq_of_lt (by omega)]
    have hper : 512 ≤ period := by
      refine Nat.le_of_mul_le_mul_right (c := 32768) ?_ (by omega)
      have : period * tps ≤ period * 32768 := Nat.mul_le_mul_left _ htps
      omega
    have hm : 0 < (period + 30) / 60 := by omega
    refine ⟨(period + 30) / 60, hm, ?_, ?_, fun h' => by omega, fun _ => ?_⟩
    · intro n i hi hn
      rw [hboot, fires_get (Nat.ne_of_gt hm) n _ rfl (by simpa using hn) i hi]
      simp only [Nat.zero_add]
    · rw [hboot]
      simp only
      omega
    · rw [hboot]
      simp only
      have e1 : (period + 30) / 60 * (60 * tps) = ((period + 30) / 60 * 60) * tps := by
        rw [Nat.mul_assoc]
      rw [e1, ← Nat.add_mul, ← Nat.add_mul]
      exact ⟨Nat.mul_le_mul_right _ (by omega), Nat.mul_le_mul_right _ (by omega)⟩
  · have hboot : nrf5TimerBoot freq period
        = { interval := 0, periodTicks := period * tps } := by
      unfold nrf5TimerBoot
      simp only [h0, if_neg h]
    refine ⟨1, by omega, ?_, ?_, fun _ => ?_, fun h' => by omega⟩
    · intro n i hi _
      rw [hboot, fires_all _ rfl n i hi]
      simp [Nat.mod_one]
    · rw [hboot]
      simp only
      omega
    · rw [hboot]
      simp only
      omega

/-- Non-vacuity of `C77_nrf5_timer_partial`: an hourly heartbeat on the one-minute timer. -/
example : nrf5TimerBoot 0 3600 = { interval := 60, periodTicks := 1966080 } ∧
    nrf5TimerBoot 0 300 = { interval := 0, periodTicks := 9830400 } := by decide

/-- **C77, false for long periods.**  A period of `2 ^ 32` ticks or more (36 h at 32768 Hz) wraps in
the 32-bit conversion to ticks: a heartbeat asked for every 131073 s comes every second. -/
theorem C77_false_nrf5_period :
    nrf5TimerBoot 0 131073 = { interval := 0, periodTicks := 32768 } := by decide

/-! ## Particle and DA145xx -/

/-- **C77** (Particle, DA145xx, partial).  The time is right for the first 49 days, or the first 23 hours with the BLE core
running; missing: after that, see `C77_false_wraps`. -/
theorem C77_counters_partial (t : Nat) :
    (t < 4294967296 → particleMs t = t) ∧ (t < 134217728 → da145xxMs true t = t * 625 / 1000) := by
  unfold particleMs da145xxMs
  constructor
  · intro h; omega
  · intro h
    rw [if_pos rfl, Nat.mod_eq_of_lt (by omega)]

/-- **C77 is false (Particle, DA145xx).**  Whenever the counter of the system wraps around (every 49.7 days, or 23.3
hours), the time goes back to the boot, and on a DA145xx it is 0 whenever the BLE core does not run. -/
theorem C77_false_wraps (n : Nat) :
    particleMs (4294967296 * n + 4294967295) = 4294967295 ∧ particleMs (4294967296 * (n + 1)) = 0 ∧
    da145xxMs true (134217728 * n + 134217727) = 83886079 ∧ da145xxMs true (134217728 * (n + 1)) = 0 ∧
    ∀ t, da145xxMs false t = 0 := by
  unfold particleMs da145xxMs
  refine ⟨by omega, by omega, ?_, ?_, fun t => rfl⟩
  · rw [if_pos rfl]; omega
  · rw [if_pos rfl]; omega

/-- A day after boot: right on Particle, and less than an hour on a DA145xx. -/
example : particleMs 86400000 = 86400000 ∧ da145xxMs true 138240000 = 2513920 := by decide

end Mflt.Props
