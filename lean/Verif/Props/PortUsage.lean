import Verif.Spec.PortUsage

/-! # C78: usage percentages collected by the ports -/

namespace Mflt.Props

open PortUsage Spec.PortUsage

/-! ## FreeRTOS -/

private theorem delta_eq {w p c : Nat} (h1 : p ≤ c) (h2 : c < p + 2 ^ w) :
    deltaRuntime w (p % 2 ^ w) (c % 2 ^ w) = c - p := by
  have hw : 0 < 2 ^ w := Nat.two_pow_pos w
  unfold deltaRuntime
  generalize 2 ^ w = W at *
  have hp := Nat.mod_lt p hw
  have e1 := Nat.div_add_mod p W
  have e2 := Nat.div_add_mod c W
  have hc := Nat.mod_lt c hw
  by_cases h : c / W = p / W
  · rw [h] at e2
    generalize W * (p / W) = k at *
    rw [show c % W + W - p % W = (c - p) + W by omega, Nat.add_mod_right,
      Nat.mod_eq_of_lt (by omega)]
  · have hle : p / W ≤ c / W := Nat.div_le_div_right h1
    have hle2 : c / W ≤ p / W + 1 := by
      rw [← Nat.add_div_right p hw]
      exact Nat.div_le_div_right (by omega)
    rw [show c / W = p / W + 1 by omega, Nat.mul_add, Nat.mul_one] at e2
    generalize W * (p / W) = k at *
    rw [show c % W + W - p % W = c - p by omega, Nat.mod_eq_of_lt (by omega)]

private theorem rounds_up {d t : Nat} (ht : 0 < t) (hd : d ≤ t) :
    10000 - d * 10000 / t ≤ 10000 ∧ RoundsUp (10000 - d * 10000 / t) (t - d) t := by
  refine ⟨Nat.sub_le _ _, ?_⟩
  have h1 := Nat.div_add_mod (d * 10000) t
  have h2 := Nat.mod_lt (d * 10000) ht
  have h3 : d * 10000 / t ≤ 10000 := by
    refine Nat.div_le_of_le_mul ?_
    rw [Nat.mul_comm t]; omega
  unfold RoundsUp
  have e : (10000 - d * 10000 / t) * t = t * 10000 - t * (d * 10000 / t) := by
    rw [Nat.sub_mul, Nat.mul_comm (d * 10000 / t) t, Nat.mul_comm 10000 t]
  rw [e, Nat.sub_mul]
  generalize d * 10000 / t = q at *
  have : t * q ≤ t * 10000 := Nat.mul_le_mul_left _ h3
  generalize t * q = x at *
  omega

private theorem percent_eq {w pi i pt t : Nat} (h1 : pi ≤ i) (h2 : i < pi + 2 ^ w) (h3 : pt ≤ t)
    (h4 : t < pt + 2 ^ w) (h5 : (i - pi) * 10000 < 2 ^ 64) :
    calcRuntimePercent w (pi % 2 ^ w) (i % 2 ^ w) (t % 2 ^ w) (pt % 2 ^ w)
      = if t = pt then some none
        else some (some (min (i - pi) (t - pt) * 10000 / (t - pt))) := by
  unfold calcRuntimePercent
  simp only [delta_eq h1 h2, delta_eq h3 h4]
  by_cases h : t = pt
  · rw [if_pos (by omega), if_pos h]
  · have hnb : ¬ (2 ^ 64 - 1 - (2 ^ 64 - 1) / 10000 ≤ i - pi) := by omega
    rw [if_neg (by omega), if_neg h]
    simp only [if_neg hnb]
    rw [if_neg (by omega)]
    by_cases hm : t - pt < i - pi
    · rw [if_pos hm, Nat.min_eq_right (by omega), Nat.mod_eq_of_lt
        (Nat.lt_of_le_of_lt (Nat.mul_le_mul_right _ (Nat.le_of_lt hm)) h5)]
    · rw [if_neg hm, Nat.min_eq_left (by omega), Nat.mod_eq_of_lt h5]

private theorem heartbeats {w : Nat} :
    ∀ (samples : List (Nat × Nat)) (pi pt : Nat), Advancing w (pi, pt) samples →
      (∀ s ∈ samples, s.1 * 10000 < 2 ^ 64) ∨ w ≤ 32 →
      CpuReports (pi, pt) samples
        (freertosHeartbeats w { prevIdle := pi % 2 ^ w, prevTotal := pt % 2 ^ w } samples)
  | [], _, _, _, _ => trivial
  | (i, t) :: rest, pi, pt, ha, hs => by
    obtain ⟨h1, h2, h3, h4, h5⟩ := ha
    simp only at h1 h2 h3 h4
    have hb : (i - pi) * 10000 < 2 ^ 64 := by
      rcases hs with hs | hs
      · have := hs (i, t) (List.mem_cons_self ..)
        exact Nat.lt_of_le_of_lt (Nat.mul_le_mul_right _ (Nat.sub_le _ _)) this
      · have : 2 ^ w ≤ 2 ^ 32 := Nat.pow_le_pow_right (by omega) hs
        omega
    rw [freertosHeartbeats, CpuReports]
    simp only [freertosCpu]
    refine ⟨?_, heartbeats rest i t h5 (hs.imp (fun h x hx => h x (List.mem_cons_of_mem _ hx)) id)⟩
    rw [percent_eq h1 h2 h3 h4 hb]
    by_cases h : t = pt
    · rw [if_pos h, if_pos h]; rfl
    · rw [if_neg h, if_neg h]
      have hr := rounds_up (d := min (i - pi) (t - pt)) (t := t - pt) (by omega)
        (Nat.min_le_right _ _)
      refine ⟨_, rfl, ?_⟩
      simp only
      rw [Nat.mod_eq_of_lt (by omega)]
      rw [show t - pt - min (i - pi) (t - pt) = t - pt - (i - pi) by omega] at hr
      exact hr

/-- **C78** (FreeRTOS CPU usage, 32-bit run time counters).  Across any number of heartbeats and of
wrap-arounds of the counters, each heartbeat reports the share of the time since the previous one
that was not spent idle, in hundredths of a percent rounded up, between 0 and 10000; if the idle
counter has run ahead of the total, 0; if no time has passed, nothing.  Only assumed: less than
`2 ^ 32` counts from one heartbeat to the next. -/
theorem C78_freertos_cpu (samples : List (Nat × Nat)) (ha : Advancing 32 (0, 0) samples) :
    CpuReports (0, 0) samples (freertosHeartbeats 32 {} samples) :=
  heartbeats samples 0 0 ha (Or.inr (Nat.le_refl _))

/-- **C78** (FreeRTOS CPU usage, 64-bit run time counters), as long as the idle time is below
`2 ^ 64 / 10000` counts.  Missing: longer times, for which it is false (`C78_false_cpu64`). -/
theorem C78_freertos_cpu64_partial (samples : List (Nat × Nat))
    (ha : Advancing 64 (0, 0) samples) (hb : ∀ s ∈ samples, s.1 * 10000 < 2 ^ 64) :
    CpuReports (0, 0) samples (freertosHeartbeats 64 {} samples) :=
  heartbeats samples 0 0 ha (Or.inl hb)

/-- Non-vacuity of the CPU usage theorems: across a wrap of both counters, and a heartbeat at once
after another. -/
example :
    Advancing 32 (0, 0) [(3000000000, 4000000000), (4294967300, 5000000000),
      (4294967300, 5000000000)] ∧
    freertosHeartbeats 32 {} [(3000000000, 4000000000), (4294967300, 5000000000),
      (4294967300, 5000000000)] = [some (some 2500), some (some 0), some none] := by
  constructor
  · simp [Advancing]
  · decide

/-- **C78, false for 64-bit counters**: the guard against overflow compares with the wrong bound, so
a processor that was idle all the time is reported as fully used. -/
theorem C78_false_cpu64 :
    freertosHeartbeats 64 {} [(1844674407370956, 1844674407370956)] = [some (some 10000)] := by
  decide

/-- **C78, false for 64-bit counters**: an idle counter that reads less than at the previous
heartbeat makes the same guard divide the total by 10000, and a short interval then divides by
zero. -/
theorem C78_false_cpu_division {prev total prevTotal : Nat} (h0 : 0 < prev) (h1 : prev < 2 ^ 63)
    (h2 : prevTotal < total) (h3 : total < prevTotal + 10000) (h4 : total < 2 ^ 64) :
    (freertosCpu 64 { prevIdle := prev, prevTotal := prevTotal } (prev - 1) total).1 = none := by
  have hd : deltaRuntime 64 prev (prev - 1) = 2 ^ 64 - 1 := by unfold deltaRuntime; omega
  have ht : deltaRuntime 64 prevTotal total = total - prevTotal := by unfold deltaRuntime; omega
  simp only [freertosCpu, calcRuntimePercent, hd, ht]
  rw [if_neg (by omega), if_pos (show (2 : Nat) ^ 64 - 1 - (2 ^ 64 - 1) / 10000 ≤ 2 ^ 64 - 1
    from Nat.sub_le _ _), if_pos (show (2 : Nat) ^ 64 - 1 - (2 ^ 64 - 1) / 10000 ≤ 2 ^ 64 - 1
    from Nat.sub_le _ _), if_pos (show (total - prevTotal) / 10000 = 0 by omega)]
  rfl

example : (freertosCpu 64 { prevIdle := 500, prevTotal := 900 } 499 1000).1 = none := by decide

/-- **C78, false for FreeRTOS tasks**: the metric named as the maximal stack usage in percent is a
quarter of the minimal *free* share, as FreeRTOS' high water mark counts free words and the size is
in bytes.  For a task with `words` words of stack of which never fewer than `free` were free: -/
theorem C78_false_freertos_stack {scale base words free : Nat} (hw : 0 < words)
    (hb : base + 4 * words ≤ 2 ^ 32) (hf : free ≤ words) (h0 : 0 < scale)
    (hs : 100 * scale * words < 2 ^ 32) :
    freertosStackPct scale base (base + 4 * words - 4) free
      = some (100 * scale * free / (4 * words)) := by
  unfold freertosStackPct
  have h1 : (base + 4 * words - 4 + 2 ^ 32 - base + 4) % 2 ^ 32 = 4 * words % 2 ^ 32 := by omega
  have h2 : 100 * 1 * words ≤ 100 * scale * words :=
    Nat.mul_le_mul_right _ (Nat.mul_le_mul_left _ h0)
  simp only [h1, Nat.mod_eq_of_lt (show 4 * words < 2 ^ 32 by omega)]
  rw [if_neg (by omega), Nat.mod_eq_of_lt]
  exact Nat.lt_of_le_of_lt (Nat.mul_le_mul_left _ hf) hs

/-- The consequence: a task that has used up its whole 1 kB stack reports 0 %, one that has never
run 25 %. -/
example : freertosStackPct 100 0x20000000 0x200003fc 0 = some 0 ∧
    freertosStackPct 100 0x20000000 0x200003fc 256 = some 2500 := by decide

/-! ## Zephyr -/

private theorem cycle_eq {p c : Nat} (h1 : p ≤ c) (h2 : c < p + 2 ^ 64) :
    cycleDelta (c % 2 ^ 64) (p % 2 ^ 64) = c - p := by
  unfold cycleDelta
  omega

private theorem rounds_down {unit d t : Nat} (ht : 0 < t) :
    RoundsDown unit (d * unit / t) d t := by
  have h1 := Nat.div_add_mod (d * unit) t
  have h2 := Nat.mod_lt (d * unit) ht
  unfold RoundsDown
  rw [Nat.mul_comm (d * unit / t) t]
  omega

private theorem pct_le {unit d t : Nat} (hd : d ≤ t) : d * unit / t ≤ unit := by
  refine Nat.div_le_of_le_mul ?_
  exact Nat.mul_le_mul_right _ hd

private theorem zephyr_heartbeats :
    ∀ (samples : List (Nat × Nat × Nat)) (a b c : Nat), ZephyrAdvancing (a, b, c) samples →
      ZephyrReports (a, b, c) samples
        (zephyrHeartbeats { task := a % 2 ^ 64, all := b % 2 ^ 64, nonIdle := c % 2 ^ 64 } samples)
  | [], _, _, _, _ => trivial
  | (x, y, z) :: rest, a, b, c, ha => by
    obtain ⟨h1, h2, h3, h4, h5, h6, h7⟩ := ha
    simp only at h1 h2 h3 h4 h5 h6
    rw [zephyrHeartbeats, ZephyrReports]
    simp only [zephyrCpu]
    refine ⟨?_, zephyr_heartbeats rest x y z h7⟩
    rw [cycle_eq h1 h2, cycle_eq (p := b) (c := y) (by omega) (by omega),
      cycle_eq (p := c) (c := z) h5 (by omega), if_neg (by omega)]
    have hz : (z - c) * 10000 < 2 ^ 64 := by
      have : (z - c) * 10000 ≤ 1844674407370955 * 10000 := Nat.mul_le_mul_right _ (by omega)
      exact Nat.lt_of_le_of_lt this (by decide)
    have hle := pct_le (unit := 10000) h6
    refine ⟨_, rfl, rfl, rfl, ?_⟩
    simp only
    rw [Nat.mod_eq_of_lt hz, Nat.mod_eq_of_lt (by omega)]
    exact ⟨hle, rounds_down (by omega)⟩

/-- **C78** (Zephyr CPU usage).  Across any number of heartbeats, each at least one cycle and less
than `2 ^ 64 / 10000` cycles after the one before, the reported usage is the share of non-idle
cycles since then in hundredths of a percent, rounded down and at most 10000, and the cycle counts
reported are the low 32 bits of the true ones.
Missing: a heartbeat with no cycle since the last one (`C78_false_zephyr_cpu`). -/
theorem C78_zephyr_cpu_partial (samples : List (Nat × Nat × Nat))
    (ha : ZephyrAdvancing (0, 0, 0) samples) :
    ZephyrReports (0, 0, 0) samples (zephyrHeartbeats {} samples) :=
  zephyr_heartbeats samples 0 0 0 ha

/-- Non-vacuity of `C78_zephyr_cpu_partial`. -/
example : ZephyrAdvancing (0, 0, 0) [(5, 1000, 250), (9, 6000001000, 1500000250)] ∧
    zephyrHeartbeats {} [(5, 1000, 250), (9, 6000001000, 1500000250)]
      = [some { task := 5, all := 1000, pct := 2500 },
         some { task := 4, all := 1705032704, pct := 2500 }] := by
  constructor
  · simp [ZephyrAdvancing]
  · decide

/-- **C78, false for Zephyr**: without a cycle between two heartbeats the second divides by zero. -/
theorem C78_false_zephyr_cpu (s : ZephyrState) (task nonIdle : Nat) (h : s.all < 2 ^ 64) :
    (zephyrCpu s task s.all nonIdle).1 = none := by
  have : cycleDelta s.all s.all = 0 := by unfold cycleDelta; omega
  simp only [zephyrCpu, this, if_true]

/-- **C78** (Zephyr thread stacks).  For a thread with a stack of `size` bytes of which never fewer
than `free` were unused, the metric is the share used at most, in units of `1 / (100 * scale)`,
rounded down.
Missing: stacks with `2 ^ 32 / (100 * scale)` bytes in use (429 kB at the default scale) or more. -/
theorem C78_zephyr_stack_partial {scale size free : Nat} (h0 : 0 < size) (h1 : size < 2 ^ 32)
    (h2 : free ≤ size) (h3 : (size - free) * 100 * scale < 2 ^ 32) :
    ∃ v, zephyrStackPct scale size free = some v ∧ v ≤ 100 * scale ∧
      RoundsDown (100 * scale) v (size - free) size := by
  have hu : (size + 2 ^ 32 - free) % 2 ^ 32 = size - free := by omega
  unfold zephyrStackPct
  simp only [hu]
  rw [if_neg (by omega), Nat.mod_eq_of_lt h3, Nat.mul_assoc]
  exact ⟨_, rfl, pct_le (Nat.sub_le _ _), rounds_down h0⟩

/-- Non-vacuity of `C78_zephyr_stack_partial`, and what happens beyond its bound: a full stack of
512 kB is reported as 18.08 % used. -/
theorem C78_false_zephyr_stack :
    zephyrStackPct 100 1024 256 = some 7500 ∧ zephyrStackPct 100 524288 0 = some 1808 := by decide

/-- **C78** (Zephyr file system).  The free bytes are right below 4 GiB. Missing: file systems with 4 GiB or more
(`C78_false_zephyr_fs`). -/
theorem C78_zephyr_fs_partial {frsize bfree : Nat} (h : frsize * bfree < 2 ^ 32) :
    zephyrFsFree frsize bfree = frsize * bfree := Nat.mod_eq_of_lt h

example : zephyrFsFree 4096 10 = 40960 := by decide

/-- … and wrong from there on: a file system with `k * 4` GiB free reports a full one. -/
theorem C78_false_zephyr_fs (k : Nat) : zephyrFsFree 4096 (k * 2 ^ 20) = 0 := by
  unfold zephyrFsFree
  omega

/-! ## Heap usage -/

private theorem log2_lower {n : Nat} (h : n ≠ 0) : 2 ^ n.log2 ≤ n := Nat.log2_self_le h

/-- Rounding to `float` is off by at most one part in `2 ^ 24`. -/
private theorem round_bound (n : Nat) :
    roundFloat n * 2 ^ 24 ≤ n * 2 ^ 24 + n ∧ n * 2 ^ 24 ≤ roundFloat n * 2 ^ 24 + n := by
  unfold roundFloat
  simp only
  have hd := Nat.div_add_mod n (2 ^ (n.log2 - 23))
  have hm := Nat.mod_lt n (Nat.two_pow_pos (n.log2 - 23))
  have hsz : n.log2 - 23 ≠ 0 → 2 ^ (n.log2 - 23) * 2 ^ 23 ≤ n := by
    intro he
    rw [← Nat.pow_add]
    refine Nat.le_trans (Nat.pow_le_pow_right (by omega) (by omega)) (log2_lower (n := n) ?_)
    rintro rfl
    simp at he
  have hone : n.log2 - 23 = 0 → 2 ^ (n.log2 - 23) = 1 := fun h => by rw [h]
  generalize n.log2 - 23 = e at *
  generalize 2 ^ e = E at *
  generalize n / E = q at *
  generalize n % E = r at *
  split
  · rename_i h
    rw [Nat.add_mul, Nat.one_mul, Nat.mul_comm q E]
    generalize E * q = x at *
    rcases Nat.eq_zero_or_pos e with h0 | h0
    · have := hone h0; omega
    · have := hsz (by omega)
      omega
  · rename_i h
    rw [Nat.mul_comm q E]
    generalize E * q = x at *
    rcases Nat.eq_zero_or_pos e with h0 | h0
    · have := hone h0; omega
    · have := hsz (by omega)
      omega

private theorem round_small {n : Nat} (h : n < 2 ^ 24) : roundFloat n = n := by
  have hb : n.log2 - 23 = 0 := by
    rcases Nat.eq_zero_or_pos n with rfl | hp
    · simp
    · have := (Nat.log2_lt (k := 24) (n := n) (by omega)).2 h
      omega
  unfold roundFloat
  simp only [hb, Nat.pow_zero, Nat.div_one, Nat.mod_one, Nat.mul_one]
  rw [if_neg (by omega)]

private theorem float_pct {used total : Nat} (h0 : 0 < total) (h1 : used ≤ total)
    (h2 : used ≤ 429496) :
    ∃ v, floatPct used total = some v ∧ v ≤ 10000 ∧
      v ≤ used * 10000 / total + 1 ∧ used * 10000 / total ≤ v + 1 := by
  have hb := round_bound (used * 10000)
  have hu : roundFloat used = used := round_small (by omega)
  unfold floatPct
  simp only [hu]
  generalize roundFloat (used * 10000) = p at *
  rw [if_neg (by omega), if_neg (by omega)]
  have d1 := Nat.div_add_mod p total
  have m1 := Nat.mod_lt p h0
  have d2 := Nat.div_add_mod (used * 10000) total
  have m2 := Nat.mod_lt (used * 10000) h0
  refine ⟨_, rfl, ?_, ?_, ?_⟩
  · rw [Nat.div_le_iff_le_mul_add_pred h0]
    omega
  · have : p < total * (used * 10000 / total + 2) := by
      rw [Nat.mul_add]
      omega
    exact Nat.le_of_lt_succ ((Nat.div_lt_iff_lt_mul h0).2 (by rw [Nat.mul_comm _ total]; exact this))
  · have : used * 10000 < total * (p / total + 2) := by
      rw [Nat.mul_add]
      omega
    exact Nat.le_of_lt_succ ((Nat.div_lt_iff_lt_mul h0).2 (by rw [Nat.mul_comm _ total]; exact this))

private theorem float_none {used total : Nat} (h : 429496 < used) : floatPct used total = none := by
  have h1 := round_bound used
  have h2 := round_bound (roundFloat used * 10000)
  have h3 : 429497 ≤ roundFloat used := by
    rcases Nat.lt_or_ge used (2 ^ 24) with hs | hs
    · rw [round_small hs]; omega
    · generalize roundFloat used = x at *
      omega
  unfold floatPct
  simp only
  rw [if_pos]
  generalize roundFloat used = x at *
  generalize roundFloat (x * 10000) = y at *
  omega

/-- **C78** (Zephyr heap).  With no more than 429496 bytes ever allocated, `memory_pct_max` is the
largest share of the heap that was allocated, in hundredths of a percent to within one, and never
above 10000.
Missing: larger heaps (`C78_false_zephyr_heap`). -/
theorem C78_zephyr_heap_partial {maxAllocated free allocated : Nat} (h0 : 0 < free + allocated)
    (h1 : free + allocated < 2 ^ 32) (h2 : maxAllocated ≤ free + allocated)
    (h3 : maxAllocated ≤ 429496) :
    ∃ v, zephyrHeapPct maxAllocated free allocated = some v ∧ v ≤ 10000 ∧
      v ≤ maxAllocated * 10000 / (free + allocated) + 1 ∧
      maxAllocated * 10000 / (free + allocated) ≤ v + 1 := by
  unfold zephyrHeapPct
  rw [Nat.mod_eq_of_lt h1]
  exact float_pct h0 h2 h3

example : zephyrHeapPct 300000 200000 200000 = some 7500 := by decide

/-- **C78, false for larger heaps** (Zephyr): once more than 429496 bytes have been allocated, the
product does not fit the conversion to `uint32_t`, which is undefined. -/
theorem C78_false_zephyr_heap {maxAllocated free allocated : Nat} (h : 429496 < maxAllocated) :
    zephyrHeapPct maxAllocated free allocated = none := float_none h

/-- **C78** (ESP-IDF heap): the same for `memory_pct_max` of ESP-IDF, whose heap never had fewer
than `minFree` bytes free. Missing: larger heaps (`C78_false_esp_heap`). -/
theorem C78_esp_heap_partial {minFree free allocated : Nat} (h0 : 0 < free + allocated)
    (h1 : free + allocated < 2 ^ 32) (h2 : minFree ≤ free + allocated)
    (h3 : free + allocated - minFree ≤ 429496) :
    ∃ v, espHeapPct minFree free allocated = some v ∧ v ≤ 10000 ∧
      v ≤ (free + allocated - minFree) * 10000 / (free + allocated) + 1 ∧
      (free + allocated - minFree) * 10000 / (free + allocated) ≤ v + 1 := by
  unfold espHeapPct
  simp only [Nat.mod_eq_of_lt h1]
  rw [show (free + allocated + 2 ^ 32 - minFree) % 2 ^ 32 = free + allocated - minFree by omega]
  exact float_pct h0 (Nat.sub_le _ _) h3

example : espHeapPct 100000 200000 100000 = some 6666 := by decide

/-- **C78, false for larger heaps** (ESP-IDF, for instance with external RAM). -/
theorem C78_false_esp_heap {minFree free allocated : Nat} (h1 : free + allocated < 2 ^ 32)
    (h2 : minFree ≤ free + allocated) (h3 : 429496 < free + allocated - minFree) :
    espHeapPct minFree free allocated = none := by
  unfold espHeapPct
  simp only [Nat.mod_eq_of_lt h1]
  rw [show (free + allocated + 2 ^ 32 - minFree) % 2 ^ 32 = free + allocated - minFree by omega]
  exact float_none h3

example : espHeapPct 3000000 3500000 500000 = none := by decide

end Mflt.Props
