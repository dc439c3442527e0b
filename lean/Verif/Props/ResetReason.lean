import Verif.Spec.ResetReason

/-! # C79: the reset reason a port recovers is that of the last reset -/

namespace Mflt.Props

open ResetReason Spec.ResetReason

/-- The conditions that do not look at bits other than named flags. -/
private def named : Flag → Bool
  | .other _ => false
  | _ => true

private def quietCond : Cond → Bool
  | .set fs => fs.all named
  | .any fs => fs.all named
  | .unset f => named f
  | .zero => false
  | .masked mask _ => mask.all named
  | .only _ => false

private theorem contains_noise {r : Reg} {l : List Nat} {f : Flag} (hf : named f = true) :
    (r ++ l.map Flag.other).contains f = r.contains f := by
  rw [List.contains_eq_any_beq, List.contains_eq_any_beq, List.any_append]
  have : (l.map Flag.other).any (fun b => f == b) = false := by
    rw [List.any_eq_false]
    intro x hx
    obtain ⟨n, _, rfl⟩ := List.mem_map.1 hx
    cases f <;> simp_all [named]
  rw [this, Bool.or_false]

private theorem holds_noise {c : Cond} (hc : quietCond c = true) (r : Reg) (l : List Nat) :
    c.holds (r ++ l.map Flag.other) = c.holds r := by
  cases c with
  | set fs =>
    simp only [quietCond, List.all_eq_true] at hc
    simp only [Cond.holds]
    rw [Bool.eq_iff_iff, List.all_eq_true, List.all_eq_true]
    exact forall₂_congr fun f hf => by rw [contains_noise (hc f hf)]
  | any fs =>
    simp only [quietCond, List.all_eq_true] at hc
    simp only [Cond.holds]
    rw [Bool.eq_iff_iff, List.any_eq_true, List.any_eq_true]
    exact exists_congr fun f => and_congr_right fun hf => by rw [contains_noise (hc f hf)]
  | unset f => simp only [Cond.holds]; rw [contains_noise hc]
  | zero => cases hc
  | masked mask fs =>
    simp only [quietCond, List.all_eq_true] at hc
    simp only [Cond.holds]
    rw [Bool.eq_iff_iff, List.all_eq_true, List.all_eq_true]
    exact forall₂_congr fun f hf => by rw [contains_noise (hc f hf)]
  | only f => cases hc

private theorem match_noise {d : Nat} (r : Reg) (l : List Nat) :
    ∀ {rules : List (Cond × Nat)}, (rules.all fun x => quietCond x.1) = true →
      firstMatch d rules (r ++ l.map Flag.other) = firstMatch d rules r
  | [], _ => rfl
  | (c, n) :: rest, h => by
    rw [List.all_cons, Bool.and_eq_true] at h
    simp only [firstMatch]
    rw [holds_noise h.1, match_noise r l h.2]

private theorem reports_of {p : Port} {sticky noise : Bool} {sources : List Source}
    (h1 : ∀ s ∈ sources, firstMatch p.default p.rules s.flags = s.reason)
    (h2 : sticky = false ∨ p.clear = .all)
    (h3 : noise = false ∨ (p.rules.all fun x => quietCond x.1) = true) :
    Reports p sticky noise sources := by
  intro resets hs hn
  have gen : ∀ (resets : List (Source × List Nat)) (r : Reg), (sticky = false ∨ r = []) →
      (∀ x ∈ resets, x.1 ∈ sources) → (noise = false → ∀ x ∈ resets, x.2 = []) →
      history p sticky r (resets.map fun x => x.1.flags ++ x.2.map Flag.other)
        = resets.map (·.1.reason) := by
    intro resets
    induction resets with
    | nil => intros; rfl
    | cons x rest ih =>
      intro r hr hs hn
      have hr' : (if sticky then r ++ (x.1.flags ++ x.2.map Flag.other)
          else x.1.flags ++ x.2.map Flag.other) = x.1.flags ++ x.2.map Flag.other := by
        rcases hr with rfl | rfl
        · rfl
        · cases sticky <;> rfl
      rw [List.map_cons, List.map_cons, history]
      simp only [hr']
      rw [List.cons.injEq]
      constructor
      · simp only [Port.get]
        rcases h3 with h3 | h3
        · rw [hn h3 x (List.mem_cons_self ..), List.map_nil, List.append_nil]
          exact h1 _ (hs x (List.mem_cons_self ..))
        · rw [match_noise _ _ h3]
          exact h1 _ (hs x (List.mem_cons_self ..))
      · refine ih _ ?_ (fun y hy => hs y (List.mem_cons_of_mem _ hy))
          (fun hf y hy => hn hf y (List.mem_cons_of_mem _ hy))
        rcases h2 with h2 | h2
        · exact Or.inl h2
        · right; simp only [Port.get, h2, Clear.apply]
  exact gen resets [] (Or.inr rfl) hs hn

/-! ## The ports that clear the register, or whose register holds the last reset only -/

/-- **C79** (STM32F4). -/
theorem C79_stm32f4 : Reports (ResetReason.stm32f4 true) true true Spec.ResetReason.stm32f4 :=
  reports_of (by decide) (.inr rfl) (.inr (by decide))

/-- Non-vacuity: a software reset after a watchdog reset after power on, with other bits set. -/
example : history (ResetReason.stm32f4 true) true []
    [[.por, .bor, .pin, .other 0], [.iwdg, .pin], [.soft, .pin, .other 1]] = [7, 0x8005, 8] := by
  decide

/-- **C79** (STM32F7), with `MEMFAULT_REBOOT_REASON_CLEAR`. -/
theorem C79_stm32f7 : Reports (ResetReason.stm32f7 true) true true Spec.ResetReason.stm32f7 :=
  reports_of (by decide) (.inr rfl) (.inr (by decide))

/-- **C79** (STM32L4). -/
theorem C79_stm32l4 : Reports ResetReason.stm32l4 true true Spec.ResetReason.stm32l4 :=
  reports_of (by decide) (.inr rfl) (.inr (by decide))

/-- **C79** (STM32WB). -/
theorem C79_stm32wb : Reports (ResetReason.stm32wb true) true true Spec.ResetReason.stm32wb :=
  reports_of (by decide) (.inr rfl) (.inr (by decide))

/-- **C79** (STM32U5). -/
theorem C79_stm32u5 : Reports ResetReason.stm32u5 true true Spec.ResetReason.stm32u5 :=
  reports_of (by decide) (.inr rfl) (.inr (by decide))

/-- **C79** (STM32H7). -/
theorem C79_stm32h7 : Reports (ResetReason.stm32h7 true) true true Spec.ResetReason.stm32h7 :=
  reports_of (by decide) (.inr rfl) (.inr (by decide))

/-- **C79** (nRF5 SDK), for resets other than a lockup of the processor (`C79_false_nrf5`). -/
theorem C79_nrf5_partial : Reports nrf5 true true nordicPowerNoLockup :=
  reports_of (by decide) (.inr rfl) (.inr (by decide))

/-- **C79** (nRF Connect SDK, `POWER.RESETREAS`). -/
theorem C79_nrfx_power : Reports (nrfxPower true) true false nordicPower :=
  reports_of (by decide) (.inr rfl) (.inl rfl)

/-- **C79** (nRF Connect SDK, `RESET.RESETREAS`). -/
theorem C79_nrfx_reset : Reports (nrfxReset true) true false nordicReset :=
  reports_of (by decide) (.inr rfl) (.inl rfl)

/-- **C79** (Zephyr `hwinfo`), for drivers that report one flag per reset; see
`C79_false_zephyr_pin`. -/
theorem C79_zephyr_partial (supportsPor : Bool) :
    Reports (zephyr true supportsPor) true false (hwinfo supportsPor) :=
  reports_of (by cases supportsPor <;> decide) (.inr rfl) (.inl rfl)

/-- **C79** (DA14531). -/
theorem C79_da14531 : Reports ResetReason.da14531 true true Spec.ResetReason.da14531 :=
  reports_of (by decide) (.inr rfl) (.inr (by decide))

/-- **C79** (DA1469x). -/
theorem C79_da1469x : Reports (ResetReason.da1469x true) true false Spec.ResetReason.da1469x :=
  reports_of (by decide) (.inr rfl) (.inl rfl)

/-- **C79** (DA1468x). -/
theorem C79_da1468x : Reports ResetReason.da1468x true true Spec.ResetReason.da1468x :=
  reports_of (by decide) (.inr rfl) (.inr (by decide))

/-- **C79** (S32K), without the resets of `C79_false_s32`. -/
theorem C79_s32_partial : Reports s32 false true s32Others :=
  reports_of (by decide) (.inl rfl) (.inr (by decide))

/-- **C79** (RW61x). -/
theorem C79_rw61x : Reports ResetReason.rw61x true true Spec.ResetReason.rw61x :=
  reports_of (by decide) (.inr rfl) (.inr (by decide))

/-- **C79** (EFM32 with an RMU). -/
theorem C79_emlib_rmu : Reports (ResetReason.emlibRmu true) true true Spec.ResetReason.emlibRmu :=
  reports_of (by decide) (.inr rfl) (.inr (by decide))

/-- **C79** (EFM32 with an EMU). -/
theorem C79_emlib_emu : Reports (ResetReason.emlibEmu true) true true Spec.ResetReason.emlibEmu :=
  reports_of (by decide) (.inr rfl) (.inr (by decide))

/-- **C79** (SiWx91x). -/
theorem C79_siwx91x : Reports ResetReason.siwx91x false true Spec.ResetReason.siwx91x :=
  reports_of (by decide) (.inl rfl) (.inr (by decide))

/-- **C79** (SAML1x). -/
theorem C79_saml1x : Reports ResetReason.saml1x false true Spec.ResetReason.saml1x :=
  reports_of (by decide) (.inl rfl) (.inr (by decide))

/-- **C79** (RT1021), for histories without a reset by the temperature sensor
(`C79_false_rt1021`). -/
theorem C79_rt1021_partial : Reports (rt1021 true) true false rt1021Others := by
  intro resets hs hn
  have gen : ∀ (resets : List (Source × List Nat)), (∀ x ∈ resets, x.1 ∈ rt1021Others) →
      (∀ x ∈ resets, x.2 = []) →
      history (rt1021 true) true [] (resets.map fun x => x.1.flags ++ x.2.map Flag.other)
        = resets.map (·.1.reason) := by
    intro resets
    induction resets with
    | nil => intros; rfl
    | cons x rest ih =>
      intro hs hn
      have hx : ∀ s ∈ rt1021Others,
          (Port.get (rt1021 true) s.flags).1.1 = s.reason ∧
          (Port.get (rt1021 true) s.flags).2 = [] := by decide
      have h := hx x.1 (hs x (List.mem_cons_self ..))
      rw [List.map_cons, List.map_cons, history]
      simp only [hn x (List.mem_cons_self ..), List.map_nil, List.append_nil, List.nil_append,
        if_true, h.1, h.2]
      rw [ih (fun y hy => hs y (List.mem_cons_of_mem _ hy))
        (fun y hy => hn y (List.mem_cons_of_mem _ hy))]
  exact gen resets hs (hn rfl)

/-- **C79** (PSoC 6), if the register held the last reset only; see `C79_false_psoc6`. -/
theorem C79_psoc6_partial : Reports ResetReason.psoc6 false false Spec.ResetReason.psoc6 :=
  reports_of (by decide) (.inl rfl) (.inl rfl)

/-- **C79** (Mynewt): every cause is reported with its own reason, any other one as unknown. The register is not available. -/
theorem C79_mynewt (cause : HalReset) (reason : Nat) :
    ResetReason.mynewt cause = (0, reason) ↔
      (cause, reason) ∈ Spec.ResetReason.mynewt ∨ (∀ r, (cause, r) ∉ Spec.ResetReason.mynewt) ∧ reason = 0 := by
  cases cause <;> simp [ResetReason.mynewt, Spec.ResetReason.mynewt, ResetReason.powerOnReset, ResetReason.pinReset,
    ResetReason.hardwareWatchdog, ResetReason.softwareReset, ResetReason.brownOutReset, ResetReason.userReset,
    ResetReason.deepSleep, ResetReason.unknown, eq_comm]

/-- A firmware update. -/
example : (HalReset.dfu, 3) ∈ Spec.ResetReason.mynewt := by decide

/-- **C79** (Particle): every cause is reported with its own reason, any other one as unknown; the register is what the
Device OS says. -/
theorem C79_particle (raw : Nat) (cause : DeviceOsReset) (reason : Nat) :
    ResetReason.particle raw cause = (raw, reason) ↔
      (cause, reason) ∈ Spec.ResetReason.particle ∨
      (∀ r, (cause, r) ∉ Spec.ResetReason.particle) ∧ reason = 0 := by
  cases cause <;> simp [ResetReason.particle, Spec.ResetReason.particle, ResetReason.pinReset,
    ResetReason.hardwareWatchdog, ResetReason.softwareReset, ResetReason.brownOutReset, ResetReason.userReset,
    ResetReason.unknown, eq_comm]

/-- **C79** (ESP-IDF): every cause is reported with its own reason, any other one as unknown. -/
theorem C79_esp_idf (raw : Nat) (cause : EspReset) (reason : Nat) :
    ResetReason.espIdf raw cause = (raw, reason) ↔
      (cause, reason) ∈ Spec.ResetReason.espIdf ∨
      (∀ r, (cause, r) ∉ Spec.ResetReason.espIdf) ∧ reason = 0 := by
  cases cause <;> simp [ResetReason.espIdf, Spec.ResetReason.espIdf, ResetReason.powerOnReset,
    ResetReason.hardwareWatchdog, ResetReason.softwareReset, ResetReason.brownOutReset, ResetReason.softwareWatchdog,
    ResetReason.deepSleep, ResetReason.unknownError, ResetReason.unknown, eq_comm]

/-- **C79** (ESP8266): every cause is reported with its own reason, the sticky hardware watchdog's as unknown, any other
one as an unknown error. -/
theorem C79_esp8266 (raw : Nat) (cause : EspReset) (reason : Nat) :
    ResetReason.esp8266 raw cause = (raw, reason) ↔
      (cause, reason) ∈ Spec.ResetReason.esp8266 ∨
      (∀ r, (cause, r) ∉ Spec.ResetReason.esp8266) ∧ reason = if cause = .wdt then 0 else 0x8000 := by
  cases cause <;> simp [ResetReason.esp8266, Spec.ResetReason.esp8266, ResetReason.powerOnReset,
    ResetReason.hardwareWatchdog, ResetReason.softwareReset, ResetReason.brownOutReset,
    ResetReason.deepSleep, ResetReason.unknownError, ResetReason.unknown, eq_comm]

example : (DeviceOsReset.updateTimeout, 0x8009) ∈ Spec.ResetReason.particle ∧
    (EspReset.taskWdt, 0x800c) ∈ Spec.ResetReason.espIdf := by decide

/-! ## Where it is false -/

/-- **C79, false for the STM32H5**: the flag of the reset pin is tested first.  As it is set by
every internal reset (as the other STM32 ports know), every reset is reported as one of the pin:
a watchdog reset or a brown out is no longer told apart, nor counted as a crash. -/
theorem C79_false_stm32h5 (clear sticky : Bool) (resets : List Reg)
    (h : ∀ flags ∈ resets, Flag.pin ∈ flags) (r : Reg) :
    history (stm32h5 clear) sticky r resets = resets.map fun _ => 0x000a := by
  induction resets generalizing r with
  | nil => rfl
  | cons flags rest ih =>
    have hp : Flag.pin ∈ (if sticky then r ++ flags else flags) := by
      have := h flags (List.mem_cons_self ..)
      cases sticky
      · exact this
      · exact List.mem_append_right _ this
    rw [history, List.map_cons, ih (fun y hy => h y (List.mem_cons_of_mem _ hy))]
    congr 1
    simp only [Port.get, stm32h5, firstMatch, Cond.holds, List.all_cons, List.all_nil,
      Bool.and_true]
    rw [if_pos (List.contains_iff_mem.2 hp)]
    rfl

example : history (stm32h5 true) true [] [[.iwdg, .pin], [.bor, .pin]] = [0x000a, 0x000a] := by
  decide

/-- **C79, false for Zephyr** likewise: with a driver that reports the pin along with the source,
every reset is one of the pin. -/
theorem C79_false_zephyr_pin (clear supportsPor : Bool) (flags : Reg) (h : Flag.pin ∈ flags) :
    ((zephyr clear supportsPor).get flags).1.1 = 0x000a := by
  have hne : flags ≠ [] := List.ne_nil_of_mem h
  have hc : flags.contains Flag.pin = true := List.contains_iff_mem.2 h
  have he : flags.isEmpty = false := by cases flags <;> simp_all
  cases supportsPor <;>
    simp [Port.get, zephyr, firstMatch, Cond.holds, he, h, pinReset]

example : ((zephyr true true).get [.pin, .wdog]).1.1 = 0x000a := by decide

/-- **C79, false without clearing** (`MEMFAULT_REBOOT_REASON_CLEAR=0`, STM32F7): after one software
reset every later reset is reported as a software reset. -/
theorem C79_false_no_clear (resets : List Reg) (r : Reg) (h : Flag.soft ∈ r) :
    history (ResetReason.stm32f7 false) true r resets = resets.map fun _ => 0x0008 := by
  induction resets generalizing r with
  | nil => rfl
  | cons flags rest ih =>
    have hp : Flag.soft ∈ r ++ flags := List.mem_append_left _ h
    rw [history, List.map_cons]
    simp only [if_true]
    rw [ih ((ResetReason.stm32f7 false).get (r ++ flags)).2 hp]
    congr 1
    simp only [Port.get, ResetReason.stm32f7, firstMatch, Cond.holds, List.all_cons, List.all_nil,
      Bool.and_true]
    rw [if_pos (List.contains_iff_mem.2 hp)]
    rfl

/-- **C79, false for the PSoC 6**: the port never clears the sticky flags and compares the whole
value, so that after resets from two sources the reason is unknown for good. -/
theorem C79_false_psoc6 {a b : Flag} (hab : a ≠ b) (resets : List Reg) (r : Reg) (ha : a ∈ r)
    (hb : b ∈ r) : history ResetReason.psoc6 true r resets = resets.map fun _ => 0x0000 := by
  have key : ∀ r : Reg, a ∈ r → b ∈ r → ∀ f, (Cond.only f).holds r = false := by
    intro r ha hb f
    simp only [Cond.holds, Bool.and_eq_false_iff]
    right
    rw [List.all_eq_false]
    by_cases h : a = f
    · exact ⟨b, hb, by simpa using fun h' => hab (h.trans h'.symm)⟩
    · exact ⟨a, ha, by simpa using h⟩
  induction resets generalizing r with
  | nil => rfl
  | cons flags rest ih =>
    have h1 : a ∈ r ++ flags := List.mem_append_left _ ha
    have h2 : b ∈ r ++ flags := List.mem_append_left _ hb
    rw [history, List.map_cons]
    simp only [if_true]
    rw [ih _ (by simpa only [Port.get, ResetReason.psoc6, Clear.apply] using h1)
      (by simpa only [Port.get, ResetReason.psoc6, Clear.apply] using h2)]
    congr 1
    have he : (r ++ flags).isEmpty = false := by
      cases hrf : r ++ flags with
      | nil => rw [hrf] at h1; cases h1
      | cons => rfl
    simp only [Port.get, ResetReason.psoc6, firstMatch, key _ h1 h2]
    simp only [Cond.holds, he]
    rfl

example : history ResetReason.psoc6 true [] [[.wdog], [.soft], [.soft]] = [0x8005, 0, 0] := by decide

/-- **C79, false for the S32K**: by the register values in the port's own comment, a power on reset
is reported as a brown out, and a low voltage reset as unknown. -/
theorem C79_false_s32 :
    history s32 false [] [[.por, .lvd], [.lvd]] = [0x8003, 0x0000] := by decide

/-- **C79, false for the nRF5 SDK**: a lockup of the processor is reported as a software reset, an
expected one. -/
theorem C79_false_nrf5 : history nrf5 true [] [[.lockup]] = [0x0008] := by decide

/-- **C79, false for the RT1021**: the flag of the temperature sensor is not cleared; once set, and
unless the hardware clears it by itself, every reset but a software reset is an unknown error. -/
theorem C79_false_rt1021 (clear : Bool) (resets : List Reg) (r : Reg) (h : Flag.tempSense ∈ r)
    (hj : Flag.jtagSw ∉ r) (hs : ∀ flags ∈ resets, Flag.jtagSw ∉ flags) :
    history (rt1021 clear) true r resets = resets.map fun _ => 0x8000 := by
  induction resets generalizing r with
  | nil => rfl
  | cons flags rest ih =>
    have h1 : Flag.tempSense ∈ r ++ flags := List.mem_append_left _ h
    have h2 : Flag.jtagSw ∉ r ++ flags := by
      rw [List.mem_append]
      rintro (h' | h')
      · exact hj h'
      · exact hs flags (List.mem_cons_self ..) h'
    rw [history, List.map_cons]
    simp only [if_true]
    rw [ih _ ?_ ?_ (fun y hy => hs y (List.mem_cons_of_mem _ hy))]
    · congr 1
      simp only [Port.get, rt1021, firstMatch, Cond.holds, List.all_cons, List.all_nil,
        Bool.and_true]
      rw [if_neg (by simpa using h2), if_pos (List.contains_iff_mem.2 h1)]
      rfl
    · cases clear <;> simp [Port.get, rt1021, Clear.apply] <;> simpa using h1
    · cases clear <;> simp [Port.get, rt1021, Clear.apply] <;> simpa using h2

end Mflt.Props
