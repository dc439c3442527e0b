import Verif.Spec.SelfTest
import Verif.Props.BuildId
import Verif.Props.CoredumpStorage

/-! # C80: the self test -/

namespace Mflt.Props

open SelfTest Spec.SelfTest

/-! ## Device information -/

private theorem strnlen_some : ∀ (mem : Bytes) (n k : Nat), strnlen mem n = some k →
    k ≤ n ∧ k ≤ mem.length ∧ 0 ∉ mem.take k ∧ (k < n → ∃ rest, mem = mem.take k ++ 0 :: rest)
  | mem, 0, k, h => by
    simp only [strnlen, Option.some.injEq] at h
    subst h
    simp
  | [], n + 1, k, h => by simp [strnlen] at h
  | c :: mem, n + 1, k, h => by
    rw [strnlen] at h
    split at h
    · rename_i hc
      rw [Option.map_eq_some_iff] at h
      obtain ⟨k', hk', rfl⟩ := h
      obtain ⟨h1, h2, h3, h4⟩ := strnlen_some mem n k' hk'
      refine ⟨by omega, by rw [List.length_cons]; omega, ?_, ?_⟩
      · rw [List.take_succ_cons, List.mem_cons]
        rintro (h | h)
        · exact hc h.symm
        · exact h3 h
      · intro hlt
        obtain ⟨rest, hr⟩ := h4 (by omega)
        exact ⟨rest, by rw [List.take_succ_cons, List.cons_append, ← hr]⟩
    · rename_i hc
      simp only [Option.some.injEq] at h
      subst h
      have : c = 0 := by simpa using hc
      subst this
      refine ⟨by omega, by omega, by simp, fun _ => ⟨mem, rfl⟩⟩

private theorem strnlen_holds {rest : Bytes} : ∀ {s : Bytes} (n : Nat), 0 ∉ s →
    strnlen (s ++ 0 :: rest) n = some (min s.length n)
  | s, 0, _ => by simp [strnlen]
  | [], n + 1, _ => by simp [strnlen]
  | c :: s, n + 1, h => by
    rw [List.mem_cons, not_or] at h
    rw [List.cons_append, strnlen, if_pos (fun e => h.1 e.symm), strnlen_holds n h.2]
    simp only [Option.map_some, List.length_cons, Option.some.injEq]
    omega

private theorem strnlen_long : ∀ (mem : Bytes) (n : Nat), n ≤ mem.length → ∃ k, strnlen mem n = some k
  | _, 0, _ => ⟨0, by simp [strnlen]⟩
  | [], n + 1, h => by simp at h
  | c :: mem, n + 1, h => by
    rw [strnlen]
    obtain ⟨k, hk⟩ := strnlen_long mem n (by rw [List.length_cons] at h; omega)
    split
    · exact ⟨k + 1, by rw [hk]; rfl⟩
    · exact ⟨0, rfl⟩

private theorem validateString_eq (v : UInt8 → Bool) : ∀ (len : Nat) (mem : Bytes), len ≤ mem.length →
    validateString v len mem = some ((mem.take len).all v)
  | 0, _, _ => by simp [validateString]
  | len + 1, [], h => by simp at h
  | len + 1, c :: mem, h => by
    rw [validateString, List.take_succ_cons, List.all_cons]
    cases hv : v c with
    | false => simp
    | true =>
      simp only [Bool.not_true, Bool.false_eq_true, if_false, Bool.true_and]
      exact validateString_eq v len mem (by rw [List.length_cons] at h; omega)

/-- The characters each field may have. -/
private def charsOf : Field → Bytes
  | .deviceSerial => serialChars
  | .softwareType => versionChars
  | .softwareVersion => printable
  | .hardwareVersion => versionChars

private theorem validator_iff (f : Field) (c : UInt8) : f.validator c = true ↔ c ∈ charsOf f := by
  have h : ∀ n : Fin 256, f.validator (UInt8.ofNat n) = decide (UInt8.ofNat n ∈ charsOf f) := by
    cases f <;> decide +kernel
  have := h ⟨c.toNat, c.toNat_lt⟩
  rw [UInt8.ofNat_toNat] at this
  rw [this, decide_eq_true_iff]

private theorem field_valid {max : Nat} {f : Option Bytes} (h : Readable max f) (field : Field) :
    ∃ b, isFieldValid max f field = some b ∧ (b = true ↔ Valid max (charsOf field) f) := by
  cases f with
  | none => exact ⟨false, rfl, by simp [Valid]⟩
  | some mem =>
    have hk : ∃ k, strnlen mem (max + 1) = some k := by
      rcases h mem rfl with ⟨s, h0, rest, rfl⟩ | h
      · exact ⟨_, strnlen_holds _ h0⟩
      · exact strnlen_long _ _ h
    obtain ⟨k, hk⟩ := hk
    obtain ⟨h1, h2, h3, h4⟩ := strnlen_some _ _ _ hk
    simp only [isFieldValid, hk, Option.bind_some]
    have uniq : ∀ s, Holds mem s → k = min s.length (max + 1) := by
      rintro s ⟨h0, rest, rfl⟩
      rw [strnlen_holds _ h0] at hk
      exact (Option.some.inj hk).symm
    by_cases hl : k < 1 ∨ k > max
    · rw [if_pos hl]
      refine ⟨false, rfl, ?_⟩
      simp only [Bool.false_eq_true, false_iff]
      rintro ⟨mem', s, e, hs, l1, l2, -⟩
      cases e
      have := uniq s hs
      omega
    · rw [if_neg hl, validateString_eq _ _ _ h2]
      refine ⟨_, rfl, ?_⟩
      obtain ⟨rest, hr⟩ := h4 (by omega)
      have hlen : (mem.take k).length = k := by rw [List.length_take]; omega
      rw [List.all_eq_true]
      constructor
      · intro hv
        exact ⟨mem, mem.take k, rfl, ⟨h3, rest, hr⟩, by omega, by omega,
          fun c hc => (validator_iff field c).1 (hv c hc)⟩
      · rintro ⟨mem', s, e, hs, l1, l2, hv⟩
        cases e
        have hks := uniq s hs
        obtain ⟨h0, rest', hm⟩ := hs
        have : mem.take k = s := by
          rw [hm, show k = s.length by omega, List.take_left]
        rw [this]
        exact fun c hc => (validator_iff field c).2 (hv c hc)

private theorem field_bits {max : Nat} {f : Option Bytes} (h : Readable max f) (field : Field) :
    ∃ b, (b = true ↔ Valid max (charsOf field) f) ∧
      validateField max f field = some (if !b then 2 ^ field.index else 0) := by
  obtain ⟨b, h1, h2⟩ := field_valid h field
  exact ⟨b, h2, by rw [validateField, h1]; simp [Nat.shiftLeft_eq]⟩

/-- **C80 (device information).** For every device information that can be read at all (each field a
null pointer, a C string, or more bytes than may be used), the test ends without reading elsewhere.
Bit by bit it says which field is not a C string of 1 to `max` allowed characters, and whether the
build id is missing; no other bit is set. -/
theorem C80_device_info (max : Nat) (g : BuildId.Id) (i : DeviceInfo)
    (hg : Spec.BuildId.NoId g ∨ ∃ id, Spec.BuildId.HasId g id)
    (h0 : Readable max i.deviceSerial) (h1 : Readable max i.softwareType)
    (h2 : Readable max i.softwareVersion) (h3 : Readable max i.hardwareVersion) :
    ∃ r, deviceInfoTest max g i = some r ∧ r < 32 ∧
      (r.testBit 0 = false ↔ Valid max serialChars i.deviceSerial) ∧
      (r.testBit 1 = false ↔ Valid max versionChars i.softwareType) ∧
      (r.testBit 2 = false ↔ Valid max printable i.softwareVersion) ∧
      (r.testBit 3 = false ↔ Valid max versionChars i.hardwareVersion) ∧
      (r.testBit 4 = false ↔ ∃ id, Spec.BuildId.HasId g id) := by
  obtain ⟨b0, e0, v0⟩ := field_bits h0 .deviceSerial
  obtain ⟨b1, e1, v1⟩ := field_bits h1 .softwareType
  obtain ⟨b2, e2, v2⟩ := field_bits h2 .softwareVersion
  obtain ⟨b3, e3, v3⟩ := field_bits h3 .hardwareVersion
  have hb : ∃ b4 : Bool, (b4 = true ↔ ∃ id, Spec.BuildId.HasId g id) ∧
      validateBuildId g = some (if !b4 then 16 else 0) := by
    have c := C64_build_id_string g (List.replicate 41 0)
    rw [List.length_replicate] at c
    rcases hg with hn | ⟨id, hid⟩
    · refine ⟨false, ?_, ?_⟩
      · simp only [Bool.false_eq_true, false_iff]
        rintro ⟨id, hid⟩
        cases hid
        · exact hn.2 rfl
        · exact hn.1 rfl
      · rw [validateBuildId, c.2.2 hn]; rfl
    · refine ⟨true, by simp only [true_iff]; exact ⟨id, hid⟩, ?_⟩
      rw [validateBuildId, c.1 id hid (by omega)]; rfl
  obtain ⟨b4, e4, v4⟩ := hb
  rw [deviceInfoTest, v4, validateDeviceInfo, v0, v1, v2, v3]
  simp only [Option.bind_some, Option.map_some]
  refine ⟨_, rfl, ?_⟩
  simp only [charsOf] at e0 e1 e2 e3
  rw [← e0, ← e1, ← e2, ← e3, ← e4]
  clear e0 e1 e2 e3 e4 v0 v1 v2 v3 v4
  revert b0 b1 b2 b3 b4
  decide

/-- Non-vacuity: a serial with a space, a version that is too long, and no build id. -/
example : deviceInfoTest 4 ⟨1, []⟩
    ⟨some [65, 32, 66, 0], some [97, 98, 0], some [49, 46, 48, 46, 49], some [49, 46, 43, 58, 0, 7]⟩
    = some 0b10101 := by decide +kernel

/-! ## The other tests -/

/-- **C80 (components).** Bit `k` is set exactly if component `k` has not been booted. -/
theorem C80_components (events logging reboot traces : Bool) :
    ∀ k, (componentBootTest events logging reboot traces).testBit k =
      match k with
      | 0 => !events
      | 1 => !logging
      | 2 => !reboot
      | 3 => !traces
      | _ => false := by
  have hlt : componentBootTest events logging reboot traces < 2 ^ 4 := by
    revert events logging reboot traces; decide
  intro k
  match k with
  | 0 => revert events logging reboot traces; decide
  | 1 => revert events logging reboot traces; decide
  | 2 => revert events logging reboot traces; decide
  | 3 => revert events logging reboot traces; decide
  | k + 4 =>
    exact Nat.testBit_lt_two_pow (Nat.lt_of_lt_of_le hlt (Nat.pow_le_pow_right (by omega) (by omega)))

/-- **C80 (export line).** For every size of the buffer for a line of exported data (it has room for
`MC:`, `:` and the terminator), the test prints one line of the greatest length there can be:
plus signs and a final 1. -/
theorem C80_export_line (maxLen : Nat) (h : 5 ≤ maxLen) :
    ∃ mem, dataExportLine maxLen = some mem ∧
      mem = List.replicate (maxLen - 2) 43 ++ [49, 0] ∧ mem.length = maxLen := by
  refine ⟨_, ?_, rfl, ?_⟩
  · rw [dataExportLine, memcpyIn, if_pos (by simp only [List.length_replicate]; omega), Option.bind_some]
    have e : (List.replicate maxLen (0 : UInt8)).take 0 ++ List.replicate (maxLen - 2) (43 : UInt8) ++
        (List.replicate maxLen 0).drop (0 + (List.replicate (maxLen - 2) (43 : UInt8)).length) =
        List.replicate (maxLen - 2) 43 ++ [0, 0] := by
      rw [List.take_zero, List.nil_append, List.length_replicate, List.drop_replicate,
        show maxLen - (0 + (maxLen - 2)) = 2 by omega]
      rfl
    rw [e, memcpyIn, if_pos (by simp), List.take_left' (List.length_replicate ..)]
    congr 1
    rw [List.append_assoc]
    congr 1
    rw [List.drop_append, List.drop_eq_nil_of_le (by simp)]
    simp
  · simp only [List.length_append, List.length_replicate, List.length_cons, List.length_nil]
    omega

/-- **C80 (regions).** -/
theorem C80_regions (num : Nat) (null : Bool) :
    regionsTest num null = 0 ↔ 0 < num ∧ null = false := by
  unfold regionsTest
  cases null <;> simp only [Bool.false_eq_true, if_false, if_true]
  · split <;> simp <;> omega
  · simp

/-- **C80 (time).** It passes exactly if the time since boot is not zero and has grown, and the date is
a Unix time not before 2024-01-29; the bits tell which half failed. -/
theorem C80_time (t0 t1 : Nat) (current : Option (Nat × Nat)) :
    (timeTest t0 t1 current = 0 ↔
      (0 < t0 ∧ t0 < t1) ∧ ∃ secs, current = some (1, secs) ∧ 1706486400 ≤ secs) ∧
    (timeTest t0 t1 current % 4 = 0 ↔ 0 < t0 ∧ t0 < t1) := by
  have h1 : timeSinceBootTest t0 t1 = 0 ↔ 0 < t0 ∧ t0 < t1 := by
    unfold timeSinceBootTest
    split
    · simp; omega
    · split <;> simp <;> omega
  have h1' : timeSinceBootTest t0 t1 = 0 ∨ timeSinceBootTest t0 t1 = 1 ∨
      timeSinceBootTest t0 t1 = 2 := by
    unfold timeSinceBootTest
    split
    · simp
    · split <;> simp
  have h2 : currentTimeTest current = 0 ↔ ∃ secs, current = some (1, secs) ∧ 1706486400 ≤ secs := by
    match current with
    | none => simp [currentTimeTest]
    | some (type, secs) =>
      simp only [currentTimeTest, Option.some.injEq, Prod.mk.injEq]
      split
      · rename_i h
        refine ⟨fun e => absurd e (by decide), ?_⟩
        rintro ⟨_, ⟨rfl, rfl⟩, -⟩
        exact absurd rfl h
      · rename_i h
        have : type = 1 := by omega
        subst this
        split
        · rename_i h'
          refine ⟨fun e => absurd e (by decide), ?_⟩
          rintro ⟨_, ⟨-, rfl⟩, h3⟩
          omega
        · rename_i h'
          simp only [true_iff]
          exact ⟨secs, ⟨trivial, rfl⟩, by omega⟩
  have h2' : currentTimeTest current = 0 ∨ currentTimeTest current = 4 ∨ currentTimeTest current = 8 ∨
      currentTimeTest current = 16 := by
    unfold currentTimeTest
    split
    · simp
    · split
      · simp
      · split <;> simp
  rw [← h1, ← h2, timeTest]
  clear h1 h2
  rcases h1' with h1' | h1' | h1' <;> rcases h2' with h2' | h2' | h2' | h2' <;> rw [h1', h2'] <;>
    decide

/-- **C80 (capacity).** -/
theorem C80_capacity (needed size : Nat) : capacityTest needed size = 0 ↔ needed ≤ size := by
  unfold capacityTest Coredump.checkSize
  by_cases h : needed ≤ size
  · simp [h]
  · simp [h]

/-! ## Reboot -/

/-- **C80 (reboot).** The reboot test followed by its verification: whatever the reset is and whatever
the hardware reports, provided the region of reboot tracking survives, verification passes exactly if
no other reason was waiting to be collected when the test was started. -/
theorem C80_reboot (s : RebootTracking.State) (hi : s.stat.info = true) (regs : RebootTracking.Regs)
    (b : Option RebootTracking.Bootup) :
    rebootVerify (RebootTracking.boot ⟨(rebootTest s regs).ram, RebootTracking.Stat.init⟩ b) = 0 ↔
      (s.ram.magic ≠ 0x21544252 ∨ s.ram.reason = 0xffffffff ∨ s.ram.reason = 0x000b) := by
  have hm : ∀ r : RebootTracking.Ram, r.magic = 0x21544252 →
      (RebootTracking.exec (RebootTracking.eventStores 0x000b (some regs) r) r).magic = 0x21544252 ∧
      (RebootTracking.exec (RebootTracking.eventStores 0x000b (some regs) r) r).reason =
        if r.reason = 0xffffffff then 0x000b else r.reason := by
    intro r hr
    unfold RebootTracking.eventStores RebootTracking.notSet
    by_cases h : r.reason = 0xffffffff
    · rw [if_neg (by simpa using h), if_pos h]
      exact ⟨hr, rfl⟩
    · rw [if_pos h, if_neg h]
      exact ⟨hr, rfl⟩
  have hc : (RebootTracking.checkOrInit s.ram).magic = 0x21544252 ∧
      (RebootTracking.checkOrInit s.ram).reason =
        if s.ram.magic = 0x21544252 then s.ram.reason else 0xffffffff := by
    unfold RebootTracking.checkOrInit RebootTracking.magic
    split
    · rename_i h; exact ⟨h, rfl⟩
    · exact ⟨rfl, rfl⟩
  obtain ⟨h1, h2⟩ := hm _ hc.1
  rw [hc.2] at h2
  have hr : (rebootTest s regs).ram =
      RebootTracking.exec (RebootTracking.eventStores 0x000b (some regs)
        (RebootTracking.checkOrInit s.ram)) (RebootTracking.checkOrInit s.ram) := by
    rw [rebootTest, RebootTracking.mark, if_pos hi]
  rw [← hr] at h1 h2
  generalize (rebootTest s regs).ram = ram at h1 h2
  have hck : RebootTracking.checkOrInit ram = ram := by
    rw [RebootTracking.checkOrInit, RebootTracking.magic, if_pos h1]
  unfold rebootVerify RebootTracking.getRebootReason RebootTracking.boot RebootTracking.bootStat
    RebootTracking.recordReason
  simp only [hck, if_true, RebootTracking.notSet, h2]
  by_cases g1 : s.ram.magic = 0x21544252
  · rw [if_pos g1]
    by_cases g2 : s.ram.reason = 0xffffffff
    · simp [g2]
    · simp only [g1, g2, if_false, ne_eq, not_true_eq_false, not_false_eq_true, if_true, false_or]
      split <;> simp [*]
  · simp [g1]

/-- Non-vacuity: a device with no reason stored passes, one with a pending reason does not. -/
example :
    rebootVerify (RebootTracking.boot ⟨(rebootTest ⟨⟨0x21544252, 0, 0, 0xffffffff, 0, 0, 0, 0⟩,
      ⟨true, 0, 0, true⟩⟩ ⟨1, 2⟩).ram, RebootTracking.Stat.init⟩ (some ⟨4, 8⟩)) = 0 ∧
    rebootVerify (RebootTracking.boot ⟨(rebootTest ⟨⟨0x21544252, 0, 0, 0x8001, 0, 0, 0, 0⟩,
      ⟨true, 0, 0, true⟩⟩ ⟨1, 2⟩).ram, RebootTracking.Stat.init⟩ (some ⟨4, 8⟩)) = 1 := by decide

/-- **C80 (no boot information).** Where reboot tracking was not started since the reset, the
verification fails: no reason is known. -/
theorem C80_verify_not_booted (ram : RebootTracking.Ram) :
    rebootVerify ⟨ram, ⟨false, 0, 0, false⟩⟩ = 1 := rfl

/-! ## Coredump storage -/

/-- **C80 (storage).** A valid coredump makes the test fail and is left alone; so is the storage if
interrupts cannot be disabled. If the test passes, for a storage that can be read back, the storage
was erased, every byte of it then held the last value written, and it has been cleared: a coredump
can be saved in it and none is in it. -/
theorem C80_storage (p : CoredumpStorage.Platform Bytes) (readOk irqs : Bool) (m : Bytes) :
    ((Coredump.hasValid readOk m).isSome = true → storageTest p readOk irqs m = some (1, m)) ∧
    (Coredump.hasValid readOk m = none → irqs = false → storageTest p readOk irqs m = some (2, m)) ∧
    (Spec.CoredumpStorage.Readable p →
      (∀ m m', m.length = p.size → p.clear m = some m' → m'.length = p.size) →
      p.size ≤ 4294967280 → m.length = p.size →
      ∀ m', storageTest p readOk irqs m = some (0, m') →
        Coredump.hasValid readOk m = none ∧ irqs = true ∧
        (∃ m0 m1, p.saveBegin m = some (true, m0) ∧ p.erase m0 0 p.size = some (true, m1) ∧
          ∀ b ∈ m1, b = 0x00 ∨ b = 0xff) ∧
        p.clear (Spec.CoredumpStorage.testImage p.size) = some m' ∧
        (m'.head? = some 0x00 ∨ m'.head? = some 0xff)) := by
  refine ⟨?_, ?_, ?_⟩
  · intro h
    rw [storageTest, if_pos h]; rfl
  · intro h1 h2
    rw [storageTest, h1, h2]; rfl
  · intro hr hcl hmax hlen m' ht
    unfold storageTest at ht
    split at ht
    · simp at ht
    · rename_i hv
      split at ht
      · simp at ht
      · rename_i hi
        refine ⟨by simpa using hv, by simpa using hi, ?_⟩
        cases hb : CoredumpStorage.testBegin p m with
        | none => rw [hb] at ht; simp at ht
        | some r =>
          obtain ⟨res, m1⟩ := r
          rw [hb, Option.bind_some] at ht
          simp only at ht
          cases hf : CoredumpStorage.testFinish p res m1 with
          | none => rw [hf] at ht; simp at ht
          | some f =>
            obtain ⟨ok, res', m2⟩ := f
            rw [hf] at ht
            cases ok with
            | false => simp at ht
            | true =>
              simp only [Option.map_some, if_true, Option.some.injEq, Prod.mk.injEq, true_and] at ht
              subst ht
              have hres : res = .success := by
                unfold CoredumpStorage.testFinish at hf
                split at hf
                · rfl
                · simp at hf
              subst hres
              obtain ⟨hs, himg, hex⟩ := C65_storage_test_sound p hr hmax m m1 hlen hb
              have hl1 : m1.length = p.size := by
                rw [himg]; simp [Spec.CoredumpStorage.testImage]
              obtain ⟨-, c1, c2⟩ := C65_verdict p hr hcl hs _ _ m1 m2 hl1 hf
              exact ⟨hex, himg ▸ c1, c2⟩

/-- Non-vacuity: the storage in RAM passes. -/
example : ∃ m', storageTest (CoredumpStorage.ram 40) true true (List.replicate 40 7) = some (0, m') :=
  ⟨0 :: (Spec.CoredumpStorage.testImage 40).tail, by decide +kernel⟩

/-! ## The run -/

/-- **C80 (run).** The run returns 0 exactly if every selected test passed (and a selected storage
test is enabled), and 1 otherwise; except that verification of a reboot must not be selected together
with the tests run before it (`C80_false_verify`). -/
theorem C80_run_partial (enabled : Bool) (flags : Nat) (t : Results) (h4 : flags.testBit 4 = false)
    (h5 : flags.testBit 5 = true →
      flags.testBit 0 = false ∧ flags.testBit 1 = false ∧ flags.testBit 2 = false) :
    (run enabled flags t = .returns 0 ↔
      (∀ r ∈ selected flags t, r = 0) ∧ (flags.testBit 7 = true → enabled = true)) ∧
    (run enabled flags t = .returns 0 ∨ run enabled flags t = .returns 1) := by
  unfold run selected
  simp only [h4, Bool.false_eq_true, if_false, End.returns.injEq]
  constructor
  · cases e0 : flags.testBit 0 <;> cases e1 : flags.testBit 1 <;> cases e2 : flags.testBit 2 <;>
    cases e5 : flags.testBit 5 <;> cases e6 : flags.testBit 6 <;> cases e7 : flags.testBit 7 <;>
    cases e8 : flags.testBit 8 <;> simp [e0, e1, e2, e5] at h5 <;>
    cases enabled <;>
    simp [List.filterMap, e0, e1, e2, e5, e6, e7, e8, and_assoc]
  · generalize (if flags.testBit 8 = true then _ else _ : Nat) = x
    by_cases hx : x = 0
    · exact Or.inl (if_pos hx)
    · exact Or.inr (if_neg hx)

/-- Non-vacuity: the default tests, one of which fails. -/
example : run false 0x14f ⟨0, 0, 0, 0, 8, 0, 0⟩ = .returns 1 ∧
    run false 0x14f ⟨0, 0, 0, 1, 0, 1, 0⟩ = .returns 0 := by decide

/-- The reboot test never returns. -/
theorem C80_run_reboots (enabled : Bool) (flags : Nat) (t : Results) (h4 : flags.testBit 4 = true) :
    run enabled flags t = .reboots := by
  unfold run
  simp only [h4, if_true]

/-- **C80, false** when the verification of a reboot is selected together with other tests: if it
passes, failures of device information, components and coredump regions are forgotten. -/
theorem C80_false_verify (enabled : Bool) (t : Results) (h : t.rebootVerify = 0) :
    run enabled 0b100111 t = .returns 0 := by
  unfold run
  simp [h, Nat.testBit]

example : run true 0b100111 ⟨1, 2, 1, 0, 0, 0, 0⟩ = .returns 0 := by decide

/-! ## The argument of the command line -/

private theorem strncmp_spec {rest rest' : Bytes} : ∀ (n : Nat) (a b : Bytes), 0 ∉ a → 0 ∉ b →
    b.length < n → strncmpEq n (a ++ 0 :: rest) (b ++ 0 :: rest') = some (decide (a = b))
  | 0, _, _, _, _, h => by omega
  | n + 1, [], [], _, _, _ => by simp [strncmpEq]
  | n + 1, [], b :: bs, _, hb, _ => by
    have : (0 : UInt8) ≠ b := fun e => hb (e ▸ List.mem_cons_self ..)
    simp [strncmpEq, this]
  | n + 1, a :: as, [], ha, _, _ => by
    have : a ≠ 0 := fun e => ha (e ▸ List.mem_cons_self ..)
    simp [strncmpEq, this]
  | n + 1, a :: as, b :: bs, ha, hb, h => by
    have h0 : a ≠ 0 := fun e => ha (e ▸ List.mem_cons_self ..)
    rw [List.cons_append, List.cons_append, strncmpEq]
    by_cases e : a = b
    · subst e
      rw [if_neg (by simp), if_neg h0, strncmp_spec n as bs (fun h => ha (List.mem_cons_of_mem _ h))
        (fun h => hb (List.mem_cons_of_mem _ h)) (by rw [List.length_cons] at h; omega)]
      simp
    · rw [if_pos e]
      simp [e]

/-- **C80 (argument).** Exactly the three names select their test; any other argument, however long,
selects the default tests. Nothing behind the argument's terminator is read. -/
theorem C80_argument (mem arg : Bytes) (h : Holds mem arg) : argToFlag mem = some (flagOf arg) := by
  obtain ⟨h0, rest, rfl⟩ := h
  have k1 := strncmp_spec (rest := rest) (rest' := []) 30 arg (ascii "reboot") h0 (by decide)
    (by decide)
  have k2 := strncmp_spec (rest := rest) (rest' := []) 30 arg (ascii "reboot_verify") h0 (by decide)
    (by decide)
  have k3 := strncmp_spec (rest := rest) (rest' := []) 30 arg (ascii "coredump_storage") h0 (by decide)
    (by decide)
  have t : testFlags = [(ascii "reboot" ++ 0 :: [], 16), (ascii "reboot_verify" ++ 0 :: [], 32),
      (ascii "coredump_storage" ++ 0 :: [], 128)] := by decide
  rw [argToFlag, t]
  unfold flagOf
  simp only [argLoop, k1, k2, k3]
  by_cases e1 : arg = ascii "reboot"
  · rw [if_pos e1, decide_eq_true e1]
  rw [if_neg e1, decide_eq_false e1]
  by_cases e2 : arg = ascii "reboot_verify"
  · rw [if_pos e2, decide_eq_true e2]
  rw [if_neg e2, decide_eq_false e2]
  by_cases e3 : arg = ascii "coredump_storage"
  · rw [if_pos e3, decide_eq_true e3]
  rw [if_neg e3, decide_eq_false e3]
  rfl

example : argToFlag (ascii "reboot_verify" ++ [0]) = some 32 ∧ argToFlag (ascii "reboo" ++ [0]) = some 0x14f := by
  decide

end Mflt.Props
