import Verif.Lemmas.MetricsConnect
import Verif.Props.Metrics

/-! # Properties of the built-in metrics: C38, C39, C40, C53 (reports), C56 -/

namespace Mflt.Props

open Metrics Spec.Metrics Collect Spec.Collect
open Spec.Cbor (Item)

/-- The values of metric `k` in the decoded reports of a session. -/
def metricIn (tab : Table) (session k : Nat) (events : List (Option Item)) : List (Option Item) :=
  events.map fun e => e.bind fun e => eventMetric e (position (tab.map keyOf) session k)

/-- A reported value as a number; -1 for null. -/
def shown : Option Item → Int
  | some (.uint n) => n
  | some (.simple 22) => -1
  | _ => -2

theorem keyDistinct {K : Keys} (h : K.all.Nodup) (i j : Nat) (hij : i ≠ j) (hi : i < 12) (hj : j < 12) :
    K.all[i]'(by simpa [Keys.all] using hi) ≠ K.all[j]'(by simpa [Keys.all] using hj) := by
  intro hc
  exact hij ((List.getElem_inj h).mp hc)

/-- The calls at boot leave the value of an unsigned metric alone. -/
theorem life_values {dev : SerializerHelper.Device} {tab : Table} {K : Keys} {k : Nat} {kv : KV}
    (hk : tab[k]? = some kv) (hty : kv.type = .unsigned) (hne : K.unexpectedRebootCount ≠ k)
    (cfg : Config) (soc : SocReading) (bootMs reboots : Nat) (evs : List Event)
    (hu : ∀ e ∈ evs, untouched k kv.session e) {es : List (Option Item)} {s : Spec.Metrics.State}
    (h : runActs dev (tab.map keyOf) kv.session (Spec.Metrics.init (tab.map keyOf))
      (life cfg K soc bootMs reboots evs) = some (es, s)) :
    metricIn tab kv.session k es =
      (values cfg K k (boot K soc bootMs reboots).2 evs).map (fun v => some (v.elim Item.null Item.int)) := by
  have hk' : (tab.map keyOf)[k]? = some (keyOf kv) := by rw [keys_get, hk]; rfl
  have hty' : (keyOf kv).ty = .unsigned := by unfold keyOf; rw [hty]; rfl
  have hinit : Spec.Metrics.init (tab.map keyOf) k = .int none := by
    unfold Spec.Metrics.init; rw [hk']; simp [hty', fresh]
  rw [life] at h
  obtain ⟨es1, s1, es2, h1, h2, rfl⟩ := runActs_split _ _ h
  obtain ⟨rfl, h3⟩ := run_calls hk' hty' rfl
    [.timerStart K.intervalMs bootMs, .setUnsigned K.unexpectedRebootCount reboots]
    (by intro op ho; simp only [List.mem_cons, List.not_mem_nil, or_false] at ho; rcases ho with rfl | rfl <;> trivial)
    hinit h1
  simp only [eff, if_neg hne] at h3
  exact (reported_values hk' hty' rfl cfg K evs hu h3 h2).1

/-- **C38 (operational hours).** Take any history of a device from boot on: metric calls, connectivity
changes and heartbeats, with heartbeats in the order of time and less than 2^32 ms minus one hour apart,
in which nobody else changes the two metrics. Then each decoded heartbeat reports exactly the hours
completed since the one before (null if there are none), the reports add up to the whole hours of uptime
at the last heartbeat, and the crash-free hours add up to the same number or to one less: one less
exactly if the boot followed an unexpected reboot and at least one hour was reported. -/
theorem C38_operational_hours {dev : SerializerHelper.Device} (hd : Spec.Event.DeviceOk dev) {tab : Table}
    (ht : TableOk tab) {K : Keys} (hK : K.all.Nodup) (cfg : Config) (soc : SocReading) (bootMs reboots : Nat)
    (evs : List Event) {kh kc : KV} (hkh : tab[K.hours]? = some kh) (hkc : tab[K.crashfreeHours]? = some kc)
    (hth : kh.type = .unsigned) (htc : kc.type = .unsigned) {session : Nat} (hsh : kh.session = session)
    (hsc : kc.session = session)
    (hu : ∀ e ∈ evs, untouched K.hours session e ∧ untouched K.crashfreeHours session e)
    (hst : steady 0 (beats evs))
    (h : (runActs dev (tab.map keyOf) session (Spec.Metrics.init (tab.map keyOf))
      (life cfg K soc bootMs reboots evs)).isSome) :
    ∃ (events : List (Option Item)) (st : Metrics.State),
      execActs dev tab session (Metrics.State.init tab) (life cfg K soc bootMs reboots evs) = some (events, st) ∧
      metricIn tab session K.hours events = (hourReports 0 (beats evs)).map some ∧
      metricIn tab session K.crashfreeHours events = (crashfreeReports 0 (beats evs)).map some ∧
      ((hourReports 0 (beats evs)).map amount).sum = hoursIn (lastBeat 0 (beats evs)) ∧
      ((crashfreeReports 0 (beats evs)).map amount).sum =
        hoursIn (lastBeat 0 (beats evs)) - (if crashed 0 (beats evs) then 1 else 0) ∧
      ∀ u, (∀ b ∈ beats evs, b.unexpectedReboot = u) →
        crashed 0 (beats evs) = (u && decide (0 < hoursIn (lastBeat 0 (beats evs)))) := by
  obtain ⟨⟨es, s⟩, h1⟩ := Option.isSome_iff_exists.mp h
  obtain ⟨st, a1, -⟩ := acts_rel hd ht _ (init_rel tab) h1
  have d := keyDistinct hK
  have hinit : (boot K soc bootMs reboots).2.reliability.At 0 := ⟨rfl, rfl⟩
  obtain ⟨e1, -⟩ := hours_sum (beats evs) 0 hst
  have e1' : ((hourReports 0 (beats evs)).map amount).sum = hoursIn (lastBeat 0 (beats evs)) := by
    rw [e1]; simp [hoursIn]
  have e2 := crashfree_sum (beats evs) 0 hst
  refine ⟨es, st, a1, ?_, ?_, e1', by rw [e2, e1'], ?_⟩
  · subst hsh
    rw [life_values hkh hth (d 1 4 (by decide) (by decide) (by decide)) cfg soc bootMs reboots evs (fun e he => (hu e he).1) h1]
    exact hours_values (d 5 4 (by decide) (by decide) (by decide)) (d 6 4 (by decide) (by decide) (by decide))
      (d 7 4 (by decide) (by decide) (by decide)) (d 8 4 (by decide) (by decide) (by decide))
      (d 9 4 (by decide) (by decide) (by decide)) (d 10 4 (by decide) (by decide) (by decide))
      (d 11 4 (by decide) (by decide) (by decide)) evs hinit hst
  · subst hsc
    rw [life_values hkc htc (d 1 5 (by decide) (by decide) (by decide)) cfg soc bootMs reboots evs (fun e he => (hu e he).2) h1]
    exact crashfree_values (d 4 5 (by decide) (by decide) (by decide)) (d 6 5 (by decide) (by decide) (by decide))
      (d 7 5 (by decide) (by decide) (by decide)) (d 8 5 (by decide) (by decide) (by decide))
      (d 9 5 (by decide) (by decide) (by decide)) (d 10 5 (by decide) (by decide) (by decide))
      (d 11 5 (by decide) (by decide) (by decide)) evs hinit hst
  · intro u hb
    rw [crashed_eq u _ 0 hst hb, e1']
    congr 1
    simp only [decide_eq_decide]
    omega

/-- A table with the built-in keys, in the order of heartbeat_config.def. -/
def builtinTab : Table := [⟨.timer, 0, 0⟩, ⟨.unsigned, 0, 0⟩, ⟨.timer, 0, 0⟩, ⟨.timer, 0, 0⟩, ⟨.unsigned, 0, 0⟩,
  ⟨.unsigned, 0, 0⟩, ⟨.unsigned, 0, 0⟩, ⟨.unsigned, 0, 0⟩, ⟨.unsigned, 0, 0⟩, ⟨.unsigned, 0, 0⟩, ⟨.unsigned, 0, 0⟩,
  ⟨.unsigned, 0, 0⟩]

def builtinKeys : Keys := ⟨0, 1, 2, 3, 4, 5, 6, 7, 8, 9, 10, 11⟩

theorem builtinTab_ok : TableOk builtinTab := ⟨by decide, by decide⟩

/-- A heartbeat at time `t` at which everything is read in the same millisecond. -/
def beatAt (t : Nat) (soc : SocReading) (dropped recorded : Nat) : Beat :=
  { timers := fun _ => t, sdkCalls := [], reliabilityMs := t, unexpectedReboot := true, soc := soc, batteryMs := t,
    logDropped := dropped, logRecorded := recorded, uptimeMs := t, userCalls := [], captureTime := some 1700000000 }

/-- One day with heartbeats after 1.5 and 2.5 hours, 10 minutes and the rest of the day. The charger is
connected for a moment after the second. -/
def exDay : List Event :=
  [.connectivity .started 100 100, .connectivity .connected 5000 5001, .beat (beatAt 5400000 ⟨0, 90, true⟩ 3 100),
   .connectivity .lost 6000000 6000000, .beat (beatAt 14400000 ⟨0, 80, true⟩ 3 4294967290),
   .stoppedDischarging, .beat (beatAt 15000000 ⟨0, 79, true⟩ 10 4294967300), .connectivity .stopped 20000000 20000001,
   .beat (beatAt 86400000 ⟨0, 20, true⟩ 10 4294967300), .beat (beatAt 90000000 ⟨-1, 7, false⟩ 10 4294967301)]

def exSoc : SocReading := ⟨0, 100, true⟩

def allOn : Config := ⟨true, true, true⟩

theorem exDay_runs : (runActs exDev (builtinTab.map keyOf) 0 (Spec.Metrics.init (builtinTab.map keyOf))
    (life allOn builtinKeys exSoc 0 1 exDay)).isSome = true := by decide +kernel

example : builtinKeys.all.Nodup ∧ steady 0 (beats exDay) ∧
    (hourReports 0 (beats exDay)).map (fun i => shown (some i)) = [1, 3, -1, 20, 1] ∧
    (crashfreeReports 0 (beats exDay)).map (fun i => shown (some i)) = [0, 3, -1, 20, 1] ∧
    hoursIn (lastBeat 0 (beats exDay)) = 25 := by
  refine ⟨by decide, ⟨by decide, by decide, by decide, by decide, by decide, by decide, by decide, by decide, by decide,
    by decide, trivial⟩, by decide +kernel, by decide +kernel, by decide⟩

example : ∀ e ∈ exDay, untouched 4 0 e ∧ untouched 5 0 e := by
  simp [exDay, untouched, beatAt]

/-- What the model reports for the hours on that day. -/
example : ((execActs exDev builtinTab 0 (Metrics.State.init builtinTab) (life allOn builtinKeys exSoc 0 1 exDay)).map
    fun r => (metricIn builtinTab 0 4 r.1).map shown) = some [1, 3, -1, 20, 1] := by decide +kernel

/-- The bound in C38 is needed: after 2^32 ms without a heartbeat 1193 hours are not reported. -/
theorem C38_bound_needed :
    ((execActs exDev builtinTab 0 (Metrics.State.init builtinTab)
      (life allOn builtinKeys exSoc 0 1 [.beat (beatAt 4294967296 ⟨0, 90, true⟩ 0 0)])).map
      fun r => (metricIn builtinTab 0 4 r.1).map shown) = some [-1] ∧
    hoursIn 4294967296 = 1193 := ⟨by decide +kernel, by decide⟩

/-- **C40 (battery drop).** For every history of readings, notifications and heartbeats in the order of
time: each decoded heartbeat reports a drop exactly if the device was discharging at the reading before
and at this one, no stop-discharging notification came in between, both readings were valid and the charge
did not rise; the reported drop is the difference of the readings and the reported duration is the time
between them (modulo 2^32 ms). The reported charge is the reading, null if it was invalid. -/
theorem C40_battery {dev : SerializerHelper.Device} (hd : Spec.Event.DeviceOk dev) {tab : Table}
    (ht : TableOk tab) {K : Keys} (hK : K.all.Nodup) {cfg : Config} (hon : cfg.battery = true) (soc : SocReading)
    (bootMs reboots : Nat) (evs : List Event) {k1 k2 k3 : KV} (hk1 : tab[K.socDrop]? = some k1)
    (hk2 : tab[K.dischargeMs]? = some k2) (hk3 : tab[K.soc]? = some k3) (ht1 : k1.type = .unsigned)
    (ht2 : k2.type = .unsigned) (ht3 : k3.type = .unsigned) {session : Nat} (hs1 : k1.session = session)
    (hs2 : k2.session = session) (hs3 : k3.session = session)
    (hu : ∀ e ∈ evs, untouched K.socDrop session e ∧ untouched K.dischargeMs session e ∧ untouched K.soc session e)
    (hst : ordered bootMs (beats evs))
    (h : (runActs dev (tab.map keyOf) session (Spec.Metrics.init (tab.map keyOf))
      (life cfg K soc bootMs reboots evs)).isSome) :
    ∃ (events : List (Option Item)) (st : Metrics.State),
      execActs dev tab session (Metrics.State.init tab) (life cfg K soc bootMs reboots evs) = some (events, st) ∧
      metricIn tab session K.socDrop events =
        (drops ⟨soc, bootMs, false⟩ evs).map (fun d => some (numberOrNull (d.map Prod.fst))) ∧
      metricIn tab session K.dischargeMs events =
        (drops ⟨soc, bootMs, false⟩ evs).map (fun d => some (numberOrNull (d.map Prod.snd))) ∧
      metricIn tab session K.soc events = (charges (beats evs)).map (fun c => some (numberOrNull c)) := by
  obtain ⟨⟨es, s⟩, h1⟩ := Option.isSome_iff_exists.mp h
  obtain ⟨st, a1, -⟩ := acts_rel hd ht _ (init_rel tab) h1
  have d := keyDistinct hK
  have hinit : (boot K soc bootMs reboots).2.battery.At ⟨soc, bootMs, false⟩ := ⟨rfl, rfl, by simp [boot, Battery.boot]⟩
  have hlen := drops_length evs ⟨soc, bootMs, false⟩
  have d67 : K.socDrop ≠ K.dischargeMs := d 6 7 (by decide) (by decide) (by decide)
  have d68 : K.socDrop ≠ K.soc := d 6 8 (by decide) (by decide) (by decide)
  have d78 : K.dischargeMs ≠ K.soc := d 7 8 (by decide) (by decide) (by decide)
  refine ⟨es, st, a1, ?_, ?_, ?_⟩
  · subst hs1
    rw [life_values hk1 ht1 (d 1 6 (by decide) (by decide) (by decide)) cfg soc bootMs reboots evs (fun e he => (hu e he).1) h1,
      battery_values (k := K.socDrop) hon (d 4 6 (by decide) (by decide) (by decide)) (d 5 6 (by decide) (by decide) (by decide))
        (d 9 6 (by decide) (by decide) (by decide)) (d 10 6 (by decide) (by decide) (by decide))
        (d 11 6 (by decide) (by decide) (by decide)) evs hinit hst, List.map_map,
      ← map_zip_fst _ _ _ hlen]
    apply List.map_congr_left
    rintro ⟨x, y⟩ -
    rcases x with _ | ⟨x1, x2⟩ <;> rcases y with _ | y <;>
      simp [dropOps, chargeOps, eff, numberOrNull, d67.symm, d68.symm, item_int]
  · subst hs2
    rw [life_values hk2 ht2 (d 1 7 (by decide) (by decide) (by decide)) cfg soc bootMs reboots evs (fun e he => (hu e he).2.1) h1,
      battery_values (k := K.dischargeMs) hon (d 4 7 (by decide) (by decide) (by decide)) (d 5 7 (by decide) (by decide) (by decide))
        (d 9 7 (by decide) (by decide) (by decide)) (d 10 7 (by decide) (by decide) (by decide))
        (d 11 7 (by decide) (by decide) (by decide)) evs hinit hst, List.map_map,
      ← map_zip_fst _ _ _ hlen]
    apply List.map_congr_left
    rintro ⟨x, y⟩ -
    rcases x with _ | ⟨x1, x2⟩ <;> rcases y with _ | y <;>
      simp [dropOps, chargeOps, eff, numberOrNull, d67, d78.symm, item_int]
  · subst hs3
    rw [life_values hk3 ht3 (d 1 8 (by decide) (by decide) (by decide)) cfg soc bootMs reboots evs (fun e he => (hu e he).2.2) h1,
      battery_values (k := K.soc) hon (d 4 8 (by decide) (by decide) (by decide)) (d 5 8 (by decide) (by decide) (by decide))
        (d 9 8 (by decide) (by decide) (by decide)) (d 10 8 (by decide) (by decide) (by decide))
        (d 11 8 (by decide) (by decide) (by decide)) evs hinit hst, List.map_map,
      ← map_zip_snd _ _ _ hlen]
    apply List.map_congr_left
    rintro ⟨x, y⟩ -
    rcases x with _ | ⟨x1, x2⟩ <;> rcases y with _ | y <;>
      simp [dropOps, chargeOps, eff, numberOrNull, d68, d78, item_int]

/-- Two drops of 10 %, one of 59 %; one interval with the charger, one that ends charging. -/
example : drops ⟨exSoc, 0, false⟩ exDay =
    [some (10, 5400000), some (10, 9000000), none, some (59, 71400000), none] ∧
    charges (beats exDay) = [some 90, some 80, some 79, some 20, none] ∧ ordered 0 (beats exDay) := by
  refine ⟨by decide +kernel, by decide +kernel, ?_⟩
  simp [exDay, beats, beatAt, ordered]

example : ∀ e ∈ exDay, untouched 6 0 e ∧ untouched 7 0 e ∧ untouched 8 0 e := by
  simp [exDay, untouched, beatAt]

/-- **C56 (log lines).** Take any history in which the numbers of dropped and recorded log lines grow by
less than 2^31 from one heartbeat to the next; the SDK's own counters may wrap around. Then each decoded
heartbeat reports the growth since the one before, and the reports add up to the number of lines at the
last heartbeat. -/
theorem C56_log_lines {dev : SerializerHelper.Device} (hd : Spec.Event.DeviceOk dev) {tab : Table}
    (ht : TableOk tab) {K : Keys} (hK : K.all.Nodup) {cfg : Config} (hon : cfg.logs = true) (soc : SocReading)
    (bootMs reboots : Nat) (evs : List Event) {k1 k2 : KV} (hk1 : tab[K.logDropped]? = some k1)
    (hk2 : tab[K.logRecorded]? = some k2) (ht1 : k1.type = .unsigned)
    (ht2 : k2.type = .unsigned) {session : Nat} (hs1 : k1.session = session)
    (hs2 : k2.session = session)
    (hu : ∀ e ∈ evs, untouched K.logDropped session e ∧ untouched K.logRecorded session e)
    (hg1 : growing Beat.logDropped 0 (beats evs)) (hg2 : growing Beat.logRecorded 0 (beats evs))
    (h : (runActs dev (tab.map keyOf) session (Spec.Metrics.init (tab.map keyOf))
      (life cfg K soc bootMs reboots evs)).isSome) :
    ∃ (events : List (Option Item)) (st : Metrics.State),
      execActs dev tab session (Metrics.State.init tab) (life cfg K soc bootMs reboots evs) = some (events, st) ∧
      metricIn tab session K.logDropped events =
        (growths Beat.logDropped 0 (beats evs)).map (fun n => some (.uint n)) ∧
      metricIn tab session K.logRecorded events =
        (growths Beat.logRecorded 0 (beats evs)).map (fun n => some (.uint n)) ∧
      (growths Beat.logDropped 0 (beats evs)).sum = lastCount Beat.logDropped 0 (beats evs) ∧
      (growths Beat.logRecorded 0 (beats evs)).sum = lastCount Beat.logRecorded 0 (beats evs) := by
  obtain ⟨⟨es, s⟩, h1⟩ := Option.isSome_iff_exists.mp h
  obtain ⟨st, a1, -⟩ := acts_rel hd ht _ (init_rel tab) h1
  have d := keyDistinct hK
  have e1 := growths_sum Beat.logDropped (beats evs) 0 hg1
  have e2 := growths_sum Beat.logRecorded (beats evs) 0 hg2
  refine ⟨es, st, a1, ?_, ?_, by omega, by omega⟩
  · subst hs1
    rw [life_values hk1 ht1 (d 1 9 (by decide) (by decide) (by decide)) cfg soc bootMs reboots evs (fun e he => (hu e he).1) h1,
      dropped_values hon (d 10 9 (by decide) (by decide) (by decide)) (d 4 9 (by decide) (by decide) (by decide))
        (d 5 9 (by decide) (by decide) (by decide)) (d 6 9 (by decide) (by decide) (by decide))
        (d 7 9 (by decide) (by decide) (by decide)) (d 8 9 (by decide) (by decide) (by decide))
        (d 11 9 (by decide) (by decide) (by decide)) evs (n := 0) (by simp [boot, low32]) hg1, List.map_map]
    apply List.map_congr_left
    intro x _
    simp [item_int]
  · subst hs2
    rw [life_values hk2 ht2 (d 1 10 (by decide) (by decide) (by decide)) cfg soc bootMs reboots evs (fun e he => (hu e he).2) h1,
      recorded_values hon (d 9 10 (by decide) (by decide) (by decide)) (d 4 10 (by decide) (by decide) (by decide))
        (d 5 10 (by decide) (by decide) (by decide)) (d 6 10 (by decide) (by decide) (by decide))
        (d 7 10 (by decide) (by decide) (by decide)) (d 8 10 (by decide) (by decide) (by decide))
        (d 11 10 (by decide) (by decide) (by decide)) evs (n := 0) (by simp [boot, low32]) hg2, List.map_map]
    apply List.map_congr_left
    intro x _
    simp [item_int]

/-- The 32-bit counter of dropped lines wraps around here. -/
def exLogs : List Event :=
  [.beat (beatAt 1000 exSoc 2147483647 5), .beat (beatAt 2000 exSoc 4294967294 5), .beat (beatAt 3000 exSoc 4294967300 9)]

example : growths Beat.logDropped 0 (beats exLogs) = [2147483647, 2147483647, 6] ∧
    growing Beat.logDropped 0 (beats exLogs) ∧ growing Beat.logRecorded 0 (beats exLogs) ∧
    (∀ e ∈ exLogs, untouched 9 0 e ∧ untouched 10 0 e) ∧
    (runActs exDev (builtinTab.map keyOf) 0 (Spec.Metrics.init (builtinTab.map keyOf))
      (life allOn builtinKeys exSoc 0 1 exLogs)).isSome = true := by
  refine ⟨by decide +kernel, by simp [exLogs, beats, beatAt, growing], by simp [exLogs, beats, beatAt, growing],
    by simp [exLogs, untouched, beatAt], by decide +kernel⟩

/-- The bound in C56 is needed, although a comment in the code promises 2^32 - 1: 2^31 lines are reported
as zero. -/
theorem C56_bound_needed :
    ((execActs exDev builtinTab 0 (Metrics.State.init builtinTab)
      (life allOn builtinKeys exSoc 0 1 [.beat (beatAt 1000 exSoc 2147483648 0)])).map
      fun r => (metricIn builtinTab 0 9 r.1).map shown) = some [0] := by decide +kernel

/-- **C53, reports.** Each decoded heartbeat reports the seconds of uptime that `uptimeSeconds` computes
(C53_uptime_partial says how exact that is). Missing: as there, the precision over long uptimes. -/
theorem C53_reported_partial {dev : SerializerHelper.Device} (hd : Spec.Event.DeviceOk dev) {tab : Table}
    (ht : TableOk tab) {K : Keys} (hK : K.all.Nodup) {cfg : Config} (hon : cfg.uptime = true) (soc : SocReading)
    (bootMs reboots : Nat) (evs : List Event) {k1 : KV} (hk1 : tab[K.uptime]? = some k1)
    (ht1 : k1.type = .unsigned) (hu : ∀ e ∈ evs, untouched K.uptime k1.session e)
    (h : (runActs dev (tab.map keyOf) k1.session (Spec.Metrics.init (tab.map keyOf))
      (life cfg K soc bootMs reboots evs)).isSome) :
    ∃ (events : List (Option Item)) (st : Metrics.State),
      execActs dev tab k1.session (Metrics.State.init tab) (life cfg K soc bootMs reboots evs) = some (events, st) ∧
      metricIn tab k1.session K.uptime events =
        (beats evs).map (fun b => some (.uint (Metrics.uptimeSeconds b.uptimeMs))) := by
  obtain ⟨⟨es, s⟩, h1⟩ := Option.isSome_iff_exists.mp h
  obtain ⟨st, a1, -⟩ := acts_rel hd ht _ (init_rel tab) h1
  have d := keyDistinct hK
  refine ⟨es, st, a1, ?_⟩
  rw [life_values hk1 ht1 (d 1 11 (by decide) (by decide) (by decide)) cfg soc bootMs reboots evs hu h1,
    uptime_values hon (d 4 11 (by decide) (by decide) (by decide))
      (d 5 11 (by decide) (by decide) (by decide)) (d 6 11 (by decide) (by decide) (by decide))
      (d 7 11 (by decide) (by decide) (by decide)) (d 8 11 (by decide) (by decide) (by decide))
      (d 9 11 (by decide) (by decide) (by decide)) (d 10 11 (by decide) (by decide) (by decide)) evs, List.map_map]
  apply List.map_congr_left
  intro x _
  simp only [Function.comp, Option.elim, item_int]

example : ∀ e ∈ exDay, untouched 11 0 e := by simp [exDay, untouched, beatAt]

/-- The two timers after boot. -/
theorem life_timers {dev : SerializerHelper.Device} {tab : Table} {K : Keys} {k : Nat} {kv : KV}
    (hk : tab[k]? = some kv) (hty : kv.type = .timer) (hne : K.intervalMs ≠ k) {soc : SocReading} {bootMs reboots : Nat}
    {es : List (Option Item)} {s : Spec.Metrics.State}
    (h : runActs dev (tab.map keyOf) kv.session (Spec.Metrics.init (tab.map keyOf))
      (boot K soc bootMs reboots).1 = some (es, s)) : es = [] ∧ s k = .timer 0 none := by
  have hk' : (tab.map keyOf)[k]? = some (keyOf kv) := by rw [keys_get, hk]; rfl
  have hty' : (keyOf kv).ty = .timer := by unfold keyOf; rw [hty]; rfl
  have hinit : Spec.Metrics.init (tab.map keyOf) k = .timer 0 none := by
    unfold Spec.Metrics.init; rw [hk']; simp [hty', fresh]
  obtain ⟨rfl, h3⟩ := tstep_run hk' hty' rfl
    [.timerStart K.intervalMs bootMs, .setUnsigned K.unexpectedRebootCount reboots]
    (by intro op ho; simp only [List.mem_cons, List.not_mem_nil, or_false] at ho; rcases ho with rfl | rfl <;> trivial)
    (v := (0, none)) hinit h
  refine ⟨rfl, ?_⟩
  rw [h3]
  simp [tstep, hne]

/-- **C39, proved part: sums.** For every history of connectivity state changes and heartbeats in the order of time
(heartbeats read the clock for the connected time no later than for the expected time, as the order of
the keys says): up to every heartbeat, the connected times reported so far add up to at most the expected
times reported so far. Missing: the same for each single report; that is false (`C39_false`). -/
theorem C39_sums_partial {dev : SerializerHelper.Device} (hd : Spec.Event.DeviceOk dev) {tab : Table}
    (ht : TableOk tab) {K : Keys} (hK : K.all.Nodup) (cfg : Config) (soc : SocReading)
    (bootMs reboots : Nat) (evs : List Event) {k1 k2 : KV} (hk1 : tab[K.connected]? = some k1)
    (hk2 : tab[K.expected]? = some k2) (ht1 : k1.type = .timer)
    (ht2 : k2.type = .timer) {session : Nat} (hs1 : k1.session = session) (hs2 : k2.session = session)
    (hcl : clocked K.connected K.expected session bootMs evs)
    (h : (runActs dev (tab.map keyOf) session (Spec.Metrics.init (tab.map keyOf))
      (life cfg K soc bootMs reboots evs)).isSome) :
    ∃ (events : List (Option Item)) (st : Metrics.State) (connected expected : List Nat),
      execActs dev tab session (Metrics.State.init tab) (life cfg K soc bootMs reboots evs) = some (events, st) ∧
      metricIn tab session K.connected events = connected.map (fun n => some (.uint n)) ∧
      metricIn tab session K.expected events = expected.map (fun n => some (.uint n)) ∧
      ∀ n, (connected.take n).sum ≤ (expected.take n).sum := by
  obtain ⟨⟨es, s⟩, h1⟩ := Option.isSome_iff_exists.mp h
  obtain ⟨st, a1, -⟩ := acts_rel hd ht _ (init_rel tab) h1
  have d := keyDistinct hK
  rw [life] at h1
  obtain ⟨es1, s1, es2, h2, h3, rfl⟩ := runActs_split _ _ h1
  subst hs1
  obtain ⟨rfl, b1⟩ := life_timers hk1 ht1 (d 0 2 (by decide) (by decide) (by decide)) h2
  obtain ⟨-, b2⟩ := life_timers hk2 ht2 (d 0 3 (by decide) (by decide) (by decide)) (by rw [hs2]; exact h2)
  have hk1' : (tab.map keyOf)[K.connected]? = some (keyOf k1) := by rw [keys_get, hk1]; rfl
  have hk2' : (tab.map keyOf)[K.expected]? = some (keyOf k2) := by rw [keys_get, hk2]; rfl
  have ht1' : (keyOf k1).ty = .timer := by unfold keyOf; rw [ht1]; rfl
  have ht2' : (keyOf k2).ty = .timer := by unfold keyOf; rw [ht2]; rfl
  obtain ⟨cs, vs, c0, c1, c2, c3⟩ := connect_sums hk1' hk2' ht1' ht2' (show _ = k1.session from rfl)
    (show (keyOf k2).session = k1.session from hs2) (d 2 3 (by decide) (by decide) (by decide)) cfg evs
    (vc := (0, none)) (ve := (0, none)) (fc := 0) (fe := 0) b1 b2 (by simp [Covered]) hcl h3
  refine ⟨_, st, cs, vs, a1, c1, c2, ?_⟩
  intro n
  by_cases h0 : n = 0
  · subst h0; simp
  · by_cases hl : n ≤ cs.length
    · simpa using c3 n (by omega) hl
    · rw [List.take_of_length_le (by omega), List.take_of_length_le (by omega)]
      by_cases hz : cs.length = 0
      · rw [List.eq_nil_of_length_eq_zero hz]; simp
      · have := c3 cs.length (by omega) (Nat.le_refl _)
        rw [List.take_length, c0, List.take_length] at this
        simpa using this

/-- **C39, proved part: single reports.** If moreover each heartbeat updates the two timers in the same millisecond,
every single report satisfies connected ≤ expected. Missing: the clock moving on between the two updates
(`C39_false`). -/
theorem C39_each_partial {dev : SerializerHelper.Device} (hd : Spec.Event.DeviceOk dev) {tab : Table}
    (ht : TableOk tab) {K : Keys} (hK : K.all.Nodup) (cfg : Config) (soc : SocReading)
    (bootMs reboots : Nat) (evs : List Event) {k1 k2 : KV} (hk1 : tab[K.connected]? = some k1)
    (hk2 : tab[K.expected]? = some k2) (ht1 : k1.type = .timer)
    (ht2 : k2.type = .timer) {session : Nat} (hs1 : k1.session = session) (hs2 : k2.session = session)
    (hcl : clocked K.connected K.expected session bootMs evs) (hsame : sameTime K.connected K.expected (beats evs))
    (h : (runActs dev (tab.map keyOf) session (Spec.Metrics.init (tab.map keyOf))
      (life cfg K soc bootMs reboots evs)).isSome) :
    ∃ (events : List (Option Item)) (st : Metrics.State) (reports : List (Nat × Nat)),
      execActs dev tab session (Metrics.State.init tab) (life cfg K soc bootMs reboots evs) = some (events, st) ∧
      metricIn tab session K.connected events = reports.map (fun r => some (.uint r.1)) ∧
      metricIn tab session K.expected events = reports.map (fun r => some (.uint r.2)) ∧
      ∀ r ∈ reports, r.1 ≤ r.2 := by
  obtain ⟨⟨es, s⟩, h1⟩ := Option.isSome_iff_exists.mp h
  obtain ⟨st, a1, -⟩ := acts_rel hd ht _ (init_rel tab) h1
  have d := keyDistinct hK
  rw [life] at h1
  obtain ⟨es1, s1, es2, h2, h3, rfl⟩ := runActs_split _ _ h1
  subst hs1
  obtain ⟨rfl, b1⟩ := life_timers hk1 ht1 (d 0 2 (by decide) (by decide) (by decide)) h2
  obtain ⟨-, b2⟩ := life_timers hk2 ht2 (d 0 3 (by decide) (by decide) (by decide)) (by rw [hs2]; exact h2)
  have hk1' : (tab.map keyOf)[K.connected]? = some (keyOf k1) := by rw [keys_get, hk1]; rfl
  have hk2' : (tab.map keyOf)[K.expected]? = some (keyOf k2) := by rw [keys_get, hk2]; rfl
  have ht1' : (keyOf k1).ty = .timer := by unfold keyOf; rw [ht1]; rfl
  have ht2' : (keyOf k2).ty = .timer := by unfold keyOf; rw [ht2]; rfl
  obtain ⟨ps, c1, c2, c3⟩ := connect_each hk1' hk2' ht1' ht2' (show _ = k1.session from rfl)
    (show (keyOf k2).session = k1.session from hs2) (d 2 3 (by decide) (by decide) (by decide)) cfg evs
    (vc := (0, none)) (ve := (0, none)) b1 b2 (by simp [Covered]) hcl hsame h3
  exact ⟨_, st, ps, a1, c1, c2, c3⟩

example : clocked 2 3 0 0 exDay ∧ sameTime 2 3 (beats exDay) := by
  constructor
  · simp [exDay, clocked, beatAt]
  · simp [exDay, sameTime, beats, beatAt]

/-- What the model reports for the two times on that day. -/
example : ((execActs exDev builtinTab 0 (Metrics.State.init builtinTab) (life allOn builtinKeys exSoc 0 1 exDay)).map
    fun r => ((metricIn builtinTab 0 2 r.1).map shown, (metricIn builtinTab 0 3 r.1).map shown)) =
      some ([5394999, 600000, 0, 0, 0], [5399900, 9000000, 600000, 5000001, 0]) := by decide +kernel

/-- A heartbeat that is interrupted for `delay` ms between reading the clock for the connected time and
reading it for the expected time. -/
def slowBeat (t delay : Nat) : Beat :=
  { beatAt t exSoc 0 0 with timers := fun k => if k ≤ 2 then t else t + delay }

def exSlow : List Event :=
  [.connectivity .connected 10 10, .beat (slowBeat 3600000 5), .beat (slowBeat 7200000 0)]

/-- **C39 is false for single reports:** when the heartbeat task is interrupted for 5 ms while it updates
the timers, the next heartbeat reports 5 ms more of connected time than of expected time. -/
theorem C39_false : clocked 2 3 0 0 exSlow ∧
    (runActs exDev (builtinTab.map keyOf) 0 (Spec.Metrics.init (builtinTab.map keyOf))
      (life allOn builtinKeys exSoc 0 1 exSlow)).isSome = true ∧
    ((execActs exDev builtinTab 0 (Metrics.State.init builtinTab) (life allOn builtinKeys exSoc 0 1 exSlow)).map
      fun r => ((metricIn builtinTab 0 2 r.1).map shown, (metricIn builtinTab 0 3 r.1).map shown)) =
      some ([3599990, 3600000], [3599995, 3599995]) := by
  refine ⟨by simp [exSlow, clocked, slowBeat, beatAt], by decide +kernel, by decide +kernel⟩

end Mflt.Props
