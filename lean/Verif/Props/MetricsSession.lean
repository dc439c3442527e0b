import Verif.Lemmas.MetricsSession
import Verif.Props.Metrics

/-! # C57, C58: metrics sessions -/

namespace Mflt.Props

open Metrics Spec.Metrics
open Session (Cfg Sys Wired ActOk play)
open Spec.Session (running recorded quiet crashEvent crashValue)
open Spec.Cbor (Item)

/-- A table for examples: sessions 0 and 1 and the heartbeat, which is session 2. -/
def sessTab : Table := [⟨.timer, 0, 2⟩, ⟨.unsigned, 0, 2⟩, ⟨.timer, 0, 0⟩, ⟨.unsigned, 0, 0⟩, ⟨.timer, 0, 1⟩,
  ⟨.unsigned, 0, 1⟩, ⟨.signed, 0, 0⟩, ⟨.string, 4, 0⟩, ⟨.timer, 0, 0⟩]

def sessCfg : Cfg := ⟨[2, 4], [3, 5], 0, 1⟩

theorem sessTab_ok : TableOk sessTab := ⟨by decide, by decide⟩

theorem sess_wired : Wired sessCfg sessTab := by
  refine ⟨by decide, ?_, ?_, ⟨_, rfl, rfl, by decide⟩, ⟨_, rfl, rfl, by decide⟩⟩
  · intro i hi
    have : i = 0 ∨ i = 1 := by simp [sessCfg] at hi; omega
    rcases this with rfl | rfl <;> exact ⟨_, _, rfl, rfl, rfl, rfl⟩
  · intro i hi
    have : i = 0 ∨ i = 1 := by simp [sessCfg] at hi; omega
    rcases this with rfl | rfl <;> exact ⟨_, _, rfl, rfl, rfl, rfl⟩

/-- **C57 (a session's report covers exactly the session).** Take any history of metric calls, the
start of a session at `t1`, any calls that do not clear the session's metrics, and the end of the
session at `t2`, within the bounds of `Spec.Metrics.step`. The start returns 0 or, if the session's
timer already runs, -4. If it returns 0 the end returns 0 and hands over a report, and in the event
that this report decodes to the duration is `t2 - t1`, and each integer and text of the session is
what the calls between start and end have made of a metric without a value: nothing recorded before
the start shows up. -/
theorem C57_session_report {dev : SerializerHelper.Device} (hd : Spec.Event.DeviceOk dev) {tab : Table}
    (ht : TableOk tab) {cfg : Cfg} {session key : Nat} {kv : KV} (hses : session < 32)
    (hkey : cfg.timerKeys[session]? = some key) (hk : tab[key]? = some kv) (hty : kv.type = .timer)
    (hks : kv.session = session) (b b' : RebootTracking.State) (time : Option Nat)
    (before during : List Op) (t1 t2 : Nat) (hq : ∀ op ∈ during, quiet session key op)
    {os : List Out} {s : Spec.Metrics.State}
    (h : Spec.Metrics.run dev (tab.map keyOf) (Spec.Metrics.init (tab.map keyOf))
      (before ++ ([.clear session, .timerStart key t1] ++ (during ++ [.timerStop key t2]))) = some (os, s)) :
    ∃ os0 st rv S1, execAll dev tab (Metrics.State.init tab) before = some (os0, st) ∧
      Session.start cfg tab ⟨st, b⟩ session true t1 = some (rv, S1) ∧ (rv = 0 ∨ rv = -4) ∧
      (rv = 0 → ∃ os1 st2 bytes S3 e, execAll dev tab S1.metrics during = some (os1, st2) ∧
        Session.finish cfg tab dev ⟨st2, b'⟩ session true t2 time = some (0, some bytes, S3) ∧
        Spec.Cbor.decode bytes = some e ∧ t1 ≤ t2 ∧
        eventMetric e (position (tab.map keyOf) session key) = some (.uint (t2 - t1)) ∧
        ∀ (k : Nat) (kv' : KV), tab[k]? = some kv' → kv'.session = session → kv'.type ≠ .timer →
          eventMetric e (position (tab.map keyOf) session k) =
            some (during.foldl (recorded (keyOf kv') k) (fresh (tyOf kv'.type))).item) := by
  have hkk : (tab.map keyOf)[key]? = some (keyOf kv) := by rw [keys_get, hk]; rfl
  have hmap : (tab.map keyOf)[key]?.map Key.ty = some .timer := by rw [hkk]; simp [keyOf, hty, tyOf]
  have hmaps : (tab.map keyOf)[key]?.map Key.session = some session := by rw [hkk]; simp [keyOf, hks]
  obtain ⟨os0, s0, osr, h1, h2⟩ := Session.run_append before _ h
  obtain ⟨st, e1, r1⟩ := run_rel hd ht before (init_rel tab) h1
  obtain ⟨oss, s1, osr', h3, h4⟩ := Session.run_append _ _ h2
  obtain ⟨osd, s2, osr'', h5, h6⟩ := Session.run_append during _ h4
  obtain ⟨m1, e2, r2⟩ := Session.clear_rel hd ht r1 session
  have hsh : ∃ a c, s0 key = .timer a c := by
    have := Session.rel_shaped r1 hkk
    simp only [keyOf, hty, tyOf] at this
    cases hx : s0 key <;> rw [hx] at this <;> first | exact ⟨_, _, rfl⟩ | exact absurd this (by simp [Session.Shaped])
  obtain ⟨a, c, hac⟩ := hsh
  simp only [Spec.Metrics.run, step, Option.bind_some] at h3
  simp only [hmap, hmaps, if_true, hac, cleared] at h3
  obtain ⟨S0, hS0⟩ : ∃ S0 : Spec.Metrics.State, S0 = fun k =>
    if ((tab.map keyOf)[k]?.map Key.session) = some session then cleared (s0 k) else s0 k := ⟨_, rfl⟩
  rw [← hS0] at r2
  have hS0k : S0 key = .timer 0 c := by rw [hS0]; simp only [hmaps, if_true, hac, cleared]
  have hexec : ∀ {o : Out} {S : Spec.Metrics.State} {rv : Int}, o = .code rv →
      Spec.Metrics.step dev (tab.map keyOf) S0 (.timerStart key t1) = some (o, S) →
      ∃ m2, timerOp tab m1 key .start t1 = some (rv, m2) ∧ Rel tab m2 S := by
    intro o S rv ho hst
    obtain ⟨m2, x1, x2⟩ := step_rel hd ht r2 hst
    simp only [exec] at x1
    obtain ⟨⟨r, y⟩, x3, x4⟩ := Option.map_eq_some_iff.mp x1
    simp only [Prod.mk.injEq, ho, Out.code.injEq] at x4
    obtain ⟨rfl, rfl⟩ := x4
    exact ⟨y, x3, x2⟩
  obtain ⟨bb, hbb⟩ : ∃ bb, RebootTracking.metricsSession b true session = some bb := by
    unfold RebootTracking.metricsSession
    rw [if_neg (by simp; omega)]; exact ⟨_, rfl⟩
  obtain ⟨bb', hbb'⟩ : ∃ bb, RebootTracking.metricsSession b' false session = some bb := by
    unfold RebootTracking.metricsSession
    rw [if_neg (by simp; omega)]; exact ⟨_, rfl⟩
  cases c with
  | some u =>
    obtain ⟨m2, x1, x2⟩ := hexec (rv := -4) rfl (S := S0) (by simp only [step, hmap, hS0k])
    exact ⟨os0, st, -4, ⟨m2, bb⟩, e1, by simp [Session.start, e2, hkey, x1, hbb], .inr rfl, by simp⟩
  | none =>
    obtain ⟨m2, x1, x2⟩ := hexec (rv := 0) rfl (S := upd S0 key (.timer 0 (some t1)))
      (by simp only [step, hmap, hS0k])
    refine ⟨os0, st, 0, ⟨m2, bb⟩, e1, by simp [Session.start, e2, hkey, x1, hbb], .inl rfl, fun _ => ?_⟩
    have hs1 : s1 = upd S0 key (.timer 0 (some t1)) := by
      rw [hS0]
      simp only [Option.map_some, Option.bind_some, Option.some.injEq, Prod.mk.injEq] at h3
      exact h3.2.symm
    subst hs1
    obtain ⟨st2, x3, r3⟩ := run_rel hd ht during x2 h5
    obtain ⟨u, hu, hs2⟩ := Session.run_timer hkk (by simp [keyOf, hty, tyOf]) t1 during (s := upd S0 key (.timer 0 (some t1)))
      ⟨t1, Nat.le_refl _, by rw [Session.upd_apply, if_pos rfl, Nat.sub_self]⟩
      (fun op hop => by show quiet kv.session key op; rw [hks]; exact hq op hop) h5
    simp only [Spec.Metrics.run] at h6
    obtain ⟨⟨o, s3⟩, h7, h8⟩ := Option.bind_eq_some_iff.mp h6
    obtain ⟨d, htk, hd1⟩ : ∃ d, tick (u - t1) u t2 = some d ∧ (o, s3) = (.code 0, upd s2 key (.timer d none)) := by
      simp only [step, hmap, hs2] at h7
      obtain ⟨d, y1, y2⟩ := Option.map_eq_some_iff.mp h7
      exact ⟨d, y1, y2.symm⟩
    simp only [Prod.mk.injEq] at hd1
    obtain ⟨rfl, rfl⟩ := hd1
    have hd2 : u ≤ t2 ∧ d = t2 - t1 := by
      unfold tick at htk
      split at htk
      · rename_i hc
        simp only [Option.some.injEq] at htk
        exact ⟨hc.1, by omega⟩
      · cases htk
    obtain ⟨st3, x4, r4⟩ := step_rel hd ht r3 h7
    simp only [exec] at x4
    obtain ⟨⟨r, y⟩, x5, x6⟩ := Option.map_eq_some_iff.mp x4
    simp only [Prod.mk.injEq, Out.code.injEq] at x6
    obtain ⟨rfl, rfl⟩ := x6
    obtain ⟨bytes, z1, z2⟩ := Session.report_rel hd ht r4 (session := session) (by omega) time
    refine ⟨osd, st2, bytes, ⟨y, bb'⟩, _, x3, by simp [Session.finish, hkey, x5, z1, hbb'], z2, by omega, ?_, ?_⟩
    · rw [eventMetric_get dev time _ hkk (by exact hks), Session.upd_apply, if_pos rfl, hd2.2]; rfl
    · intro k kv' hk' hs' ht'
      have hkk' : (tab.map keyOf)[k]? = some (keyOf kv') := by rw [keys_get, hk']; rfl
      have hne : key ≠ k := by rintro rfl; rw [hk, Option.some.injEq] at hk'; rw [← hk'] at ht'; exact ht' hty
      have hnt : (keyOf kv').ty ≠ .timer := by
        simp only [keyOf]; cases hx : kv'.type <;> simp_all [tyOf]
      have hfresh : S0 k = fresh (keyOf kv').ty := by
        have := Session.rel_shaped r1 hkk'
        rw [hS0]
        simp only [hkk', Option.map_some]
        rw [if_pos (by simp [keyOf, hs'])]
        cases hx : s0 k <;> rw [hx] at this <;> cases hy : (keyOf kv').ty <;>
          simp_all [Session.Shaped, cleared, fresh]
      have hu1 : upd S0 key (.timer 0 (some t1)) k = fresh (keyOf kv').ty := by
        rw [Session.upd_apply, if_neg hne, hfresh]
      have hrec := Session.run_recorded hkk' hnt (t := key) during (s := upd S0 key (.timer 0 (some t1)))
        (by rw [hu1]; cases hy : (keyOf kv').ty <;> simp [fresh, Session.Shaped])
        (fun op hop => by show quiet kv'.session key op; rw [hs']; exact hq op hop) h5
      rw [eventMetric_get dev time _ hkk' (by exact hs'), Session.upd_apply, if_neg hne, hrec, hu1]
      rfl

/-- Session 0: values set before the start are gone, those set during the session are reported, and
the duration is 500 ms. -/
def sessDuring : List Op := [.add 6 5, .timerRead 2 1400, .setText 7 [65, 66, 67, 68, 69], .timerStart 4 1450]

example : (∀ op ∈ sessDuring, quiet 0 2 op) ∧
    ((Spec.Metrics.run exDev (sessTab.map keyOf) (Spec.Metrics.init (sessTab.map keyOf))
      ([.setSigned 6 70, .setUnsigned 3 9] ++ ([.clear 0, .timerStart 2 1000] ++
        (sessDuring ++ [.timerStop 2 1500])))).map fun r => (r.2 2, r.2 3, r.2 6, r.2 7)) =
      some (.timer 500 none, .int none, .int (some 5), .text [65, 66, 67, 68]) := by
  decide

/-- A metric's value in a report, for the examples. -/
def repValue (b : Option Bytes) (j : Nat) : Option Nat :=
  (b.bind Spec.Cbor.decode).bind fun e =>
    match eventMetric e j with
    | some (.uint n) => some n
    | _ => none

/-- A device after boot, for the examples. -/
def sessBoot : Sys := ⟨Metrics.State.init sessTab, (RebootTracking.boot ⟨⟨0, 0, 0, 0, 0, 0, 0, 0⟩, .init⟩ (some ⟨0, 7⟩))⟩

/-- **What is not true:** a timer of the session (other than the duration) that was started before the
session keeps the time of its start: at the end of a session of 500 ms it is reported with 1500 ms. -/
theorem C57_running_timer_counts_from_before :
    ((timerOp sessTab (Metrics.State.init sessTab) 8 .start 0).bind fun a =>
      (Session.start sessCfg sessTab ⟨a.2, sessBoot.reboot⟩ 0 true 1000).bind fun r =>
        (timerOp sessTab r.2.metrics 8 .stop 1500).bind fun q =>
        (Session.finish sessCfg sessTab exDev ⟨q.2, r.2.reboot⟩ 0 true 1500 none).map fun p =>
          (repValue p.2.1 0, repValue p.2.1 4)) = some (some 500, some 1500) := by
  decide +kernel

/-- Starting a session that already runs returns -4 but clears its metrics; the duration still counts
from the first start. Ending a session that does not run returns -4 and hands over no report. -/
theorem C57_started_twice :
    ((Session.start sessCfg sessTab sessBoot 0 true 1000).bind fun a =>
      (Metrics.add sessTab a.2.metrics 3 7).bind fun x =>
      (Session.start sessCfg sessTab ⟨x.2, a.2.reboot⟩ 0 true 2000).bind fun r =>
        (Session.finish sessCfg sessTab exDev r.2 0 true 2500 none).bind fun p =>
          (Session.finish sessCfg sessTab exDev p.2.2 0 true 2600 none).map fun q =>
            ([r.1, p.1, q.1], [repValue p.2.1 0, repValue p.2.1 1], q.2.1.isNone)) =
      some ([-4, 0, -4], [some 1500, none], true) := by
  decide +kernel

/-- **C58 (a crash is reported for exactly the sessions it cut off).** From any booted device, with any
metrics, take any calls: metrics, starts and ends of sessions, marking reboots. Then the device resets
and boots. If reboot tracking says that the reboot was unexpected, booting the metrics hands over one
report for each session whose last start was not followed by its end, in order, and each of them
decodes to the event that has 1 as the number of crashes and no other value; otherwise there is no
report. After that no session is marked as active. -/
theorem C58_crashed_sessions {dev : SerializerHelper.Device} (hd : Spec.Event.DeviceOk dev) {tab : Table}
    (ht : TableOk tab) {cfg : Cfg} (hw : Wired cfg tab) {ram : RebootTracking.Ram}
    (hm : ram.magic ≠ 0x21544252) {rops : List Spec.Reboot.Op} {outs : List Spec.Reboot.Out}
    {R : Spec.Reboot.State} (hr : Spec.Reboot.run Spec.Reboot.empty rops = some (outs, R))
    (hl : R.live = true) {m : Metrics.State} (hreach : Reached dev tab m) (acts : List Spec.Session.Act)
    (hacts : ∀ a ∈ acts, ActOk cfg.crashKeys.length a) (b : Option RebootTracking.Bootup)
    (hb : (b.map RebootTracking.Bootup.reason).getD 0 < 2 ^ 32 - 1) {count : Nat} (hc : count < 2 ^ 32)
    (now : Nat) (times : Nat → Option Nat) :
    ∃ r reps S bad b' crash S', RebootTracking.run ⟨ram, .init⟩ rops = some (outs, r) ∧
      play cfg tab dev ⟨m, r⟩ acts = some (reps, S) ∧
      RebootTracking.run S.reboot [.reset, .boot b, .unexpected] = some ([.unit, .unit, .flag (some bad)], b') ∧
      Session.boot cfg tab dev b' count now times = some (crash, S') ∧
      crash.map Spec.Cbor.decode = (if bad then
        ((List.range cfg.crashKeys.length).filter fun i => running i (R.active i) acts).map (fun i =>
          some (crashEvent dev (times i) (tab.map keyOf) ((cfg.crashKeys[i]?).getD 0) i)) else []) ∧
      ∀ i, i < 32 → (RebootTracking.sessionWasActive S'.reboot i).map Prod.fst = some false := by
  obtain ⟨r, r1, r2⟩ := RebootTracking.run_rel rops (RebootTracking.empty_rel hm) hr
  obtain ⟨reps, m', b1, R1, p1, p2, p3, p4, p5⟩ :=
    Session.play_good hd ht hw acts hacts (reached_good hd ht hreach) r2 hl
  obtain ⟨R2, q1, q2, q3, bad, q4⟩ : ∃ R2, Spec.Reboot.run R1 [.reset, .boot b] = some ([.unit, .unit], R2) ∧
      R2.live = true ∧ R2.active = R1.active ∧ ∃ bad, R2.latest.map (fun r => Spec.Reboot.unexpected r.2) = some bad := by
    have hb' : Spec.Reboot.reasonOk ((b.map RebootTracking.Bootup.reason).getD 0) := hb
    simp only [Spec.Reboot.run, Spec.Reboot.step, Option.bind_some, if_pos hb', Option.map_some]
    exact ⟨_, rfl, rfl, rfl, _, rfl⟩
  have q5 : Spec.Reboot.run R1 [.reset, .boot b, .unexpected] = some ([.unit, .unit, .flag (some bad)], R2) := by
    have happ : ∀ {x y : Spec.Reboot.State} {ops : List Spec.Reboot.Op} {os : List Spec.Reboot.Out} {op o z},
        Spec.Reboot.run x ops = some (os, y) → Spec.Reboot.step y op = some (o, z) →
        Spec.Reboot.run x (ops ++ [op]) = some (os ++ [o], z) := by
      intro x y ops os op o z h1 h2
      induction ops generalizing x os with
      | nil =>
        simp only [Spec.Reboot.run, Option.some.injEq, Prod.mk.injEq] at h1
        obtain ⟨rfl, rfl⟩ := h1
        simp [Spec.Reboot.run, h2]
      | cons p ops ih =>
        simp only [Spec.Reboot.run] at h1
        obtain ⟨⟨o', x'⟩, a1, a2⟩ := Option.bind_eq_some_iff.mp h1
        obtain ⟨⟨os', y'⟩, a3, a4⟩ := Option.map_eq_some_iff.mp a2
        simp only [Prod.mk.injEq] at a4
        obtain ⟨rfl, rfl⟩ := a4
        simp only [List.cons_append, Spec.Reboot.run, a1, Option.bind_some, ih a3, Option.map_some]
    exact happ (op := .unexpected) q1 (by simp only [Spec.Reboot.step, q4])
  obtain ⟨b', u1, u2⟩ := RebootTracking.run_rel _ p3 q5
  obtain ⟨crash, m2, b2, R3, v1, v2, v3, v4, v5, v6⟩ :=
    Session.boot_rel hd ht hw u2 q2 now times (count := count) (by simpa using hc) 0
  refine ⟨r, reps, ⟨m', b1⟩, bad, b', crash, ⟨m2, b2⟩, r1, p1, u1, v1, ?_, ?_⟩
  · rw [v2, q4, q3]
    have : (R1.active) = fun i => running i (R.active i) acts := funext p5
    rw [this]
    cases bad <;> simp
  · intro i hi
    obtain ⟨x, w1, -⟩ := Session.wasActive_rel v4 v5 hi
    rw [w1, v6]; rfl

/-- What the event of C58 holds: one crash, a duration of 0 ms. -/
theorem C58_event_values (dev : SerializerHelper.Device) {tab : Table} (time : Option Nat)
    {session ck : Nat} {ckv : KV} (hck : tab[ck]? = some ckv) (hcs : ckv.session = session) {k : Nat} {kv : KV}
    (hk : tab[k]? = some kv) (hs : kv.session = session) (hne : k ≠ ck) :
    eventMetric (crashEvent dev time (tab.map keyOf) ck session) (position (tab.map keyOf) session ck) =
      some (.uint 1) ∧
    eventMetric (crashEvent dev time (tab.map keyOf) ck session) (position (tab.map keyOf) session k) =
      some (match kv.type with | .timer => .uint 0 | .string => .text [] | _ => .null) := by
  have h1 : (tab.map keyOf)[ck]? = some (keyOf ckv) := by rw [keys_get, hck]; rfl
  have h2 : (tab.map keyOf)[k]? = some (keyOf kv) := by rw [keys_get, hk]; rfl
  unfold crashEvent
  rw [eventMetric_get dev time _ h1 (by exact hcs), eventMetric_get dev time _ h2 (by exact hs)]
  simp only [h1, h2, Option.map_some, Option.getD_some, crashValue, if_true, if_neg hne]
  refine ⟨rfl, ?_⟩
  simp only [keyOf]
  cases kv.type <;> rfl

/-- Both sessions are started, session 0 is ended, the device asserts and boots: one report, for
session 1. The hypotheses of `C58_crashed_sessions` hold. -/
def sessActs : List Spec.Session.Act := [.start 0 10, .start 1 20, .call (.add 5 3), .finish 0 30 none,
  .reboot (.mark 0x8001 none)]

example : ∀ a ∈ sessActs, ActOk sessCfg.crashKeys.length a := by
  intro a h
  simp only [sessActs, List.mem_cons, List.not_mem_nil, or_false] at h
  rcases h with h | h | h | h | h <;> subst h <;> simp [ActOk, sessCfg, OpOk]

/-- The reset reason is cleared after it was collected, as `memfault_reboot_tracking_collect_reset_info`
does; then the sessions of `sessActs`. -/
example :
    ((play sessCfg sessTab exDev ⟨sessBoot.metrics, RebootTracking.clear sessBoot.reboot⟩ sessActs).bind fun r =>
      (Session.boot sessCfg sessTab exDev (RebootTracking.boot ⟨r.2.reboot.ram, .init⟩ (some ⟨0, 3⟩)) 1 5
        (fun _ => none)).map fun q => (r.1.length, q.1.length, repValue q.1.head? 0, repValue q.1.head? 1)) =
      some (1, 1, some 0, some 1) := by
  decide +kernel

end Mflt.Props
