import Verif.Spec.PortBoot
import Verif.Props.RebootEvent
import Verif.Props.MetricsCollect

/-!
# C99: every reboot is announced at boot, and counted in one heartbeat

`Spec.PortBoot` (`Spec/PortBoot.lean`) is the specification.
-/

namespace Mflt.Props

open PortBoot (Port Life Ev live lives)
open Spec.PortBoot (Left nothing leaves reboots told crashes LifeOk rebootInfo)
open SerializerHelper (Device)
open Spec.Cbor (Item)

private abbrev enc (dev : Device) : Option Nat → RebootTracking.Info → Bytes :=
  fun t i => Cbor.emitAll (RebootEvent.calls dev t i)

private theorem enc_size (dev : Device) (time : Option Nat) (i : RebootTracking.Info) :
    (enc dev time i).length ≤ RebootEvent.worstCase dev (some 65536) + 2 := by
  have a := RebootEvent.calls_size dev (time := time) (time0 := some 65536) (Or.inr ⟨65536, rfl, by decide⟩)
    (reason0 := 0xffffffff) (i := i) (by
      rw [show (Cbor.emit (SerializerHelper.u32 0xffffffff)).length = 5 by decide]
      exact u32_length_le _)
  have b := RebootEvent.calls_reason dev (some 65536) 0x9400 0xffffffff
  rw [show (Cbor.emit (SerializerHelper.u32 0xffffffff)).length = 5 by decide,
    show (Cbor.emit (SerializerHelper.u32 0x9400)).length = 3 by decide] at b
  unfold RebootEvent.worstCase
  rw [RebootEvent.computeSize_eq]
  show (Cbor.emitAll (RebootEvent.calls dev time i)).length ≤ _
  omega

private def pend (m : Nat × Option RebootTracking.Regs) : Spec.Reboot.Pending :=
  ⟨m.1, (m.2.map RebootTracking.Regs.pc).getD 0, (m.2.map RebootTracking.Regs.lr).getD 0⟩

/-- The memory of reboot tracking at a reset. -/
private structure At (ram : RebootTracking.Ram) (before : Left) (n : Nat) (S : Spec.Reboot.State) : Prop where
  rel : RebootTracking.Rel ⟨ram, RebootTracking.Stat.init⟩ S
  pending : S.pending = before.mark.map pend
  dump : S.coredump = before.dumped
  crashes : S.crashes = n

private def bootedState (S : Spec.Reboot.State) (L : Life) (u : Nat) (k : Nat) : Spec.Reboot.State :=
  { S with
    live := true
    pending := none
    reg := 0
    coredump := false
    crashes := u
    active := fun _ => false
    latest := some (L.bootup.reason, k) }

private theorem boot_at (port : Port) {dev : Device} {bufLen : Nat} (b : Option Nat)
    (hdev : RebootEvent.worstCase dev (some 65536) ≤ 65530)
    (hfit : RebootEvent.worstCase dev (some 65536) + 4 ≤ bufLen) (h31 : bufLen < 2 ^ 31)
    {ram : RebootTracking.Ram} {before : Left} {n : Nat} {S : Spec.Reboot.State} (h : At ram before n S)
    {L : Life} (hL : LifeOk L) :
    ∃ s q, PortBoot.boot port ⟨dev, bufLen, L.bootup, L.time⟩ ram = some s ∧ s.storage = some q ∧
      Holds b q ⟨bufLen, [enc dev L.time (rebootInfo before L)], none, 0⟩ ∧ s.trace = true ∧
      s.count = some ((n + if Spec.PortBoot.crashed before L then 1 else 0) % 256) ∧
      RebootTracking.Rel s.reboot (bootedState S L (n + if Spec.PortBoot.crashed before L then 1 else 0)
        (Spec.PortBoot.reason before L)) := by
  have h0 : 0 < bufLen := by omega
  have hsize : ∀ time i, (Cbor.emitAll (RebootEvent.calls dev time i)).length ≤ 65532 := fun t i => by
    have := enc_size dev t i; show (enc dev t i).length ≤ _; omega
  obtain ⟨q0, e0, H0⟩ := boot_holds (b := b) h0 h31
  -- reboot tracking
  have hr := hL.reason
  let u := n + if Spec.PortBoot.crashed before L then 1 else 0
  let S1 : Spec.Reboot.State := { S with
    live := true
    pending := some ⟨Spec.PortBoot.reason before L, (rebootInfo before L).pc, (rebootInfo before L).lr⟩
    reg := L.bootup.reg
    crashes := u
    latest := some (L.bootup.reason, Spec.PortBoot.reason before L) }
  have hk : Spec.Reboot.known S.pending L.bootup.reason = Spec.PortBoot.reason before L := by
    rw [h.pending]; unfold Spec.Reboot.known Spec.PortBoot.reason
    cases before.mark <;> rfl
  have hs1 : Spec.Reboot.step S (.boot (some L.bootup)) = some (.unit, S1) := by
    have ho : Spec.Reboot.reasonOk L.bootup.reason := hr
    simp only [Spec.Reboot.step, Option.map_some, Option.getD_some, if_pos ho, hk, Option.some.injEq, Prod.mk.injEq,
      true_and]
    have hp : Spec.Reboot.keepFirst S.pending L.bootup.reason none =
        some ⟨Spec.PortBoot.reason before L, (rebootInfo before L).pc, (rebootInfo before L).lr⟩ := by
      rw [h.pending]; unfold Spec.PortBoot.reason rebootInfo
      cases before.mark <;> rfl
    rw [hp]
    simp only [S1, u, h.crashes, Spec.PortBoot.crashed]
    rfl
  obtain ⟨r1, b1, b2⟩ := RebootTracking.step_rel h.rel hs1
  simp only [RebootTracking.step, Option.some.injEq, Prod.mk.injEq, true_and] at b1
  -- the event
  let S2 : Spec.Reboot.State := { S1 with pending := none, reg := 0, coredump := false }
  have hkn : Spec.RebootEvent.known S1 = some (rebootInfo before L) := by
    simp only [Spec.RebootEvent.known, S1, if_true, Option.map_some, rebootInfo, h.dump]
  have hlen := enc_size dev L.time (rebootInfo before L)
  have hs2 : Spec.RebootEvent.step b (enc dev) ⟨S1, Spec.EventQueue.empty bufLen⟩ (.collect L.time) =
      some (.rv 0, ⟨S2, ⟨bufLen, [enc dev L.time (rebootInfo before L)], none, 0⟩⟩) := by
    simp only [Spec.RebootEvent.step, hkn, Spec.EventQueue.empty, Option.isSome_none, Bool.false_eq_true, if_false,
      Spec.EventQueue.used, List.map_nil, List.sum_nil]
    rw [if_pos (by omega)]
    rfl
  have hrel : RebootEvent.Rel b bufLen ⟨r1, q0, ⟨0, 0⟩⟩ ⟨S1, Spec.EventQueue.empty bufLen⟩ := ⟨b2, H0, rfl⟩
  obtain ⟨sys, c1, c2⟩ := RebootEvent.step_rel h0 h31 hsize hrel hs2
  simp only [RebootEvent.step, Option.map_eq_some_iff] at c1
  obtain ⟨⟨rv, sys'⟩, c1, c3⟩ := c1
  simp only [Prod.mk.injEq] at c3
  obtain ⟨-, rfl⟩ := c3
  -- the count
  obtain ⟨r3, d1, d2⟩ := RebootTracking.step_rel c2.reboot (op := .crashCount) rfl
  simp only [RebootTracking.step, Option.some.injEq, Prod.mk.injEq, Spec.Reboot.Out.count.injEq] at d1
  obtain ⟨d1, rfl⟩ := d1
  obtain ⟨r4, e1, e2⟩ := RebootTracking.step_rel d2 (op := .clearSessions) rfl
  simp only [RebootTracking.step, Option.some.injEq, Prod.mk.injEq, true_and] at e1
  refine ⟨⟨r4, some sys'.storage, sys'.drops, true, some (u % 256)⟩, sys'.storage, ?_, rfl, c2.holds, rfl, rfl, ?_⟩
  · have hd1 : (RebootTracking.getCrashCount sys'.reboot).1 = u % 256 := by rw [d1]; rfl
    cases port <;>
    simp only [PortBoot.boot, PortBoot.calls, PortBoot.callAll, PortBoot.call, b1, e0, c1, Option.map_some,
      Option.bind_some, Option.isSome_some, if_true, hd1, e1]
  · have : (if S2.live then { S2 with active := fun _ => false } else S2) =
        bootedState S L u (Spec.PortBoot.reason before L) := rfl
    rw [← this]; exact e2

/-- The events of a life. -/
private theorem evs_rel (port : Port) : ∀ (evs : List Ev) {s : RebootTracking.State} {S : Spec.Reboot.State},
    RebootTracking.Rel s S → S.live = true →
    (∀ r g, Ev.mark r g ∈ evs → r < 2 ^ 32 - 1) → (∀ a i, Ev.session a i ∈ evs → i < 32) →
    ∃ s' S', PortBoot.rebootAll port s evs = some s' ∧ RebootTracking.Rel s' S' ∧ S'.live = true ∧
      S'.pending = (S.pending.orElse fun _ => (Spec.PortBoot.firstMark evs).map pend) ∧
      S'.coredump = (S.coredump || Spec.PortBoot.dumped evs) ∧
      S'.crashes = if PortBoot.clears port && evs.any Spec.PortBoot.isTimerBeat then 0 else S.crashes := by
  intro evs
  induction evs with
  | nil =>
    intro s S h hl _ _
    exact ⟨s, S, rfl, h, hl, by cases S.pending <;> rfl, by simp [Spec.PortBoot.dumped], by simp⟩
  | cons e evs ih =>
    intro s S h hl hm hs
    have hm' : ∀ r g, Ev.mark r g ∈ evs → r < 2 ^ 32 - 1 := fun r g hx => hm r g (by simp [hx])
    have hs' : ∀ a i, Ev.session a i ∈ evs → i < 32 := fun a i hx => hs a i (by simp [hx])
    cases e with
    | metrics e =>
      obtain ⟨s', S', a1, a2, a3, a4, a5, a6⟩ := ih h hl hm' hs'
      exact ⟨s', S', a1, a2, a3, a4, a5, by rw [a6]; simp [Spec.PortBoot.isTimerBeat]⟩
    | beat b =>
      cases hc : PortBoot.clears port with
      | false =>
        obtain ⟨s', S', a1, a2, a3, a4, a5, a6⟩ := ih h hl hm' hs'
        refine ⟨s', S', ?_, a2, a3, a4, a5, by rw [a6]; simp [hc]⟩
        simp only [PortBoot.rebootAll, PortBoot.onReboot, hc, Bool.false_eq_true, if_false, Option.bind_some]
        exact a1
      | true =>
        obtain ⟨s1, b1, b2⟩ := RebootTracking.step_rel h (op := .resetCrashCount) (o := .unit)
          (S' := { S with crashes := 0 }) (by simp [Spec.Reboot.step, hl])
        simp only [RebootTracking.step, Option.some.injEq, Prod.mk.injEq, true_and] at b1
        obtain ⟨s', S', a1, a2, a3, a4, a5, a6⟩ := ih b2 hl hm' hs'
        refine ⟨s', S', ?_, a2, a3, a4, a5, by rw [a6]; simp [Spec.PortBoot.isTimerBeat]⟩
        simp only [PortBoot.rebootAll, PortBoot.onReboot, hc, if_true, Option.bind_some, b1]
        exact a1
    | mark r g =>
      have hr : Spec.Reboot.reasonOk r := hm r g (by simp)
      obtain ⟨s1, b1, b2⟩ := RebootTracking.step_rel h (op := .mark r g) (o := .unit)
        (S' := { S with
          pending := Spec.Reboot.keepFirst S.pending r g
          latest := some (r, Spec.Reboot.known S.pending r) }) (by simp [Spec.Reboot.step, hl, hr])
      simp only [RebootTracking.step, Option.some.injEq, Prod.mk.injEq, true_and] at b1
      obtain ⟨s', S', a1, a2, a3, a4, a5, a6⟩ := ih b2 hl hm' hs'
      refine ⟨s', S', ?_, a2, a3, ?_, a5, by rw [a6]; simp [Spec.PortBoot.isTimerBeat]⟩
      · simp only [PortBoot.rebootAll, PortBoot.onReboot, Option.bind_some, b1]
        exact a1
      · rw [a4]; cases S.pending <;> rfl
    | coredumpSaved =>
      obtain ⟨s1, b1, b2⟩ := RebootTracking.step_rel h (op := .coredumpSaved) (o := .unit)
        (S' := { S with coredump := true }) (by simp [Spec.Reboot.step, hl])
      simp only [RebootTracking.step, Option.some.injEq, Prod.mk.injEq, true_and] at b1
      obtain ⟨s', S', a1, a2, a3, a4, a5, a6⟩ := ih b2 hl hm' hs'
      refine ⟨s', S', ?_, a2, a3, a4, ?_, by rw [a6]; simp [Spec.PortBoot.isTimerBeat]⟩
      · simp only [PortBoot.rebootAll, PortBoot.onReboot, Option.bind_some, b1]
        exact a1
      · rw [a5]; simp [Spec.PortBoot.dumped]
    | session a i =>
      have hi := hs a i (by simp)
      obtain ⟨s1, b1, b2⟩ := RebootTracking.step_rel h (op := .session a i) (o := .unit)
        (S' := { S with active := fun j => if j = i then a else S.active j }) (by simp [Spec.Reboot.step, hl, hi])
      simp only [RebootTracking.step, Option.map_eq_some_iff, Prod.mk.injEq, true_and] at b1
      obtain ⟨s1', b1, rfl⟩ := b1
      obtain ⟨s', S', a1, a2, a3, a4, a5, a6⟩ := ih b2 hl hm' hs'
      refine ⟨s', S', ?_, a2, a3, a4, a5, by rw [a6]; simp [Spec.PortBoot.isTimerBeat]⟩
      simp only [PortBoot.rebootAll, PortBoot.onReboot, Option.bind_some, b1]
      exact a1

/-- A whole life. -/
private theorem live_at (port : Port) {dev : Device} {bufLen : Nat} (b : Option Nat)
    (hdev : RebootEvent.worstCase dev (some 65536) ≤ 65530)
    (hfit : RebootEvent.worstCase dev (some 65536) + 4 ≤ bufLen) (h31 : bufLen < 2 ^ 31)
    (cfg : Collect.Config) (K : Collect.Keys)
    {ram : RebootTracking.Ram} {before : Left} {n : Nat} {S : Spec.Reboot.State} (h : At ram before n S)
    {L : Life} (hL : LifeOk L) :
    ∃ s q ram' S', live port dev bufLen cfg K ram L =
        some (s, PortBoot.acts cfg K L ((n + if Spec.PortBoot.crashed before L then 1 else 0) % 256), ram') ∧
      s.storage = some q ∧
      Holds b q ⟨bufLen, [enc dev L.time (rebootInfo before L)], none, 0⟩ ∧ s.trace = true ∧
      At ram' (leaves L) (if PortBoot.clears port && (L.evs.any Spec.PortBoot.isTimerBeat || L.cut) then 0
        else n + if Spec.PortBoot.crashed before L then 1 else 0) S' := by
  obtain ⟨s, q, a1, a2, a3, a4, a5, a6⟩ := boot_at port b hdev hfit h31 h hL
  obtain ⟨r, R, b1, b2, b3, b4, b5, b6⟩ := evs_rel port L.evs a6 rfl (fun r g hx => (hL.marks r g hx).1) hL.sessions
  have key : ∃ r' R', (if L.cut && PortBoot.clears port then RebootTracking.resetCrashCount r else r) = r' ∧
      RebootTracking.Rel r' R' ∧ R'.pending = R.pending ∧ R'.coredump = R.coredump ∧
      R'.crashes = if L.cut && PortBoot.clears port then 0 else R.crashes := by
    cases hc : L.cut && PortBoot.clears port with
    | false => exact ⟨r, R, by simp, b2, rfl, rfl, by simp⟩
    | true =>
      obtain ⟨s1, c1, c2⟩ := RebootTracking.step_rel b2 (op := .resetCrashCount) (o := .unit)
        (S' := { R with crashes := 0 }) (by simp [Spec.Reboot.step, b3])
      simp only [RebootTracking.step, Option.some.injEq, Prod.mk.injEq, true_and] at c1
      exact ⟨s1, _, by simp [c1], c2, rfl, rfl, by simp⟩
  obtain ⟨r', R', c1, c2, c3, c4, c5⟩ := key
  obtain ⟨r2, d1, d2⟩ := RebootTracking.step_rel c2 (op := .reset) rfl
  simp only [RebootTracking.step, Option.some.injEq, Prod.mk.injEq, true_and] at d1
  subst d1
  refine ⟨s, q, r'.ram, _, ?_, a2, a3, a4, ⟨d2, ?_, ?_, ?_⟩⟩
  · simp only [live, a1, Option.bind_some, a5, b1, Option.map_some, c1]
  · show R'.pending = _
    rw [c3, b4]; rfl
  · show R'.coredump = _
    rw [c4, b5]; rfl
  · show R'.crashes = _
    rw [c5, b6]
    cases PortBoot.clears port <;> cases L.cut <;> cases L.evs.any Spec.PortBoot.isTimerBeat <;> rfl

/-! ## The event -/

/-- What the packetizer gets out of the storage: the first message, decoded, and whether there is another one. -/
def firstMessage (b : Option Nat) (q : EventStorage.State) : Option (Option Item × Bool) :=
  (EventStorage.hasData ⟨b⟩ q).bind fun a =>
    (EventStorage.read a.2.2 0 a.2.1).bind fun d =>
      (EventStorage.markRead a.2.2).bind fun q =>
        (EventStorage.hasData ⟨b⟩ q).map fun c => (if a.1 then d.bind Spec.Cbor.decode else none, c.1)

private theorem firstMessage_one {b : Option Nat} {q : EventStorage.State} {cap : Nat} {e : Bytes}
    (h : Holds b q ⟨cap, [e], none, 0⟩) : firstMessage b q = some (Spec.Cbor.decode e, false) := by
  have hb : Spec.EventQueue.batchCount b [e] = 1 := by cases b <;> rfl
  obtain ⟨q1, a1, a2⟩ := step_refines h (op := .hasData) (o := .avail true e.length)
    (q' := ⟨cap, [e], none, 1⟩) (by
      simp [Spec.EventQueue.step, hb, Spec.EventQueue.message, Spec.EventQueue.messageOf])
  obtain ⟨q2, b1, b2⟩ := step_refines a2 (op := .read 0 e.length) (o := .data (some e))
    (q' := ⟨cap, [e], none, 1⟩) (by
      simp [Spec.EventQueue.step, Spec.EventQueue.message, Spec.EventQueue.messageOf])
  obtain ⟨q3, c1, c2⟩ := step_refines b2 (op := .markRead) (o := .unit) (q' := ⟨cap, [], none, 0⟩) rfl
  obtain ⟨q4, d1, d2⟩ := step_refines c2 (op := .hasData) (o := .avail false 0) (q' := ⟨cap, [], none, 0⟩) (by
      simp [Spec.EventQueue.step, Spec.EventQueue.batchCount, Spec.EventQueue.message, Spec.EventQueue.messageOf])
  simp only [EventStorage.step, Option.map_eq_some_iff, Prod.mk.injEq] at a1 b1 c1 d1
  obtain ⟨⟨x, n, y⟩, a1, h1, rfl⟩ := a1
  simp only [Spec.EventQueue.Out.avail.injEq] at h1
  obtain ⟨rfl, rfl⟩ := h1
  obtain ⟨d, b1, h2, rfl⟩ := b1
  simp only [Spec.EventQueue.Out.data.injEq] at h2
  subst h2
  obtain ⟨y3, c1, -, rfl⟩ := c1
  obtain ⟨⟨x4, n4, y4⟩, d1, h4, rfl⟩ := d1
  simp only [Spec.EventQueue.Out.avail.injEq] at h4
  simp only [firstMessage, a1, Option.bind_some, b1, c1, d1, Option.map_some, if_true, h4.1]

private theorem infoOk {before : Left} {L : Life} (hL : LifeOk L)
    (hb : ∀ m, before.mark = some m → m.1 < 2 ^ 32 - 1 ∧ ∀ x, m.2 = some x → x.pc < 2 ^ 32 ∧ x.lr < 2 ^ 32) :
    Spec.RebootEvent.InfoOk (rebootInfo before L) := by
  have hr := hL.reason
  rcases hm : before.mark with _ | ⟨r, _ | g⟩
  · refine ⟨?_, ?_, ?_, hL.reg⟩ <;> simp [rebootInfo, Spec.PortBoot.reason, hm]
    omega
  · have := hb _ hm
    refine ⟨?_, ?_, ?_, hL.reg⟩ <;> simp [rebootInfo, Spec.PortBoot.reason, hm]
    omega
  · have h1 := hb _ hm
    have h2 := h1.2 g rfl
    refine ⟨?_, ?_, ?_, hL.reg⟩ <;> simp [rebootInfo, Spec.PortBoot.reason, hm] <;> omega

private theorem firstMark_mem : ∀ {evs : List Ev} {r g}, Spec.PortBoot.firstMark evs = some (r, g) → Ev.mark r g ∈ evs := by
  intro evs
  induction evs with
  | nil => intro r g h; cases h
  | cons e evs ih =>
    intro r g h
    cases e with
    | mark r' g' =>
      simp only [Spec.PortBoot.firstMark, Option.some.injEq, Prod.mk.injEq] at h
      obtain ⟨rfl, rfl⟩ := h
      exact List.mem_cons_self
    | _ => exact List.mem_cons_of_mem _ (ih h)

private def MarkOk (before : Left) : Prop :=
  ∀ m, before.mark = some m → m.1 < 2 ^ 32 - 1 ∧ ∀ x, m.2 = some x → x.pc < 2 ^ 32 ∧ x.lr < 2 ^ 32

private theorem leaves_ok' {L : Life} (hL : LifeOk L) : MarkOk (leaves L) := by
  rintro ⟨r, g⟩ h
  exact hL.marks r g (firstMark_mem h)

private theorem lives_events (port : Port) {dev : Device} (hd : Spec.Event.DeviceOk dev) {bufLen : Nat} (b : Option Nat)
    (hdev : RebootEvent.worstCase dev (some 65536) ≤ 65530)
    (hfit : RebootEvent.worstCase dev (some 65536) + 4 ≤ bufLen) (h31 : bufLen < 2 ^ 31)
    (cfg : Collect.Config) (K : Collect.Keys) : ∀ (Ls : List Life), (∀ L ∈ Ls, LifeOk L) →
    ∀ {ram : RebootTracking.Ram} {before : Left} {n : Nat} {S : Spec.Reboot.State}, At ram before n S → MarkOk before →
    ∃ res, lives port dev bufLen cfg K ram Ls = some res ∧
      res.map (fun r => (r.1.storage.bind (firstMessage b), r.1.trace)) =
        (reboots before Ls).map fun i => (some (some (Spec.RebootEvent.rebootEvent dev i.2 i.1), false), true) := by
  intro Ls
  induction Ls with
  | nil => intro _ ram before n S _ _; exact ⟨[], rfl, rfl⟩
  | cons L Ls ih =>
    intro hLs ram before n S h hm
    have hL := hLs L (by simp)
    obtain ⟨s, q, ram', S', a1, a2, a3, a4, a5⟩ := live_at port b hdev hfit h31 cfg K h hL
    obtain ⟨res, b1, b2⟩ := ih (fun L hx => hLs L (by simp [hx])) a5 (leaves_ok' hL)
    refine ⟨(s, _) :: res, by simp only [lives, a1, Option.bind_some, b1, Option.map_some]; rfl, ?_⟩
    simp only [List.map_cons, reboots, b2, a2, a4, Option.bind_some, firstMessage_one a3]
    rw [show Spec.Cbor.decode (enc dev L.time (rebootInfo before L)) = _ from
      RebootEvent.decode_calls hd (infoOk hL hm) L.time]

private theorem fresh_at {ram : RebootTracking.Ram} (h : ram.magic ≠ 0x21544252) :
    At ram nothing 0 Spec.Reboot.empty := ⟨RebootTracking.empty_rel h, rfl, rfl, rfl⟩

/-! ## The number in the heartbeats -/

private theorem first_value {dev : Device} {keys : List Spec.Metrics.Key} {session k : Nat}
    {key : Spec.Metrics.Key} (hk : keys[k]? = some key) (hty : key.ty = .unsigned) (hses : key.session = session)
    (cfg : Collect.Config) (K : Collect.Keys)
    (hb : ∀ c b, ∀ op ∈ (Collect.builtin cfg K c b).1, Spec.Collect.leaves k session op) :
    ∀ (evs : List Collect.Event), (∀ e ∈ evs, Spec.Collect.untouched k session e) → ∀ {c : Collect.State}
      {s s' : Spec.Metrics.State} {es : List (Option Item)} {v : Option Int}, s k = .int v →
      Spec.Metrics.runActs dev keys session s (Collect.acts cfg K c evs) = some (es, s') →
      es.map (fun e => e.bind fun e => Spec.Metrics.eventMetric e (Spec.Metrics.position keys session k)) =
        match (Spec.Collect.beats evs).length with
        | 0 => []
        | m + 1 => some (v.elim Item.null Item.int) :: List.replicate m (some Item.null) := by
  intro evs
  induction evs with
  | nil =>
    intro _ c s s' es v hs h
    obtain ⟨rfl, rfl⟩ : [] = es ∧ s = s' := by simpa [Collect.acts, Spec.Metrics.runActs] using h
    rfl
  | cons e evs ih =>
    intro hu c s s' es v hs h
    have hu' : ∀ e ∈ evs, Spec.Collect.untouched k session e := fun e he => hu e (by simp [he])
    have hue := hu e (by simp)
    rw [Collect.acts] at h
    obtain ⟨es1, s1, es2, h1, h2, rfl⟩ := Collect.runActs_split _ _ h
    cases e with
    | call op =>
      simp only [Spec.Collect.untouched] at hue
      obtain ⟨rfl, h3⟩ := Collect.run_calls hk hty hses [op] (by
        intro op' ho; simp only [List.mem_singleton] at ho; subst ho; exact Collect.leaves_ok hue) hs h1
      rw [Collect.eff_leaves (session := session) [op] (by
        intro op' ho; simp only [List.mem_singleton] at ho; subst ho; exact hue)] at h3
      exact ih hu' h3 h2
    | connectivity cs t1 t2 =>
      obtain ⟨rfl, h3⟩ := Collect.run_calls hk hty hses _
        (fun op ho => Collect.leaves_ok (Collect.connectivity_ok K cs t1 t2 k session op ho)) hs h1
      rw [Collect.eff_leaves _ (Collect.connectivity_ok K cs t1 t2 k session)] at h3
      exact ih hu' h3 h2
    | stoppedDischarging =>
      simp only [Collect.eventActs, Spec.Metrics.runActs, Option.some.injEq, Prod.mk.injEq] at h1
      obtain ⟨rfl, rfl⟩ := h1
      exact ih hu' hs h2
    | beat b =>
      simp only [Spec.Collect.untouched] at hue
      have hlist : (Collect.eventActs cfg K c (.beat b)).1 = ([Spec.Metrics.Op.updateTimers b.timers] ++ b.sdkCalls ++
          (Collect.builtin cfg K c b).1 ++ b.userCalls).map Spec.Metrics.Act.call ++
            [Spec.Metrics.Act.flush b.captureTime] := by
        simp [Collect.eventActs, Collect.heartbeat]
      rw [hlist] at h1
      obtain ⟨es3, s3, es4, h3, h4, rfl⟩ := Collect.runActs_split _ _ h1
      have hall : ∀ op ∈ [Spec.Metrics.Op.updateTimers b.timers] ++ b.sdkCalls ++ (Collect.builtin cfg K c b).1 ++
          b.userCalls, Spec.Collect.leaves k session op := by
        intro op ho
        simp only [List.mem_append, List.mem_singleton] at ho
        rcases ho with ((rfl | ho) | ho) | ho
        · trivial
        · exact hue.1 op ho
        · exact hb c b op ho
        · exact hue.2 op ho
      obtain ⟨rfl, h5⟩ := Collect.run_calls hk hty hses _ (fun op ho => Collect.leaves_ok (hall op ho)) hs h3
      rw [Collect.eff_leaves _ hall] at h5
      obtain ⟨h6, h7⟩ := Collect.run_flush hk hty hses h5 h4
      have a := ih hu' h7 h2
      rw [List.nil_append, List.map_append, h6, a]
      simp only [Spec.Collect.beats, List.length_cons]
      cases (Spec.Collect.beats evs).length <;> rfl

private theorem beats_count : ∀ (evs : List Ev),
    (Spec.Collect.beats (evs.flatMap PortBoot.onMetrics)).length = evs.countP Spec.PortBoot.isBeat := by
  intro evs
  induction evs with
  | nil => rfl
  | cons e evs ih =>
    rw [List.flatMap_cons, List.countP_cons]
    cases e with
    | metrics e =>
      cases e <;> simp only [PortBoot.onMetrics, List.cons_append, List.nil_append, Spec.Collect.beats,
        List.length_cons, ih, Spec.PortBoot.isBeat] <;> rfl
    | _ => simp only [PortBoot.onMetrics, List.cons_append, List.nil_append, Spec.Collect.beats,
        List.length_cons, ih, Spec.PortBoot.isBeat] <;> rfl

private theorem builtin_leaves {K : Collect.Keys} (hK : K.all.Nodup) (cfg : Collect.Config) (session : Nat) (c : Collect.State)
    (b : Collect.Beat) :
    ∀ op ∈ (Collect.builtin cfg K c b).1, Spec.Collect.leaves K.unexpectedRebootCount session op := by
  have d := keyDistinct hK
  intro op ho
  rw [Collect.builtin_ops] at ho
  simp only [List.mem_append] at ho
  rcases ho with ((ho | ho) | ho) | ho
  · exact Collect.reliability_leaves (d 4 1 (by decide) (by decide) (by decide))
      (d 5 1 (by decide) (by decide) (by decide)) _ _ _ op ho
  · exact Collect.battery_leaves (d 6 1 (by decide) (by decide) (by decide)) (d 7 1 (by decide) (by decide) (by decide))
      (d 8 1 (by decide) (by decide) (by decide)) _ _ _ _ op ho
  · exact Collect.logs_leaves (d 9 1 (by decide) (by decide) (by decide)) (d 10 1 (by decide) (by decide) (by decide))
      _ _ _ _ op ho
  · exact Collect.uptime_leaves (d 11 1 (by decide) (by decide) (by decide)) _ _ op ho

/-- The heartbeats of one life. -/
private theorem life_reports {dev : Device} (hd : Spec.Event.DeviceOk dev) {tab : Metrics.Table}
    (ht : Metrics.TableOk tab) {K : Collect.Keys} (hK : K.all.Nodup) (cfg : Collect.Config) {kv : Metrics.KV}
    (hk : tab[K.unexpectedRebootCount]? = some kv) (hty : kv.type = .unsigned) {L : Life}
    (hu : ∀ e ∈ L.evs, Spec.PortBoot.untouched K.unexpectedRebootCount kv.session e) {n : Nat}
    (h : (Spec.Metrics.runActs dev (tab.map Metrics.keyOf) kv.session (Spec.Metrics.init (tab.map Metrics.keyOf))
      (PortBoot.acts cfg K L n)).isSome) :
    (Metrics.execActs dev tab kv.session (Metrics.State.init tab) (PortBoot.acts cfg K L n)).map
        (fun p => metricIn tab kv.session K.unexpectedRebootCount p.1) =
      some ((Spec.PortBoot.reports n L).map fun x => some (Spec.Collect.numberOrNull x)) := by
  obtain ⟨⟨es, s⟩, h1⟩ := Option.isSome_iff_exists.mp h
  obtain ⟨st, a1, -⟩ := Metrics.acts_rel hd ht _ (Metrics.init_rel tab) h1
  rw [a1, Option.map_some]
  congr 1
  have hk' : (tab.map Metrics.keyOf)[K.unexpectedRebootCount]? = some (Metrics.keyOf kv) := by
    rw [Metrics.keys_get, hk]; rfl
  have hty' : (Metrics.keyOf kv).ty = .unsigned := by unfold Metrics.keyOf; rw [hty]; rfl
  have hinit : Spec.Metrics.init (tab.map Metrics.keyOf) K.unexpectedRebootCount = .int none := by
    unfold Spec.Metrics.init; rw [hk']; simp [hty', Spec.Metrics.fresh]
  have hu' : ∀ e ∈ L.evs.flatMap PortBoot.onMetrics,
      Spec.Collect.untouched K.unexpectedRebootCount kv.session e := by
    intro e he
    obtain ⟨x, hx, he⟩ := List.mem_flatMap.1 he
    have := hu x hx
    cases x <;> simp only [PortBoot.onMetrics, List.mem_singleton, List.not_mem_nil] at he
    · subst he; exact this
    · subst he; exact this
  unfold PortBoot.acts at h1
  rw [Collect.life] at h1
  obtain ⟨es1, s1, es2, h2, h3, rfl⟩ := Collect.runActs_split _ _ h1
  obtain ⟨rfl, h4⟩ := Collect.run_calls hk' hty' rfl
    [.timerStart K.intervalMs L.bootMs, .setUnsigned K.unexpectedRebootCount n]
    (by intro op ho; simp only [List.mem_cons, List.not_mem_nil, or_false] at ho; rcases ho with rfl | rfl <;> trivial)
    hinit h2
  have a := first_value hk' hty' rfl cfg K (builtin_leaves hK cfg kv.session) _ hu' h4 h3
  refine Eq.trans a ?_
  rw [beats_count]
  unfold Spec.PortBoot.reports
  cases L.evs.countP Spec.PortBoot.isBeat with
  | zero => rfl
  | succ m =>
    simp only [List.map_cons, List.map_replicate, Spec.Collect.numberOrNull, Collect.eff]
    simp only [if_true, Option.elim, Collect.item_int]

private theorem lives_reports (port : Port) {dev : Device} (hd : Spec.Event.DeviceOk dev) {bufLen : Nat}
    (hdev : RebootEvent.worstCase dev (some 65536) ≤ 65530)
    (hfit : RebootEvent.worstCase dev (some 65536) + 4 ≤ bufLen) (h31 : bufLen < 2 ^ 31)
    {tab : Metrics.Table} (ht : Metrics.TableOk tab) {K : Collect.Keys} (hK : K.all.Nodup) (cfg : Collect.Config)
    {kv : Metrics.KV} (hk : tab[K.unexpectedRebootCount]? = some kv) (hty : kv.type = .unsigned) :
    ∀ (Ls : List Life), (∀ L ∈ Ls, LifeOk L) →
    (∀ L ∈ Ls, ∀ e ∈ L.evs, Spec.PortBoot.untouched K.unexpectedRebootCount kv.session e) →
    (∀ L ∈ Ls, ∀ n < 256, (Spec.Metrics.runActs dev (tab.map Metrics.keyOf) kv.session
      (Spec.Metrics.init (tab.map Metrics.keyOf)) (PortBoot.acts cfg K L n)).isSome) →
    ∀ {ram : RebootTracking.Ram} {before : Left} {n : Nat} {S : Spec.Reboot.State}, At ram before n S →
    (∀ x ∈ (told (PortBoot.clears port) before n Ls).flatten, ∀ m, x = some m → m < 256) →
    ∃ res, lives port dev bufLen cfg K ram Ls = some res ∧
      res.map (fun r => (Metrics.execActs dev tab kv.session (Metrics.State.init tab) r.2).map
        fun p => metricIn tab kv.session K.unexpectedRebootCount p.1) =
      (told (PortBoot.clears port) before n Ls).map fun xs =>
        some (xs.map fun x => some (Spec.Collect.numberOrNull x)) := by
  intro Ls
  induction Ls with
  | nil => intro _ _ _ ram before n S _ _; exact ⟨[], rfl, rfl⟩
  | cons L Ls ih =>
    intro hLs hu hrun ram before n S h hsmall
    have hL := hLs L (by simp)
    simp only [told, List.flatten_cons, List.mem_append] at hsmall
    obtain ⟨s, q, ram', S', a1, a2, a3, a4, a5⟩ := live_at port none hdev hfit h31 cfg K h hL
    obtain ⟨res, b1, b2⟩ := ih (fun L hx => hLs L (by simp [hx])) (fun L hx => hu L (by simp [hx]))
      (fun L hx => hrun L (by simp [hx])) a5 (fun x hx => hsmall x (.inr hx))
    refine ⟨(s, _) :: res, by simp only [lives, a1, Option.bind_some, b1, Option.map_some]; rfl, ?_⟩
    have hrep : Spec.PortBoot.reports ((n + if Spec.PortBoot.crashed before L then 1 else 0) % 256) L =
        Spec.PortBoot.reports (n + if Spec.PortBoot.crashed before L then 1 else 0) L := by
      have h1 := fun x hx => hsmall x (.inl hx)
      revert h1
      generalize (n + if Spec.PortBoot.crashed before L then 1 else 0) = m
      unfold Spec.PortBoot.reports
      cases L.evs.countP Spec.PortBoot.isBeat with
      | zero => intro _; rfl
      | succ k =>
        intro h1
        have := h1 (some m) (by simp) m rfl
        dsimp only
        rw [Nat.mod_eq_of_lt this]
    simp only [List.map_cons, told, b2]
    rw [life_reports hd ht hK cfg hk hty (hu L (by simp)) (hrun L (by simp) _ (Nat.mod_lt _ (by decide))), hrep]

/-! ## Sums -/

private theorem reports_sum (n : Nat) (L : Life) :
    ((Spec.PortBoot.reports n L).map (Option.getD · 0)).sum = if L.evs.any Spec.PortBoot.isBeat then n else 0 := by
  unfold Spec.PortBoot.reports
  cases hc : L.evs.countP Spec.PortBoot.isBeat with
  | zero =>
    have : L.evs.any Spec.PortBoot.isBeat = false := by
      rw [List.countP_eq_zero] at hc
      simpa using hc
    rw [this]; rfl
  | succ k =>
    have : L.evs.any Spec.PortBoot.isBeat = true := by
      have : 0 < L.evs.countP Spec.PortBoot.isBeat := by omega
      rw [List.countP_pos_iff] at this
      simpa using this
    rw [this]
    simp

private theorem told_sum : ∀ (Ls : List Life) (before : Left) (n : Nat),
    (∀ L ∈ Ls, L.cut = false ∧ ∀ b, Ev.metrics (.beat b) ∉ L.evs) →
    (∀ L, Ls.getLast? = some L → L.evs.any Spec.PortBoot.isTimerBeat) → (Ls = [] → n = 0) →
    ((told true before n Ls).flatten.map (Option.getD · 0)).sum = n + crashes before Ls := by
  intro Ls
  induction Ls with
  | nil => intro before n _ _ h; simp [told, crashes, h rfl]
  | cons L Ls ih =>
    intro before n hl hlast _
    obtain ⟨hcut, hnb⟩ := hl L (by simp)
    have hany : L.evs.any Spec.PortBoot.isBeat = L.evs.any Spec.PortBoot.isTimerBeat := by
      rw [Bool.eq_iff_iff, List.any_eq_true, List.any_eq_true]
      refine exists_congr fun e => and_congr_right fun he => ?_
      cases e with
      | metrics e => cases e with
        | beat b => exact absurd he (hnb b)
        | _ => rfl
      | _ => rfl
    simp only [told, crashes, List.flatten_cons, List.map_append, List.sum_append, reports_sum, hany, hcut,
      Bool.or_false, Bool.true_and]
    have h2 : ∀ L', Ls.getLast? = some L' → L'.evs.any Spec.PortBoot.isTimerBeat := by
      intro L' hL'
      exact hlast L' (by rw [List.getLast?_cons, hL']; rfl)
    cases ha : L.evs.any Spec.PortBoot.isTimerBeat with
    | true =>
      rw [if_pos rfl, if_pos rfl, ih _ 0 (fun L hx => hl L (by simp [hx])) h2 (fun _ => rfl)]
      omega
    | false =>
      rw [if_neg (by decide), if_neg (by decide), ih _ _ (fun L hx => hl L (by simp [hx])) h2]
      · omega
      · intro he
        subst he
        have := hlast L rfl
        rw [ha] at this; cases this

private theorem told_le (clears : Bool) : ∀ (Ls : List Life) (before : Left) (n : Nat),
    ∀ x ∈ (told clears before n Ls).flatten, ∀ m, x = some m → m ≤ n + crashes before Ls := by
  intro Ls
  induction Ls with
  | nil => intro before n x hx; simp [told] at hx
  | cons L Ls ih =>
    intro before n x hx m hm
    simp only [told, List.flatten_cons, List.mem_append] at hx
    simp only [crashes]
    rcases hx with hx | hx
    · unfold Spec.PortBoot.reports at hx
      split at hx
      · cases hx
      · subst hm
        simp only [List.mem_cons, Option.some.injEq, List.mem_replicate, reduceCtorEq, and_false, or_false] at hx
        omega
    · have := ih _ _ x hx m hm
      split at this <;> omega

/-! ## The theorems -/

/-- **C99, the event.** Take any port, any memory at power-up (without the magic number of reboot tracking) and
any sequence of lives, with any resets, marks, saved coredumps, sessions and heartbeats. Then each boot stores
exactly one event: after it the storage gives one message that decodes to the reboot of that boot -- the reason
that the firmware marked first in the life before, with its registers, or else the reason that the hardware
gives -- and no other message; and each boot starts trace events. -/
theorem C99_boot (port : Port) {dev : Device} (hd : Spec.Event.DeviceOk dev) {bufLen : Nat} (batchMax : Option Nat)
    (hdev : RebootEvent.worstCase dev (some 65536) ≤ 65530)
    (hfit : RebootEvent.worstCase dev (some 65536) + 4 ≤ bufLen) (h31 : bufLen < 2 ^ 31)
    (cfg : Collect.Config) (K : Collect.Keys) {ram : RebootTracking.Ram} (hram : ram.magic ≠ 0x21544252)
    (Ls : List Life) (hLs : ∀ L ∈ Ls, LifeOk L) :
    ∃ res, lives port dev bufLen cfg K ram Ls = some res ∧
      res.map (fun r => (r.1.storage.bind (firstMessage batchMax), r.1.trace)) =
        (reboots nothing Ls).map fun i => (some (some (Spec.RebootEvent.rebootEvent dev i.2 i.1), false), true) :=
  lives_events port hd batchMax hdev hfit h31 cfg K Ls hLs (fresh_at hram) (by intro m hm; cases hm)

/-- **C99, the reports.** For the same histories: the heartbeats of each life report, one after the other, the
number of unexpected reboots that the port has counted and not forgotten, and then null. -/
theorem C99_reports (port : Port) {dev : Device} (hd : Spec.Event.DeviceOk dev) {bufLen : Nat}
    (hdev : RebootEvent.worstCase dev (some 65536) ≤ 65530)
    (hfit : RebootEvent.worstCase dev (some 65536) + 4 ≤ bufLen) (h31 : bufLen < 2 ^ 31)
    {tab : Metrics.Table} (ht : Metrics.TableOk tab) {K : Collect.Keys} (hK : K.all.Nodup) (cfg : Collect.Config)
    {kv : Metrics.KV} (hk : tab[K.unexpectedRebootCount]? = some kv) (hty : kv.type = .unsigned)
    {ram : RebootTracking.Ram} (hram : ram.magic ≠ 0x21544252) (Ls : List Life) (hLs : ∀ L ∈ Ls, LifeOk L)
    (hu : ∀ L ∈ Ls, ∀ e ∈ L.evs, Spec.PortBoot.untouched K.unexpectedRebootCount kv.session e)
    (hrun : ∀ L ∈ Ls, ∀ n < 256, (Spec.Metrics.runActs dev (tab.map Metrics.keyOf) kv.session
      (Spec.Metrics.init (tab.map Metrics.keyOf)) (PortBoot.acts cfg K L n)).isSome)
    (hsmall : ∀ x ∈ (told (port = .espIdf ∨ port = .esp8266) nothing 0 Ls).flatten, ∀ m, x = some m → m < 256) :
    ∃ res, lives port dev bufLen cfg K ram Ls = some res ∧
      res.map (fun r => (Metrics.execActs dev tab kv.session (Metrics.State.init tab) r.2).map
        fun p => metricIn tab kv.session K.unexpectedRebootCount p.1) =
      (told (port = .espIdf ∨ port = .esp8266) nothing 0 Ls).map fun xs =>
        some (xs.map fun x => some (Spec.Collect.numberOrNull x)) := by
  have hc : decide (port = .espIdf ∨ port = .esp8266) = PortBoot.clears port := by cases port <;> rfl
  rw [hc] at hsmall ⊢
  exact lives_reports port hd hdev hfit h31 ht hK cfg hk hty Ls hLs hu hrun (fresh_at hram) hsmall

/-- **C99, the total (in part).** On the ESP ports, if all heartbeats come from the timer, no reset comes between
the handler of the timer and the heartbeat, and the last life has a heartbeat, then the heartbeats together report
each unexpected reboot of the history exactly once. What is missing: the other ports (`C99_false_never_cleared`),
resets at that point (`C99_false_cut`), heartbeats triggered by hand (`C99_false_trigger`) and more than 255
reboots without a heartbeat (`C99_false_256`). -/
theorem C99_total_partial {port : Port} (hport : port = .espIdf ∨ port = .esp8266) {dev : Device}
    (hd : Spec.Event.DeviceOk dev) {bufLen : Nat}
    (hdev : RebootEvent.worstCase dev (some 65536) ≤ 65530)
    (hfit : RebootEvent.worstCase dev (some 65536) + 4 ≤ bufLen) (h31 : bufLen < 2 ^ 31)
    {tab : Metrics.Table} (ht : Metrics.TableOk tab) {K : Collect.Keys} (hK : K.all.Nodup) (cfg : Collect.Config)
    {kv : Metrics.KV} (hk : tab[K.unexpectedRebootCount]? = some kv) (hty : kv.type = .unsigned)
    {ram : RebootTracking.Ram} (hram : ram.magic ≠ 0x21544252) (Ls : List Life) (hLs : ∀ L ∈ Ls, LifeOk L)
    (hu : ∀ L ∈ Ls, ∀ e ∈ L.evs, Spec.PortBoot.untouched K.unexpectedRebootCount kv.session e)
    (hrun : ∀ L ∈ Ls, ∀ n < 256, (Spec.Metrics.runActs dev (tab.map Metrics.keyOf) kv.session
      (Spec.Metrics.init (tab.map Metrics.keyOf)) (PortBoot.acts cfg K L n)).isSome)
    (hfew : crashes nothing Ls < 256)
    (htimer : ∀ L ∈ Ls, L.cut = false ∧ ∀ b, Ev.metrics (.beat b) ∉ L.evs)
    (hlast : ∀ L, Ls.getLast? = some L → L.evs.any Spec.PortBoot.isTimerBeat) :
    ∃ res, ∃ numbers : List (List (Option Nat)), lives port dev bufLen cfg K ram Ls = some res ∧
      res.map (fun r => (Metrics.execActs dev tab kv.session (Metrics.State.init tab) r.2).map
        fun p => metricIn tab kv.session K.unexpectedRebootCount p.1) =
      numbers.map (fun xs => some (xs.map fun x => some (Spec.Collect.numberOrNull x))) ∧
      (numbers.flatten.map (Option.getD · 0)).sum = crashes nothing Ls := by
  have hc : PortBoot.clears port = true := by rcases hport with rfl | rfl <;> rfl
  have hsmall : ∀ x ∈ (told (PortBoot.clears port) nothing 0 Ls).flatten, ∀ m, x = some m → m < 256 := by
    intro x hx m hm
    have := told_le _ Ls nothing 0 x hx m hm
    omega
  obtain ⟨res, a1, a2⟩ := lives_reports port hd hdev hfit h31 ht hK cfg hk hty Ls hLs hu hrun (fresh_at hram) hsmall
  refine ⟨res, _, a1, a2, ?_⟩
  rw [hc, told_sum Ls nothing 0 htimer hlast (fun _ => rfl)]
  omega

/-! ## A concrete history -/

def exBootBeat : Collect.Beat := beatAt 3600000 ⟨0, 90, true⟩ 0 0

/-- Memory at power-up. -/
def exBootRam : RebootTracking.Ram := ⟨0xdeadbeef, 17, 255, 3, 1, 2, 3, 7#32⟩

/-- Power-up; a hard fault in the first life, whose coredump is saved; the software resets the device at the end of
the second; the third ends as `cut` says. `first` is the only heartbeat of the first two lives. -/
def exBootLives (first : Ev) (cut : Bool) : List Life :=
  [⟨⟨0x00000001, 0x00000005⟩, some 1700000000, exSoc, 0, [.mark 0x9400 (some ⟨0x1000, 0x2001⟩), .coredumpSaved], false⟩,
   ⟨⟨0x00000004, 0x00000002⟩, none, exSoc, 0, [first, .mark 0x0002 none], cut⟩,
   ⟨⟨0x00000004, 0x00000002⟩, none, exSoc, 0, [.beat exBootBeat], false⟩]

def exBootNumbers (port : Port) (Ls : List Life) : Option (List (List Int)) :=
  (lives port exDev 128 allOn builtinKeys exBootRam Ls).map fun res => res.map fun r =>
    ((Metrics.execActs exDev builtinTab 0 (Metrics.State.init builtinTab) r.2).map fun p =>
      (metricIn builtinTab 0 1 p.1).map shown).getD [-100]

/-- The hypotheses of the theorems hold for this history. -/
example : (∀ L ∈ exBootLives (.beat exBootBeat) false, LifeOk L) ∧
    (∀ L ∈ exBootLives (.beat exBootBeat) false, ∀ e ∈ L.evs, Spec.PortBoot.untouched 1 0 e) ∧
    RebootEvent.worstCase exDev (some 65536) + 4 ≤ 128 ∧ exBootRam.magic ≠ 0x21544252 ∧
    crashes nothing (exBootLives (.beat exBootBeat) false) = 1 ∧
    (∀ L ∈ exBootLives (.beat exBootBeat) false, L.cut = false ∧ ∀ b, Ev.metrics (.beat b) ∉ L.evs) ∧
    (∀ L, (exBootLives (.beat exBootBeat) false).getLast? = some L → L.evs.any Spec.PortBoot.isTimerBeat) := by
  refine ⟨?_, ?_, by decide, by decide, by decide, ?_, ?_⟩
  · intro L hL
    simp only [exBootLives, List.mem_cons, List.not_mem_nil, or_false] at hL
    rcases hL with rfl | rfl | rfl <;> refine ⟨by decide, by decide, ?_, ?_⟩ <;> simp
  · intro L hL
    simp only [exBootLives, List.mem_cons, List.not_mem_nil, or_false] at hL
    rcases hL with rfl | rfl | rfl <;> simp [Spec.PortBoot.untouched, Spec.Collect.untouched, exBootBeat, beatAt]
  · intro L hL
    simp only [exBootLives, List.mem_cons, List.not_mem_nil, or_false] at hL
    rcases hL with rfl | rfl | rfl <;> simp
  · intro L hL
    simp only [exBootLives, List.getLast?_cons_cons, List.getLast?_singleton, Option.some.injEq] at hL
    subst hL; rfl

example : ∀ L ∈ exBootLives (.beat exBootBeat) false, ∀ n < 256, (Spec.Metrics.runActs exDev (builtinTab.map Metrics.keyOf) 0
    (Spec.Metrics.init (builtinTab.map Metrics.keyOf)) (PortBoot.acts allOn builtinKeys L n)).isSome := by
  decide +kernel

/-- The three reboots of it. -/
example : (reboots nothing (exBootLives (.beat exBootBeat) false)).map (fun i => (i.1.reason, i.1.pc, i.1.coredumpSaved)) =
    [(5, 0, false), (0x9400, 0x1000, true), (2, 0, false)] := by decide

/-- What the heartbeats say. -/
example : exBootNumbers .espIdf (exBootLives (.beat exBootBeat) false) = some [[], [1], [0]] := by decide +kernel

/-- On the other ports nothing sets the count back: the one crash of the history is reported again after an
ordinary reboot, two crashes in total. -/
theorem C99_false_never_cleared : ∀ port : Port, port ≠ .espIdf → port ≠ .esp8266 →
    exBootNumbers port (exBootLives (.beat exBootBeat) false) = some [[], [1], [1]] ∧
    crashes nothing (exBootLives (.beat exBootBeat) false) = 1 := by
  intro port h1 h2
  refine ⟨?_, by decide⟩
  cases port <;> first | exact absurd rfl h1 | exact absurd rfl h2 | decide +kernel

/-- On the ESP ports the timer's handler sets the count back before the heartbeat is stored: with a reset in between
the crash is in no heartbeat. -/
theorem C99_false_cut :
    exBootNumbers .espIdf (exBootLives (.session true 0) true) = some [[], [], [0]] ∧
    crashes nothing (exBootLives (.session true 0) true) = 1 := by
  refine ⟨by decide +kernel, by decide⟩

/-- A heartbeat that is triggered by hand does not set the count back: the crash is reported twice. -/
theorem C99_false_trigger :
    exBootNumbers .espIdf (exBootLives (.metrics (.beat exBootBeat)) false) = some [[], [1], [1]] ∧
    crashes nothing (exBootLives (.metrics (.beat exBootBeat)) false) = 1 := by
  refine ⟨by decide +kernel, by decide⟩

/-- The count has 8 bits: of 256 crashes without a heartbeat none is reported. -/
theorem C99_false_256 :
    let Ls : List Life := List.replicate 256 ⟨⟨0x00000001, 0x9400⟩, none, exSoc, 0, [], false⟩ ++
      [⟨⟨0x00000001, 2⟩, none, exSoc, 0, [.beat exBootBeat], false⟩]
    (exBootNumbers .espIdf Ls).map List.flatten = some [0] ∧ crashes nothing Ls = 256 := by
  refine ⟨by decide +kernel, by decide +kernel⟩

end Mflt.Props
