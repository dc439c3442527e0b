import Verif.Lemmas.TraceEvent
import Verif.Props.Metrics

/-! # C31, C59: trace events -/

namespace Mflt.Props

open TraceEvent Spec.TraceEvent
open SerializerHelper (Device computeSize Drops)

/-- **C31, what holds.** A task captures an event (`own`) or flushes, at any fill level of the storage
and with or without an event waiting from an earlier interrupt, and interrupts capture events between
its steps in any way. Once the call has returned: the events stored during the call, followed by the
event that is waiting, are exactly the event that was waiting before, the events of interrupts that
were answered with success, in the order of their capture, and, if the call was successful, the task's
own event, behind the event that was waiting before the call. So no event is lost or duplicated or
overtaken by an event captured afterwards. The call fails only if nothing is booted or an event does
not fit in the storage. Stored events decode to what was captured.

Missing for the full C31: events captured with reason `Unknown` in an interrupt, interrupts that
interrupt the capture of another interrupt, and several tasks; see the theorems that follow. -/
theorem C31_captures_kept_in_order_partial {dev : Device} (hd : Spec.Event.DeviceOk dev) {own : Option Info}
    {batch : Option Nat} {bufLen : Nat} (h0 : 0 < bufLen) (h1 : bufLen < 2 ^ 31)
    (before : List Spec.EventQueue.Op) {os1 : List Spec.EventQueue.Out} {q : Spec.EventQueue.State}
    (hq : Spec.EventQueue.run batch (Spec.EventQueue.empty bufLen) before = some (os1, q))
    (hp : q.pending = none) :
    ∃ s0 s1, EventStorage.boot bufLen = some s0 ∧ EventStorage.run ⟨batch⟩ s0 before = some (os1, s1) ∧
      ∀ sys evs, sys.storage = s1 →
        (∀ i, (i ∈ own ∨ i ∈ waiting sys ∨ .isr i ∈ evs) →
          InfoOk i ∧ ∀ time, computeSize (encode dev time i) ≤ 65532) →
        (∀ i, .isr i ∈ evs → i.reason ≠ 0) →
        ∃ r, runEvs dev own ⟨sys, entry sys own, []⟩ evs = some r ∧
          ∀ rv, r.pc = .done rv → ∃ news infos A B, Records dev news infos ∧
            A ++ B = accepted r.outs ∧
            infos ++ waiting r.sys =
              waiting sys ++ A ++ (if rv = 0 then own.toList else []) ++ B ∧
            (rv = 0 ∨ (rv = -1 ∧ r.sys.booted = false) ∨
              (rv = -2 ∧ ∃ i time, (i ∈ own ∨ i ∈ waiting r.sys) ∧
                q.cap < Spec.EventQueue.used { q with committed := q.committed ++ news } + 2 +
                  computeSize (encode dev time i))) ∧
            ∀ after os2 q2, Spec.EventQueue.run batch { q with committed := q.committed ++ news } after =
                some (os2, q2) →
              ∃ s3, EventStorage.run ⟨batch⟩ r.sys.storage after = some (os2, s3) := by
  obtain ⟨s0, e0, H0⟩ := boot_holds (b := batch) h0 h1
  obtain ⟨s1, e1, H1⟩ := run_refines before H0 hq
  refine ⟨s0, s1, e0, e1, ?_⟩
  rintro sys evs rfl hsane hreason
  have hs : ∀ i, (i ∈ own ∨ i ∈ waiting sys ∨ .isr i ∈ evs) → Sane dev i := fun i hi =>
    ⟨(hsane i hi).1, fun t => by rw [← computeSize_eq]; exact (hsane i hi).2 t⟩
  have hinv : Inv batch dev q (waiting sys) own ⟨sys, entry sys own, []⟩ [] [] [] [] := by
    refine ⟨by simpa using H1, trivial, rfl, ?_, fun i hi => hs i (Or.inl hi), ?_⟩
    · intro hz
      exact hs _ (Or.inr (Or.inl (by simpa [waiting] using hz)))
    · unfold entry
      by_cases hc : (own.isSome && !sys.booted) = true
      · rw [if_pos hc]
        simp only [Bool.and_eq_true, Bool.not_eq_true'] at hc
        exact ⟨by simp, Or.inr (Or.inl ⟨rfl, hc.2⟩)⟩
      · rw [if_neg hc]
        exact ⟨rfl, by simp⟩
  obtain ⟨r, news, infos, A, B, er, H⟩ := runEvs_inv hd hp evs hinv
    (fun i hi => ⟨hs i (Or.inr (Or.inr hi)), hreason i hi⟩)
  refine ⟨r, er, fun rv hrv => ⟨news, infos, A, B, H.recs, H.acc, ?_⟩⟩
  have hev := H.events
  rw [hrv] at hev
  refine ⟨hev.1, ?_, fun after os2 q2 ha => ?_⟩
  · rcases hev.2 with h | h | ⟨h, i, t, hi, hlt⟩
    · exact Or.inl h
    · exact Or.inr (Or.inl h)
    · exact Or.inr (Or.inr ⟨h, i, t, hi, by rw [computeSize_eq]; exact hlt⟩)
  · obtain ⟨s3, e3, -⟩ := run_refines after H.holds ha
    exact ⟨s3, e3⟩

/-- **C31, the call returns.** After four steps of the task the call has returned, whatever the
interrupts do. -/
theorem C31_call_returns {dev : Device} {own : Option Info} {sys : Sys} {evs : List Ev} {r : Run}
    (h : runEvs dev own ⟨sys, entry sys own, []⟩ evs = some r)
    (h4 : 4 ≤ taskSteps evs) :
    ∃ rv, r.pc = .done rv := by
  have hl := runEvs_left evs h
  have : left (entry sys own) ≤ 4 := by unfold entry; split <;> simp [left]
  simp only at hl
  exact left_zero (by omega)

/-- **C31, the steps are the call.** Without interrupts the steps are the call as a whole. -/
theorem C31_steps_are_the_call {dev : Device} {t1 t2 t3 t4 : Option Nat} {sys : Sys} {info : Info} :
    (runEvs dev (some info) ⟨sys, entry sys (some info), []⟩
        [.task t1, .task t2, .task t3, .task t4]).map (fun r => (r.pc, r.sys)) =
      (captureInfo dev false (t2, if sys.slot.reason = 0 then t2 else t4) sys info).map
        fun r => (.done r.1, r.2) := by
  by_cases hb : sys.booted = true
  · by_cases hz : sys.slot.reason = 0
    · simp only [runEvs, evStep, entry, hb, taskStep, afterFlush, captureInfo, tryFlush, hz]
      cases hst : store dev t2 sys info with
      | none => simp [hst]
      | some x => simp [hst]
    · simp only [runEvs, evStep, entry, hb, taskStep, afterFlush, captureInfo, tryFlush, hz]
      cases hst : store dev t2 sys sys.slot.info with
      | none => simp [hz, hst]
      | some x =>
        obtain ⟨rv, sys1⟩ := x
        by_cases hrv : rv = 0
        · subst hrv
          simp only [hz, hst, taskStep, afterFlush, Option.isSome_some, Bool.not_true, Bool.and_false,
            Bool.false_eq_true, if_false, if_true, Option.map_some, Option.bind_some, Option.bind_eq_bind,
            Option.pure_def, ne_eq, not_true_eq_false]
          cases hst2 : store dev t4 { sys1 with slot := { sys1.slot with reason := 0 } } info with
          | none => simp [hst2]
          | some y => simp [hst2]
        · simp [hz, hst, taskStep, hrv]
  · simp [runEvs, evStep, entry, hb, taskStep, captureInfo]

/-- **C31, captured logs.** An event captured with a log carries the first 79 characters of the
formatted text, and an empty text when formatting fails. -/
theorem C31_log_text {dev : Device} {time : Option Nat} {reason pc lr : Nat} (hp : pc ≠ 0) (hl : lr ≠ 0)
    (text : Option Bytes) :
    traceEvent dev time (withLog reason pc lr text) = Spec.Event.event dev 2 time (.map
      [.uint 6, .uint reason, .uint 2, .uint pc, .uint 3, .uint lr, .uint 8,
        .bytes (match text with | some t => t.take 79 | none => [])]) := by
  cases text <;> simp [traceEvent, withLog, hp, hl]

/-- **C31, the status.** An event with a status says the reason, where it was captured, and the status, and has no text;
one without has neither. -/
theorem C31_status {dev : Device} {time : Option Nat} {reason pc lr : Nat} (hp : pc ≠ 0) (hl : lr ≠ 0)
    (status : BitVec 32) :
    traceEvent dev time (withStatus reason pc lr status) = Spec.Event.event dev 2 time (.map
      [.uint 6, .uint reason, .uint 2, .uint pc, .uint 3, .uint lr, .uint 7, Spec.Cbor.Item.int status.toInt]) ∧
    traceEvent dev time (plain reason pc lr) = Spec.Event.event dev 2 time (.map
      [.uint 6, .uint reason, .uint 2, .uint pc, .uint 3, .uint lr]) := by
  simp [traceEvent, withStatus, plain, hp, hl]

/-- A capture for examples. -/
def exInfo (reason : Nat) : Info := plain reason 0x8000 0

/-- Device, storage of 200 bytes, an event waiting; two interrupts, one of them refused. The result:
task reasons in the storage are read back. -/
example : ((EventStorage.boot 200).bind fun s =>
    (runEvs exDev (some (withLog 9 1 2 (some [0x68, 0x69]))) ⟨⟨s, ⟨0, 0⟩, true, ⟨5, exInfo 5⟩⟩, .flushCheck, []⟩
      [.task none, .isr (exInfo 6), .task none, .task none, .isr (exInfo 7), .task (some 3)]).map fun r =>
        (r.pc, r.outs, r.sys.slot.reason)) =
    some (.done 0, [(exInfo 6, -2), (exInfo 7, 0)], 7) := by decide +kernel

/-- A size bound of the theorem is met. -/
example : InfoOk (withLog 9 1 2 (some [0x68, 0x69])) ∧
    computeSize (encode exDev (some 3) (withLog 9 1 2 (some [0x68, 0x69]))) = 31 := by
  refine ⟨⟨by decide, by decide, by decide, ?_⟩, by decide +kernel⟩
  intro l hl
  cases hl
  decide

/-- **C31 is false for reason `Unknown`.** An interrupt that captures an event with this reason while
the slot is free is answered with success, yet nothing is waiting, and a flush stores nothing. -/
theorem C31_false_unknown_reason {dev : Device} {time : Option Nat} {sys : Sys} {i : Info}
    (hfree : waiting sys = []) (h : i.reason = 0) :
    (captureFromIsr sys i).1 = 0 ∧ waiting (captureFromIsr sys i).2 = [] ∧
      tryFlush dev time (captureFromIsr sys i).2 = some (0, (captureFromIsr sys i).2) ∧
      (captureFromIsr sys i).2.storage = sys.storage := by
  have hz : sys.slot.reason = 0 := by
    unfold waiting at hfree; split at hfree
    · assumption
    · simp at hfree
  simp [captureFromIsr, isrFree, isrWrite, hz, waiting, tryFlush, h]

example : ∃ s, EventStorage.boot 200 = some s ∧ waiting ⟨s, ⟨0, 0⟩, true, ⟨0, exInfo 0⟩⟩ = [] :=
  ⟨_, rfl, rfl⟩

/-- **C31 is false for nested interrupts.** An interrupt has found the slot free when another one
captures `j`: both are answered with success, and `j` is lost. -/
theorem C31_false_nested_interrupts {sys : Sys} {i j : Info} (hfree : isrFree sys = true)
    (hi : i.reason ≠ 0) :
    (captureFromIsr sys j).1 = 0 ∧ captureFromIsr sys i = (0, isrWrite sys i) ∧
      waiting (isrWrite (captureFromIsr sys j).2 i) = [i] ∧
      (isrWrite (captureFromIsr sys j).2 i).storage = sys.storage := by
  simp [captureFromIsr, hfree, isrWrite, waiting, hi]

example : ∃ s, EventStorage.boot 200 = some s ∧ isrFree ⟨s, ⟨0, 0⟩, true, ⟨0, exInfo 0⟩⟩ = true :=
  ⟨_, rfl, rfl⟩

/-- Two tasks that both flush: `steps` says which of them makes the next step, 0 or 1; 2 is an
interrupt that captures `j`. The result: what the storage says and returns when its first two events
are read, the answer to the interrupt, and what is waiting. -/
def twoFlush (dev : Device) (j : Info) : List Nat → Sys → Pc → Pc → List Int → Option (Sys × Pc × Pc × List Int)
  | [], sys, p, p', outs => some (sys, p, p', outs)
  | 0 :: l, sys, p, p', outs =>
    (taskStep dev none none sys p).bind fun r => twoFlush dev j l r.1 r.2 p' outs
  | 1 :: l, sys, p, p', outs =>
    (taskStep dev none none sys p').bind fun r => twoFlush dev j l r.1 p r.2 outs
  | _ :: l, sys, p, p', outs =>
    twoFlush dev j l (captureFromIsr sys j).2 p p' (outs ++ [(captureFromIsr sys j).1])

/-- **C31 is false for several tasks: an event is stored twice.** Both tasks see the waiting event
before one of them has marked it as stored. -/
theorem C31_false_two_tasks_duplicate :
    ((EventStorage.boot 200).bind fun s =>
      (twoFlush exDev (exInfo 7) [0, 1, 0, 1, 0, 1] ⟨s, ⟨0, 0⟩, true, ⟨5, exInfo 5⟩⟩ .flushCheck .flushCheck []).bind
        fun r => (EventStorage.run ⟨none⟩ r.1.storage [.hasData, .read 19 2, .markRead, .hasData, .read 19 2,
          .markRead, .hasData]).map fun x => (r.2.1, r.2.2.1, x.1)) =
      some (.done 0, .done 0, [.avail true 25, .data (some [6, 5]), .unit, .avail true 25, .data (some [6, 5]), .unit,
        .avail false 0]) := by decide +kernel

/-- **C31 is false for several tasks: an event is lost.** The interrupt is answered with success after
the first task has freed the slot, and the second task frees the slot again. -/
theorem C31_false_two_tasks_lose :
    ((EventStorage.boot 200).bind fun s =>
      (twoFlush exDev (exInfo 7) [0, 1, 0, 1, 0, 2, 1] ⟨s, ⟨0, 0⟩, true, ⟨5, exInfo 5⟩⟩ .flushCheck .flushCheck []).bind
        fun r => (EventStorage.run ⟨none⟩ r.1.storage [.hasData, .read 19 2, .markRead, .hasData, .read 19 2,
          .markRead, .hasData]).map fun x => (r.2.2.2, waiting r.1, x.1)) =
      some ([0], [], [.avail true 25, .data (some [6, 5]), .unit, .avail true 25, .data (some [6, 5]), .unit,
        .avail false 0]) := by decide +kernel

/-! ## C59 -/

/-- **C59, what holds.** The worst-case size computed at boot bounds the size of every event without a
log, provided that the capture time is left out, or was already available (and after January 1970) at
boot. Missing for the full C59: events with a log, and this condition; see the theorems that follow. -/
theorem C59_worst_case_partial {dev : Device} {time time0 : Option Nat}
    (htime : time = none ∨ ∃ t0, time0 = some t0 ∧ 65536 ≤ t0 % 2 ^ 32) {numReasons : Nat}
    (hn : numReasons < 2 ^ 32) {i : Info} (hi : InfoOk i) (hr : i.reason ≤ numReasons) (hl : i.log = none) :
    computeSize (encode dev time i) ≤ worstCase dev time0 numReasons := by
  unfold worstCase
  rw [computeSize_eq, computeSize_eq]
  refine Metrics.eventCalls_size dev 2 htime ?_
  obtain ⟨reason, pc, lr, status, log⟩ := i
  simp only at hr hl
  subst hl
  have hu : ∀ v, (Cbor.emit (SerializerHelper.u32 v)).length ≤ 5 := by
    intro v
    unfold SerializerHelper.u32
    rw [Metrics.emit_unsigned]; exact (Metrics.headLen_le _).2
  have hr1 : (Cbor.emit (SerializerHelper.u32 reason)).length ≤
      (Cbor.emit (SerializerHelper.u32 numReasons)).length := by
    unfold SerializerHelper.u32
    rw [Metrics.emit_unsigned, Metrics.emit_unsigned]
    apply Metrics.headLen_mono
    simp only [BitVec.toNat_ofNat]
    rw [Nat.mod_eq_of_lt hi.reason, Nat.mod_eq_of_lt hn]; exact hr
  have hc : ∀ j : Info, (infoVal j).calls =
      (SerializerHelper.traceCalls ⟨6, j.reason, j.pc, j.lr, extraPairs j⟩ ++ optionalCalls j).tail := by
    intro j; rw [← infoVal_calls]; rfl
  rw [hc, hc]
  simp only [SerializerHelper.traceCalls, optionalCalls, extraPairs]
  have k : ∀ n, n < 24 → (Cbor.emit (SerializerHelper.u32 n)).length = 1 := by
    intro n hn
    unfold SerializerHelper.u32
    rw [Metrics.emit_unsigned]
    simp only [BitVec.toNat_ofNat, Metrics.headLen]
    rw [Nat.mod_eq_of_lt (by omega), if_pos hn]
  have d : ∀ n, n < 24 → (Cbor.emit (.dictionaryBegin n)).length = 1 := by
    intro n hn
    have : (Cbor.emit (.dictionaryBegin n)).length = Metrics.headLen (BitVec.ofNat 32 n).toNat := by
      simp [Cbor.emit, Cbor.pieces, Metrics.headBytes_length]
    rw [this]
    simp only [BitVec.toNat_ofNat, Metrics.headLen]
    rw [Nat.mod_eq_of_lt (by omega), if_pos hn]
  have hpc := hu pc
  have hlr := hu lr
  have hw : (Cbor.emit (SerializerHelper.u32 0xffffffff)).length = 5 := by decide
  have hw2 : (Cbor.emit (.signed 0x7fffffff#32)).length = 5 := by decide
  have h6 := k 6 (by decide)
  have h2 := k 2 (by decide)
  have h3 := k 3 (by decide)
  have h7 := k 7 (by decide)
  have d1 := d 1 (by decide)
  have d2 := d 2 (by decide)
  have d3 := d 3 (by decide)
  have d4 := d 4 (by decide)
  have hnil : Cbor.emitAll [] = [] := rfl
  cases status with
  | none =>
    by_cases hp : pc = 0 <;> by_cases hq : lr = 0 <;>
      simp [hp, hq, emitAll_cons, hw, hw2, h6, h2, h3, h7, d1, d2, d3, d4, hnil] <;> omega
  | some v =>
    have hv := Metrics.emit_signed v
    by_cases hp : pc = 0 <;> by_cases hq : lr = 0 <;>
      simp [hp, hq, emitAll_cons, hw, hw2, h6, h2, h3, h7, d1, d2, d3, d4, hnil] <;> omega

/-- The bound is reached. -/
example : worstCase exDev (some 1700000000) 3 = 45 ∧
    computeSize (encode exDev (some 1700000000) (withStatus 2 0x8000000 0x8000000 0x80000001#32)) = 45 := by
  decide +kernel

/-- **C59 is false for events with a log.** They can be larger than the worst-case size, so a storage
that was accepted at boot can be too small for them even when it is empty. -/
theorem C59_false_log : worstCase exDev none 3 = 39 ∧
    computeSize (encode exDev none (withLog 2 0x8000000 0x8000000 (some (List.replicate 40 0x61)))) = 76 ∧
    (boot exDev none 3 60 ⟨⟨⟨0, 0, 0, []⟩, ⟨false, 0⟩, ⟨0, 0, []⟩⟩, ⟨0, 0⟩, false, ⟨0, exInfo 0⟩⟩).1 = 0 ∧
    ((EventStorage.boot 60).bind fun s =>
      (captureInfo exDev false (none, none) ⟨s, ⟨0, 0⟩, true, ⟨0, exInfo 0⟩⟩
        (withLog 2 0x8000000 0x8000000 (some (List.replicate 40 0x61)))).map fun r => r.1) = some (-2) := by
  decide +kernel

/-- **C59 is false for the storage.** The two bytes that the storage adds to an event are not counted:
a storage of exactly the worst-case size is accepted and does not hold the largest event. -/
theorem C59_false_storage :
    (boot exDev none 3 39 ⟨⟨⟨0, 0, 0, []⟩, ⟨false, 0⟩, ⟨0, 0, []⟩⟩, ⟨0, 0⟩, false, ⟨0, exInfo 0⟩⟩).1 = 0 ∧
    ((EventStorage.boot 39).bind fun s =>
      (captureInfo exDev false (none, none) ⟨s, ⟨0, 0⟩, true, ⟨0, exInfo 0⟩⟩
        (withStatus 2 0x8000000 0x8000000 0x80000001#32)).map fun r => r.1) = some (-2) := by
  decide +kernel

end Mflt.Props
