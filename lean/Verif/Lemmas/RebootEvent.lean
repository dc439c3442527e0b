import Verif.Lemmas.Event
import Verif.Lemmas.MetricsSize
import Verif.Lemmas.RebootTracking
import Verif.Spec.RebootEvent
import Verif.Props.SerializerHelper

/-! # Lemmas: reboot events -/

namespace Mflt.RebootEvent

open Cbor SerializerHelper Spec.RebootEvent Props
open RebootTracking (Info)

/-- The information as a CBOR value. -/
def infoVal (i : Info) : CborVal :=
  .map ([val 1, val i.reason] ++ (if i.pc ≠ 0 then [val 2, val i.pc] else []) ++
    (if i.lr ≠ 0 then [val 3, val i.lr] else []) ++
    (if i.reg0 ≠ 0 then [val 4, val i.reg0] else []) ++
    [val 5, val (if i.coredumpSaved then 1 else 0)])

/-- All calls of the encoder. -/
def calls (dev : Device) (time : Option Nat) (i : Info) : List Call :=
  eventCalls dev 2 time (infoVal i).calls

theorem infoVal_calls (i : Info) : (u32 4 :: (infoVal i).calls) =
    traceCalls ⟨1, i.reason, i.pc, i.lr, extraPairs i⟩ ++ extraCalls i := by
  obtain ⟨reason, pc, lr, reg0, cd⟩ := i
  unfold infoVal traceCalls extraCalls extraPairs
  by_cases hp : pc = 0 <;> by_cases hl : lr = 0 <;> by_cases hr : reg0 = 0 <;>
    simp [hp, hl, hr, CborVal.calls, CborVal.callsList, val, u32]

theorem infoVal_item {i : Info} (h : InfoOk i) (dev : Device) (time : Option Nat) :
    Spec.Event.event dev 2 time (infoVal i).item = rebootEvent dev time i := by
  obtain ⟨reason, pc, lr, reg0, cd⟩ := i
  have h1 := h.reason
  have h2 := h.pc
  have h3 := h.lr
  have h4 := h.reg0
  simp only at h1 h2 h3 h4
  unfold rebootEvent infoVal
  by_cases hp : pc = 0 <;> by_cases hl : lr = 0 <;> by_cases hr : reg0 = 0 <;> cases cd <;>
    simp [hp, hl, hr, CborVal.item, CborVal.items, val, Nat.mod_eq_of_lt h1, Nat.mod_eq_of_lt h2,
      Nat.mod_eq_of_lt h3, Nat.mod_eq_of_lt h4]

theorem infoVal_ok (i : Info) : (infoVal i).ok := by
  obtain ⟨reason, pc, lr, reg0, cd⟩ := i
  unfold infoVal
  by_cases hp : pc = 0 <;> by_cases hl : lr = 0 <;> by_cases hr : reg0 = 0 <;>
    simp_all [CborVal.ok, CborVal.okList, val]

theorem encode_eq {σ : Type} (dev : Device) (time : Option Nat) (i : Info) (e : Encoder σ) :
    encode dev time i e = callAll e (calls dev time i) := by
  unfold calls
  rw [← encodeEvent_eq, infoVal_calls]
  have hassoc : ∀ (a b c : Encoder σ → Bool × Encoder σ) (e : Encoder σ),
      andThen (fun e => andThen a b e) c e = andThen a (fun e => andThen b c e) e := by
    intro a b c e
    unfold andThen
    cases hr : a e with
    | mk ok e' => cases ok <;> simp [hr]
  unfold encode encodeTraceEvent
  simp only [callAll_append]
  exact hassoc _ _ _ e

theorem decode_calls {dev : Device} (hd : Spec.Event.DeviceOk dev) {i : Info} (h : InfoOk i)
    (time : Option Nat) :
    Spec.Cbor.decode (emitAll (calls dev time i)) = some (rebootEvent dev time i) := by
  unfold calls
  rw [decode_event hd (by decide) time (infoVal i) (infoVal_ok i), infoVal_item h]

theorem calls_pos (dev : Device) (time : Option Nat) (i : Info) :
    1 ≤ (emitAll (calls dev time i)).length := by
  unfold calls eventCalls
  rw [List.cons_append, emitAll_cons, List.length_append]
  have : (emit (.dictionaryBegin (topLevelPairs dev time))).length =
      Metrics.headLen (BitVec.ofNat 32 (topLevelPairs dev time)).toNat := by
    simp [emit, pieces, Metrics.headBytes_length]
  have := (Metrics.headLen_le (BitVec.ofNat 32 (topLevelPairs dev time)).toNat).1
  omega

theorem computeSize_eq (dev : Device) (time : Option Nat) (i : Info) :
    computeSize (encode dev time i) = (emitAll (calls dev time i)).length := by
  unfold computeSize
  rw [encode_eq, callAll_eq_addAll, addAll_sizeOnly _ rfl, emitAll_eq]
  simp [Encoder.initSizeOnly]

/-- An event is as large as one whose reason has as long an encoding and whose other fields are
maximal, at most. -/
theorem calls_size (dev : Device) {time time0 : Option Nat}
    (htime : time = none ∨ ∃ t0, time0 = some t0 ∧ 65536 ≤ t0 % 2 ^ 32) {reason0 : Nat} {i : Info}
    (hr : (emit (u32 i.reason)).length ≤ (emit (u32 reason0)).length) :
    (emitAll (calls dev time i)).length ≤
      (emitAll (calls dev time0 ⟨reason0, 0xffffffff, 0xffffffff, 0xffffffff, true⟩)).length := by
  refine Metrics.eventCalls_size dev 2 htime ?_
  obtain ⟨reason, pc, lr, reg0, cd⟩ := i
  simp only at hr
  have hu : ∀ v, (emit (u32 v)).length ≤ 5 := by
    intro v
    unfold u32
    rw [Metrics.emit_unsigned]; exact (Metrics.headLen_le _).2
  have hc : ∀ j : Info, (infoVal j).calls =
      (traceCalls ⟨1, j.reason, j.pc, j.lr, extraPairs j⟩ ++ extraCalls j).tail := by
    intro j; rw [← infoVal_calls]; rfl
  rw [hc, hc]
  simp only [traceCalls, extraCalls, extraPairs]
  have k : ∀ n, n < 24 → (emit (u32 n)).length = 1 := by
    intro n hn
    unfold u32
    rw [Metrics.emit_unsigned]
    simp only [BitVec.toNat_ofNat, Metrics.headLen]
    rw [Nat.mod_eq_of_lt (by omega), if_pos hn]
  have d : ∀ n, n < 24 → (emit (.dictionaryBegin n)).length = 1 := by
    intro n hn
    have : (emit (.dictionaryBegin n)).length = Metrics.headLen (BitVec.ofNat 32 n).toNat := by
      simp [emit, pieces, Metrics.headBytes_length]
    rw [this]
    simp only [BitVec.toNat_ofNat, Metrics.headLen]
    rw [Nat.mod_eq_of_lt (by omega), if_pos hn]
  have hpc := hu pc
  have hlr := hu lr
  have hrg := hu reg0
  have hw : (emit (u32 0xffffffff)).length = 5 := by decide
  have h0 := k 0 (by decide)
  have h1 := k 1 (by decide)
  have h2 := k 2 (by decide)
  have h3 := k 3 (by decide)
  have h4 := k 4 (by decide)
  have h5 := k 5 (by decide)
  have d2 := d 2 (by decide)
  have d3 := d 3 (by decide)
  have d4 := d 4 (by decide)
  have d5 := d 5 (by decide)
  have hnil : emitAll [] = [] := rfl
  have hcd : (emit (u32 (if cd = true then 1 else 0))).length = 1 := by cases cd <;> assumption
  by_cases hp : pc = 0 <;> by_cases hq : lr = 0 <;> by_cases hg : reg0 = 0 <;>
    simp [hp, hq, hg, emitAll_cons, hw, h1, h2, h3, h4, h5, d2, d3, d4, d5, hnil, hcd] <;> omega

/-- Sizes grow with the length of the reason only. -/
theorem calls_reason (dev : Device) (time : Option Nat) (r0 r1 : Nat) :
    (emitAll (calls dev time ⟨r1, 0xffffffff, 0xffffffff, 0xffffffff, true⟩)).length +
        (emit (u32 r0)).length =
      (emitAll (calls dev time ⟨r0, 0xffffffff, 0xffffffff, 0xffffffff, true⟩)).length +
        (emit (u32 r1)).length := by
  have hc : ∀ j : Info, (infoVal j).calls =
      (traceCalls ⟨1, j.reason, j.pc, j.lr, extraPairs j⟩ ++ extraCalls j).tail := by
    intro j; rw [← infoVal_calls]; rfl
  unfold calls eventCalls
  rw [hc, hc]
  simp only [traceCalls, extraCalls, extraPairs, List.cons_append, emitAll_cons,
    Metrics.emitAll_length_append, List.length_append, List.tail_cons, List.nil_append]
  omega

/-- Storing one reboot event. -/
theorem store_eq {b : Option Nat} {dev : Device} {s : EventStorage.State} {q : Spec.EventQueue.State}
    (h : Holds b s q) (hp : q.pending = none) (time : Option Nat) (i : Info) (d : Drops)
    (hl : (emitAll (calls dev time i)).length ≤ 65532) :
    ∃ s' d', (Spec.EventQueue.used q + 2 + (emitAll (calls dev time i)).length ≤ q.cap →
        encodeToStorage (encode dev time i) s d = some (true, s', d') ∧
        Holds b s' { q with committed := q.committed ++ [emitAll (calls dev time i)] }) ∧
      (¬ Spec.EventQueue.used q + 2 + (emitAll (calls dev time i)).length ≤ q.cap →
        encodeToStorage (encode dev time i) s d = some (false, s', d') ∧ Holds b s' q) := by
  have hcb : (encode dev time i : Encoder SerializerHelper.Ctx → _) =
      callback (calls dev time i) false := by
    funext e; rw [encode_eq]; simp [callback]
  obtain ⟨s', f1, f2⟩ := encodeToStorage_eq h hp (calls dev time i) false d
    (calls_pos dev time i) hl
  by_cases hc : Spec.EventQueue.used q + 2 + (emitAll (calls dev time i)).length ≤ q.cap
  · obtain ⟨e1, e2⟩ := f1 ⟨rfl, hc⟩
    exact ⟨s', _, fun _ => ⟨by rw [hcb, e1], e2⟩, fun hn => absurd hc hn⟩
  · obtain ⟨e1, e2⟩ := f2 (fun hh => hc hh.2)
    exact ⟨s', _, fun hn => absurd hn hc, fun _ => ⟨by rw [hcb, e1], e2⟩⟩

/-- The model and the specification. -/
structure Rel (b : Option Nat) (bufLen : Nat) (sys : Sys) (S : Spec.RebootEvent.State) : Prop where
  reboot : RebootTracking.Rel sys.reboot S.reboot
  holds : Holds b sys.storage S.queue
  cap : S.queue.cap = bufLen

theorem queue_cap {b : Option Nat} {q q' : Spec.EventQueue.State} {op : Spec.EventQueue.Op}
    {o : Spec.EventQueue.Out} (h : Spec.EventQueue.step b q op = some (o, q')) : q'.cap = q.cap := by
  unfold Spec.EventQueue.step at h
  cases op <;> simp only at h
  all_goals repeat' split at h
  all_goals first
    | (cases h; done)
    | (simp only [Option.some.injEq, Prod.mk.injEq] at h; rw [← h.2])

theorem step_rel {b : Option Nat} {bufLen : Nat} {dev : Device} (h0 : 0 < bufLen) (h1 : bufLen < 2 ^ 31)
    (hsize : ∀ time i, (emitAll (calls dev time i)).length ≤ 65532) {sys : Sys}
    {S S' : Spec.RebootEvent.State} (h : Rel b bufLen sys S) {op : Op} {o : Out}
    (hs : Spec.RebootEvent.step b (fun t i => emitAll (calls dev t i)) S op = some (o, S')) :
    ∃ sys', step dev b bufLen sys op = some (o, sys') ∧ Rel b bufLen sys' S' := by
  cases op with
  | reboot op =>
    simp only [Spec.RebootEvent.step, Option.map_eq_some_iff] at hs
    obtain ⟨⟨o1, R⟩, a1, a2⟩ := hs
    simp only [Prod.mk.injEq] at a2
    obtain ⟨rfl, rfl⟩ := a2
    obtain ⟨r', b1, b2⟩ := RebootTracking.step_rel h.reboot a1
    simp only [step, b1, Option.bind_some]
    by_cases hr : op = .reset
    · obtain ⟨s', c1, c2⟩ := boot_holds (b := b) h0 h1
      simp only [hr, if_true, c1, Option.map_some]
      exact ⟨_, rfl, ⟨b2, by rw [h.cap]; exact c2, h.cap⟩⟩
    · simp only [hr, if_false]
      exact ⟨_, rfl, ⟨b2, h.holds, h.cap⟩⟩
  | storage op =>
    simp only [Spec.RebootEvent.step, Option.map_eq_some_iff] at hs
    obtain ⟨⟨o1, R⟩, a1, a2⟩ := hs
    simp only [Prod.mk.injEq] at a2
    obtain ⟨rfl, rfl⟩ := a2
    obtain ⟨s', b1, b2⟩ := step_refines h.holds a1
    simp only [step, b1, Option.map_some]
    exact ⟨_, rfl, ⟨h.reboot, b2, (queue_cap a1).trans h.cap⟩⟩
  | collect time =>
    simp only [Spec.RebootEvent.step] at hs
    split at hs
    · cases hs
    · rename_i hp
      have hp : S.queue.pending = none := by
        cases hq : S.queue.pending with
        | none => rfl
        | some x => simp [hq] at hp
      have hread : RebootTracking.readInfo sys.reboot = (known S.reboot, sys.reboot) := by
        obtain ⟨s', b1, b2⟩ := RebootTracking.step_rel h.reboot (op := .readInfo) rfl
        have hst : (RebootTracking.readInfo sys.reboot).2 = sys.reboot := by
          unfold RebootTracking.readInfo
          cases hl : sys.reboot.stat.info with
          | false => rfl
          | true =>
            have : S.reboot.live = true := by rw [← h.reboot.live, hl]
            simp [RebootTracking.checkOrInit_of (h.reboot.magic this)]
        simp only [RebootTracking.step, Option.some.injEq, Prod.mk.injEq,
          Spec.Reboot.Out.info.injEq] at b1
        rw [Prod.ext_iff]
        exact ⟨b1.1, hst⟩
      simp only [step, collect, hread]
      cases hk : known S.reboot with
      | none =>
        rw [hk] at hs
        simp only [Option.some.injEq, Prod.mk.injEq] at hs
        obtain ⟨rfl, rfl⟩ := hs
        exact ⟨_, rfl, ⟨h.reboot, h.holds, h.cap⟩⟩
      | some i =>
        rw [hk] at hs
        simp only at hs
        obtain ⟨s', d', f1, f2⟩ := store_eq (dev := dev) h.holds hp time i sys.drops (hsize time i)
        split at hs
        · rename_i hc
          simp only [Option.some.injEq, Prod.mk.injEq] at hs
          obtain ⟨rfl, rfl⟩ := hs
          obtain ⟨e1, e2⟩ := f1 hc
          have hlive : S.reboot.live = true := by
            unfold known at hk
            cases hl : S.reboot.live with
            | true => rfl
            | false => simp [hl] at hk
          obtain ⟨r', b1, b2⟩ := RebootTracking.step_rel h.reboot (op := .clear) (o := .unit)
            (S' := { S.reboot with pending := none, reg := 0, coredump := false }) (by
              simp [Spec.Reboot.step, hlive])
          simp only [RebootTracking.step, Option.some.injEq, Prod.mk.injEq, true_and] at b1
          simp only [e1, Bool.not_true, Bool.false_eq_true, if_false, Option.map_some]
          exact ⟨_, rfl, ⟨by rw [b1]; exact b2, e2, h.cap⟩⟩
        · rename_i hc
          simp only [Option.some.injEq, Prod.mk.injEq] at hs
          obtain ⟨rfl, rfl⟩ := hs
          obtain ⟨e1, e2⟩ := f2 hc
          simp only [e1, Bool.not_false, if_true, Option.map_some]
          exact ⟨_, rfl, ⟨h.reboot, e2, h.cap⟩⟩

theorem run_rel {b : Option Nat} {bufLen : Nat} {dev : Device} (h0 : 0 < bufLen) (h1 : bufLen < 2 ^ 31)
    (hsize : ∀ time i, (emitAll (calls dev time i)).length ≤ 65532) (ops : List Op) {sys : Sys}
    {S S' : Spec.RebootEvent.State} (h : Rel b bufLen sys S) {outs : List Out}
    (hs : Spec.RebootEvent.run b (fun t i => emitAll (calls dev t i)) S ops = some (outs, S')) :
    ∃ sys', run dev b bufLen sys ops = some (outs, sys') ∧ Rel b bufLen sys' S' := by
  induction ops generalizing sys S outs with
  | nil =>
    simp only [Spec.RebootEvent.run, Option.some.injEq, Prod.mk.injEq] at hs
    obtain ⟨rfl, rfl⟩ := hs
    exact ⟨sys, rfl, h⟩
  | cons op ops ih =>
    simp only [Spec.RebootEvent.run, Option.bind_eq_some_iff, Option.map_eq_some_iff] at hs
    obtain ⟨⟨o, S1⟩, a1, ⟨os, S2⟩, a2, a3⟩ := hs
    simp only [Prod.mk.injEq] at a3
    obtain ⟨rfl, rfl⟩ := a3
    obtain ⟨s1, b1, b2⟩ := step_rel h0 h1 hsize h a1
    obtain ⟨s2, c1, c2⟩ := ih b2 a2
    exact ⟨s2, by simp [run, b1, c1], c2⟩

end Mflt.RebootEvent
