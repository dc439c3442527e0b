import Verif.Spec.EventWriterClient
import Verif.Props.EventStorage

/-! # C17, C18: saving events, drop counting, interleaved writers -/

namespace Mflt.Props

open EventStorage Spec.EventQueue
open SerializerHelper (encoderWrite encodeToStorage callback Drops)

/-- Appending pieces that fit. -/
theorem feed_append {b : Option Nat} (ps : List Bytes) :
    ∀ (off : Nat) (s : EventStorage.State) (q : Spec.EventQueue.State) (p : Bytes),
      Holds b s q → q.pending = some p → used q + ps.flatten.length ≤ q.cap →
      ∃ s', Cbor.feedWrites encoderWrite off ps (some s) = some s' ∧
        Holds b s' { q with pending := some (p ++ ps.flatten) } := by
  induction ps with
  | nil =>
    intro off s q p h hp _
    refine ⟨s, rfl, ?_⟩
    simp only [List.flatten_nil, List.append_nil]
    rw [← hp]; exact h
  | cons d ps ih =>
    intro off s q p h hp hfit
    simp only [List.flatten_cons, List.length_append] at hfit
    have hs : Spec.EventQueue.step b q (.append d) =
        some (.ok true, { q with pending := some (p ++ d) }) := by
      simp only [Spec.EventQueue.step, hp]
      rw [if_pos (by omega)]
    obtain ⟨s1, e1, H1⟩ := step_refines h hs
    obtain ⟨s2, e2, H2⟩ := ih (off + d.length) s1 _ (p ++ d) H1 rfl (by
      have : used { q with pending := some (p ++ d) } = used q + d.length := by
        simp only [used, hp, List.length_append]; omega
      rw [this]; simp only; omega)
    refine ⟨s2, ?_, ?_⟩
    · simp only [Cbor.feedWrites]
      simp only [EventStorage.step] at e1
      have : encoderWrite (some s) off d = some s1 := by
        simp only [encoderWrite, Option.bind_some]
        cases ha : appendData s d with
        | none => simp [ha] at e1
        | some r => simp only [ha, Option.map_some, Option.some.injEq, Prod.mk.injEq] at e1; simp [e1.2]
      rw [this, e2]
    · simpa [List.append_assoc] using H2

theorem out_none_of_flatten {ws : List Bytes} (hne : ∀ p ∈ ws, p ≠ []) (h : ws.flatten.length = 0) :
    ws = [] := by
  cases ws with
  | nil => rfl
  | cons a ws =>
    exfalso
    have := hne a (by simp)
    have h2 : a.length ≠ 0 := by simpa using this
    simp only [List.flatten_cons, List.length_append] at h; omega

/-- Saving one event. -/
theorem encodeToStorage_eq {b : Option Nat} {s : EventStorage.State} {q : Spec.EventQueue.State}
    (h : Holds b s q) (hp : q.pending = none) (cs : List Cbor.Call) (giveUp : Bool) (d : Drops)
    (h1 : 1 ≤ (Cbor.emitAll cs).length) (h2 : (Cbor.emitAll cs).length ≤ 65532) :
    ∃ s', (giveUp = false ∧ used q + 2 + (Cbor.emitAll cs).length ≤ q.cap →
        encodeToStorage (callback cs giveUp) s d =
          some (true, s', if d.numStorageDrops ≠ 0 then
            ⟨0, add32 d.lastDropCount d.numStorageDrops⟩ else d) ∧
        Holds b s' { q with committed := q.committed ++ [Cbor.emitAll cs] }) ∧
      (¬ (giveUp = false ∧ used q + 2 + (Cbor.emitAll cs).length ≤ q.cap) →
        encodeToStorage (callback cs giveUp) s d =
          some (false, s', { d with numStorageDrops := add32 d.numStorageDrops 1 }) ∧
        Holds b s' q) := by
  have hne : ∀ p ∈ cs.flatMap Cbor.pieces, p ≠ [] := by
    intro p hp
    obtain ⟨c, -, hc⟩ := List.mem_flatMap.mp hp
    exact Cbor.pieces_ne_nil hc
  rw [Cbor.emitAll_eq] at *
  generalize hps : cs.flatMap Cbor.pieces = ps at *
  -- the state after begin
  by_cases hroom : q.cap < used q + 2
  · have hb : Spec.EventQueue.step b q .begin = some (.size 0, q) := by
      simp [Spec.EventQueue.step, hroom]
    obtain ⟨s1, e1, H1⟩ := step_refines h hb
    have hbw : beginWrite s = some (0, s1) := by
      simp only [EventStorage.step] at e1
      cases hx : beginWrite s with
      | none => simp [hx] at e1
      | some r => simpa [hx, Prod.ext_iff] using e1
    obtain ⟨ws, w1, w2, w3, w4, w5⟩ := Cbor.addAll_bounded
      (Cbor.Encoder.init encoderWrite (some s1) 0) encoderWrite rfl (by simp [Cbor.Encoder.init])
      ps hne
    simp only [Cbor.Encoder.init, Nat.zero_add] at w2 w3 w4
    have hfail : (Cbor.addAll (Cbor.Encoder.init encoderWrite (some s1) 0) ps).1 = false := by
      cases hb : (Cbor.addAll (Cbor.Encoder.init encoderWrite (some s1) 0) ps).1 with
      | false => rfl
      | true => have := w4.mp hb; omega
    have hws : ws = [] := out_none_of_flatten (fun p hp => hne p (w1.subset hp)) (by omega)
    subst hws
    have hf : Spec.EventQueue.step b q (.finish true) = some (.unit, q) := by
      simp [Spec.EventQueue.step, hp]
    obtain ⟨s2, e2, H2⟩ := step_refines H1 hf
    have hfw : finishWrite s1 true = some s2 := by
      simp only [EventStorage.step] at e2
      cases hx : finishWrite s1 true with
      | none => simp [hx] at e2
      | some r => simpa [hx] using e2
    refine ⟨s2, fun hc => absurd hc (by omega), fun _ => ⟨?_, H2⟩⟩
    simp only [encodeToStorage, hbw, Option.bind_eq_bind, Option.bind_some, callback,
      Cbor.callAll_eq_addAll, hps, hfail, Bool.false_and, Bool.not_false]
    change Option.bind (Cbor.addAll (Cbor.Encoder.init encoderWrite (some s1) 0) ps).2.ctx _ = _
    rw [show (Cbor.addAll (Cbor.Encoder.init encoderWrite (some s1) 0) ps).2.ctx = some s1 by
      rw [Cbor.Encoder.init, w2]; rfl]
    simp [hfw]
  · have hb : Spec.EventQueue.step b q .begin =
        some (.size (q.cap - used q - 2), { q with pending := some [] }) := by
      simp [Spec.EventQueue.step, hroom, hp]
    obtain ⟨s1, e1, H1⟩ := step_refines h hb
    have hbw : beginWrite s = some (q.cap - used q - 2, s1) := by
      simp only [EventStorage.step] at e1
      cases hx : beginWrite s with
      | none => simp [hx] at e1
      | some r => simpa [hx, Prod.ext_iff] using e1
    obtain ⟨ws, w1, w2, w3, w4, w5⟩ := Cbor.addAll_bounded
      (Cbor.Encoder.init encoderWrite (some s1) (q.cap - used q - 2)) encoderWrite rfl
      (by simp [Cbor.Encoder.init]) ps hne
    simp only [Cbor.Encoder.init, Nat.zero_add] at w2 w3 w4
    have hu : used { q with pending := some [] } = used q + 2 := by
      simp [used, hp]
    obtain ⟨s2, f2, H2⟩ := feed_append ws 0 s1 _ [] H1 rfl (by rw [hu]; simp only; omega)
    simp only [List.nil_append] at H2
    have hctx : (Cbor.addAll (Cbor.Encoder.init encoderWrite (some s1) (q.cap - used q - 2)) ps).2.ctx
        = some s2 := by
      rw [Cbor.Encoder.init, w2]; exact f2
    have hstep : encodeToStorage (callback cs giveUp) s d = (do
        let success := decide (ps.flatten.length ≤ q.cap - used q - 2) && !giveUp
        let s ← EventStorage.finishWrite s2 (!success)
        if !success then
          return (success, s, { d with numStorageDrops := add32 d.numStorageDrops 1 })
        else if d.numStorageDrops ≠ 0 then
          return (success, s, ⟨0, add32 d.lastDropCount d.numStorageDrops⟩)
        else return (success, s, d)) := by
      have hsucc : (Cbor.addAll (Cbor.Encoder.init encoderWrite (some s1) (q.cap - used q - 2)) ps).1
          = decide (ps.flatten.length ≤ q.cap - used q - 2) := by
        rw [Bool.eq_iff_iff, decide_eq_true_iff]; exact w4
      simp only [encodeToStorage, hbw, Option.bind_eq_bind, Option.bind_some, callback,
        Cbor.callAll_eq_addAll, hps, hsucc, hctx]
    by_cases hc : giveUp = false ∧ used q + 2 + ps.flatten.length ≤ q.cap
    · have hws : ws = ps := w5 (w4.mpr (by omega))
      subst hws
      have hf : Spec.EventQueue.step b { q with pending := some ws.flatten } (.finish false) =
          some (.unit, { q with committed := q.committed ++ [ws.flatten], pending := none }) := by
        simp only [Spec.EventQueue.step, Bool.false_eq_true, if_false]
        rw [if_pos ⟨h1, h2⟩]
      obtain ⟨s3, e3, H3⟩ := step_refines H2 hf
      have hfw : finishWrite s2 false = some s3 := by
        simp only [EventStorage.step] at e3
        cases hx : finishWrite s2 false with
        | none => simp [hx] at e3
        | some r => simpa [hx] using e3
      refine ⟨s3, fun _ => ⟨?_, ?_⟩, fun hn => absurd hc hn⟩
      · rw [hstep]
        simp only [hc.1, Bool.not_false, Bool.and_true,
          show ws.flatten.length ≤ q.cap - used q - 2 by omega, decide_true, Bool.not_true, hfw,
          Option.bind_eq_bind, Option.bind_some, Bool.false_eq_true, if_false, Option.pure_def]
        split <;> rfl
      · rw [hp]; exact H3
    · have hfalse : (decide (ps.flatten.length ≤ q.cap - used q - 2) && !giveUp) = false := by
        cases giveUp with
        | true => simp
        | false =>
          have hn : ¬ used q + 2 + ps.flatten.length ≤ q.cap := fun hh => hc ⟨rfl, hh⟩
          simp only [Bool.not_false, Bool.and_true, decide_eq_false_iff_not]; omega
      have hf : Spec.EventQueue.step b { q with pending := some ws.flatten } (.finish true) =
          some (.unit, { q with pending := none }) := by
        simp [Spec.EventQueue.step]
      obtain ⟨s3, e3, H3⟩ := step_refines H2 hf
      have hfw : finishWrite s2 true = some s3 := by
        simp only [EventStorage.step] at e3
        cases hx : finishWrite s2 true with
        | none => simp [hx] at e3
        | some r => simpa [hx] using e3
      refine ⟨s3, fun hn => absurd hn hc, fun _ => ⟨?_, ?_⟩⟩
      · rw [hstep]
        rw [hfalse]
        simp [hfw]
      · have hq : { q with pending := none } = q := by cases q; simp_all
        rw [hq] at H3; exact H3

/-- The helper `st` on a storage that holds the queue, with no event half-written. -/
structure HoldsW (b : Option Nat) (st : SerializerHelper.State) (w : Spec.EventWriter.State) :
    Prop where
  holds : Holds b st.storage w.queue
  idle : w.queue.pending = none
  drops : (st.drops.lastDropCount + st.drops.numStorageDrops) % 2 ^ 32 = w.drops % 2 ^ 32

theorem writer_step {b : Option Nat} {st : SerializerHelper.State} {w w' : Spec.EventWriter.State}
    {op : Spec.EventWriter.Op} {o : Spec.EventWriter.Out} (h : HoldsW b st w)
    (hs : Spec.EventWriter.step b Cbor.emitAll w op = some (o, w')) :
    ∃ st', SerializerHelper.step ⟨b⟩ st op = some (o, st') ∧ HoldsW b st' w' := by
  have hd := h.drops
  cases op with
  | save cs giveUp =>
    simp only [Spec.EventWriter.step] at hs
    split at hs
    · simp at hs
    rename_i hlen
    simp only [Decidable.not_not] at hlen
    obtain ⟨s', k1, k2⟩ := encodeToStorage_eq h.holds h.idle cs giveUp st.drops hlen.1 hlen.2
    split at hs
    · rename_i hc
      obtain ⟨e, H⟩ := k1 hc
      simp only [Option.some.injEq, Prod.mk.injEq] at hs
      obtain ⟨rfl, rfl⟩ := hs
      refine ⟨⟨s', if st.drops.numStorageDrops ≠ 0 then
            ⟨0, add32 st.drops.lastDropCount st.drops.numStorageDrops⟩ else st.drops⟩,
        by simp only [SerializerHelper.step, e, Option.map_some], H, h.idle, ?_⟩
      simp only
      rw [← hd]
      split
      · unfold add32; simp only; omega
      · rfl
    · rename_i hc
      obtain ⟨e, H⟩ := k2 hc
      simp only [Option.some.injEq, Prod.mk.injEq] at hs
      obtain ⟨rfl, rfl⟩ := hs
      refine ⟨⟨s', { st.drops with numStorageDrops := add32 st.drops.numStorageDrops 1 }⟩,
        by simp only [SerializerHelper.step, e, Option.map_some], H, h.idle, ?_⟩
      simp only
      unfold add32; omega
  | dropCount =>
    simp only [Spec.EventWriter.step, Option.some.injEq, Prod.mk.injEq] at hs
    obtain ⟨rfl, rfl⟩ := hs
    refine ⟨⟨st.storage, ⟨0, 0⟩⟩, by simp only [SerializerHelper.step, SerializerHelper.readDropCount, add32, hd],
      h.holds, h.idle, rfl⟩
  | reader op =>
    simp only [Spec.EventWriter.step] at hs
    split at hs
    · rename_i hr
      cases hq : Spec.EventQueue.step b w.queue op with
      | none => simp [hq] at hs
      | some r =>
        obtain ⟨o1, q1⟩ := r
        simp only [hq, Option.map_some, Option.some.injEq, Prod.mk.injEq] at hs
        obtain ⟨rfl, rfl⟩ := hs
        obtain ⟨s', e, H⟩ := step_refines h.holds hq
        refine ⟨⟨s', st.drops⟩, by simp only [SerializerHelper.step, e, Option.map_some], H, ?_, hd⟩
        have hi := h.idle
        cases op <;> simp [Spec.EventWriter.readerOp] at hr <;>
          simp only [Spec.EventQueue.step] at hq
        case hasData => simp at hq; simp [← hq.2, hi]
        case read => split at hq <;> simp at hq <;> simp [← hq.2, hi]
        case markRead => simp at hq; simp [← hq.2, hi]
        case bytesUsed => simp at hq; simp [← hq.2, hi]
        case bytesFree => simp at hq; simp [← hq.2, hi]
    · simp at hs

theorem writer_run {b : Option Nat} (ops : List Spec.EventWriter.Op) {st : SerializerHelper.State}
    {w w' : Spec.EventWriter.State} {os : List Spec.EventWriter.Out} (h : HoldsW b st w)
    (hs : Spec.EventWriter.run b Cbor.emitAll w ops = some (os, w')) :
    ∃ st', SerializerHelper.run ⟨b⟩ st ops = some (os, st') ∧ HoldsW b st' w' := by
  induction ops generalizing st w os with
  | nil =>
    simp only [Spec.EventWriter.run, Option.some.injEq, Prod.mk.injEq] at hs
    obtain ⟨rfl, rfl⟩ := hs
    exact ⟨st, rfl, h⟩
  | cons op ops ih =>
    simp only [Spec.EventWriter.run, Option.bind_eq_bind, Option.bind_eq_some_iff,
      Option.pure_def, Option.some.injEq, Prod.mk.injEq, Prod.exists] at hs
    obtain ⟨o, q1, h1, os', q2, h2, rfl, rfl⟩ := hs
    obtain ⟨s1, e1, H1⟩ := writer_step h h1
    obtain ⟨s2, e2, H2⟩ := ih H1 h2
    exact ⟨s2, by simp [SerializerHelper.run, e1, e2], H2⟩

/-- **C18.** For every storage size and every history of saves (with callbacks that make any encoder
calls and may also fail by themselves), drop-count reads and storage reads: a save either stores
exactly the event's encoding and reports success, or stores nothing, reports failure and counts one
drop; reading the drop count returns the number of drops since it was last read (32-bit counter).
`Cbor.emitAll` is the concatenation of what the calls emit, the bytes C09 is about. -/
theorem C18_drops_counted (b : Option Nat) (bufLen : Nat) (h0 : 0 < bufLen) (h1 : bufLen < 2 ^ 31)
    (ops : List Spec.EventWriter.Op) (os : List Spec.EventWriter.Out) (w : Spec.EventWriter.State)
    (hs : Spec.EventWriter.run b Cbor.emitAll ⟨empty bufLen, 0⟩ ops = some (os, w)) :
    ∃ s st', boot bufLen = some s ∧
      SerializerHelper.run ⟨b⟩ ⟨s, ⟨0, 0⟩⟩ ops = some (os, st') := by
  obtain ⟨s, e, H⟩ := boot_holds (b := b) h0 h1
  obtain ⟨st', e', -⟩ := writer_run ops (st := ⟨s, ⟨0, 0⟩⟩) ⟨H, rfl, rfl⟩ hs
  exact ⟨s, st', e, e'⟩

/-- A 10-byte storage: one event fits, the next two are dropped, another one fits after the first
was read. -/
example : Spec.EventWriter.run none Cbor.emitAll ⟨empty 10, 0⟩
    [.save [.arrayBegin 2, .unsigned 1000, .null] false, .save [.unsigned 70000] false,
      .save [.null] true, .dropCount, .save [.byteString [1, 2]] false, .reader .hasData,
      .reader (.read 0 5), .reader .markRead, .save [.byteString [1, 2]] false, .dropCount,
      .dropCount] =
    some ([.saved true, .saved false, .saved false, .count 2, .saved false,
      .reader (.avail true 5), .reader (.data (some [0x82, 0x19, 0x03, 0xe8, 0xf6])),
      .reader .unit, .saved true, .count 1, .count 0],
      ⟨⟨10, [[0x42, 1, 2]], none, 0⟩, 0⟩) := by decide +kernel

/-! ## Two writers

A writer's transaction is: begin, append each piece, finish. `memfault_lock` makes each of these
calls atomic; nothing keeps another context from running in between. -/

/-- **C17 is false of the code.** Writer A begins an event and appends its data. Writer B begins:
it is told that there is no room (0), so its encoding fails and it rolls back. That rolls back A's
event. A finishes, is told nothing went wrong, and its event is gone: the storage is empty and
nothing is counted as dropped on A's side. -/
theorem C17_rollback_removes_other_writers_event :
    ((boot 64).bind fun s => EventStorage.run ⟨none⟩ s
      [/- A -/ .begin, .append [1, 2, 3], /- B -/ .begin, .finish true, /- A -/ .finish false,
       .hasData]).map Prod.fst =
    some [.size 62, .ok true, .size 0, .unit, .unit, .avail false 0] := by decide +kernel

/-- The same schedule one step earlier: the data A appends after B's rollback lands in the storage
without a header, and the reader is handed an event nobody wrote. -/
theorem C17_rollback_corrupts_storage :
    ((boot 64).bind fun s => EventStorage.run ⟨none⟩ s
      [/- A -/ .begin, /- B -/ .begin, .finish true, /- A -/ .append [5, 0, 7, 7, 7],
       .finish false, .hasData, .read 0 3]).map Prod.fst =
    some [.size 62, .size 0, .unit, .ok true, .unit, .avail true 3, .data (some [7, 7, 7])] := by
  decide +kernel

/-- A call made by some writer. -/
def writerOp : Op → Bool
  | .begin | .append _ | .finish _ => true
  | _ => false

/-- What is left of the storage's structure under arbitrary interleavings: finished events stay at
the front. -/
structure Front (es : List Bytes) (s : EventStorage.State) : Prop where
  inv : s.cb.Inv
  front : ∃ rest, s.cb.contents = encAll es ++ rest ∧
    (s.ws.writeInProgress = true → 2 ≤ s.ws.bytesWritten ∧ s.ws.bytesWritten ≤ rest.length)

theorem writer_op_front {es : List Bytes} {s : EventStorage.State} (h : Front es s) (op : Op)
    (hop : writerOp op = true) (cfg : Config) :
    ∃ o s', EventStorage.step cfg s op = some (o, s') ∧ Front es s' ∧ s'.rs = s.rs ∧
      s'.cb.totalSpace = s.cb.totalSpace := by
  obtain ⟨rest, hc, hw⟩ := h.front
  cases op <;> simp [writerOp] at hop
  case begin =>
    simp only [EventStorage.step, beginWrite]
    by_cases hip : s.ws.writeInProgress = true
    · simp only [hip, if_true, Option.map_some]
      exact ⟨_, s, rfl, h, rfl, rfl⟩
    · obtain ⟨cb', e1, e2, e3, e4, e5⟩ := CircBuf.write_eq h.inv (le16 writeInProgressMark)
      simp only [hip, Bool.false_eq_true, if_false, e1, Option.bind_eq_bind, Option.bind_some]
      by_cases hfit : s.cb.readSize + (le16 writeInProgressMark).length ≤ s.cb.totalSpace
      · rw [if_pos hfit] at e5
        simp only [hfit, decide_true, Bool.not_true, Bool.false_eq_true, if_false]
        refine ⟨_, { s with cb := cb', ws := ⟨true, 2⟩ }, rfl,
          ⟨e2, rest ++ le16 writeInProgressMark, by simp only; rw [e5, hc, List.append_assoc], ?_⟩,
          rfl, e3⟩
        intro _; simp only [List.length_append, length_le16]; omega
      · rw [if_neg hfit] at e5
        simp only [hfit, decide_false, Bool.not_false, if_true]
        exact ⟨_, { s with cb := cb' }, rfl, ⟨e2, rest, by simp only; rw [e5, hc], hw⟩, rfl, e3⟩
  case append d =>
    simp only [EventStorage.step, appendData]
    obtain ⟨cb', e1, e2, e3, e4, e5⟩ := CircBuf.write_eq h.inv d
    simp only [e1, Option.bind_eq_bind, Option.bind_some]
    by_cases hfit : s.cb.readSize + d.length ≤ s.cb.totalSpace
    · rw [if_pos hfit] at e5
      simp only [hfit, decide_true, if_true]
      refine ⟨_, _, rfl, ⟨e2, rest ++ d, by simp only; rw [e5, hc, List.append_assoc], ?_⟩, rfl, e3⟩
      simp only [List.length_append]
      intro hip; have := hw hip; omega
    · rw [if_neg hfit] at e5
      simp only [hfit, decide_false, Bool.false_eq_true, if_false]
      exact ⟨_, _, rfl, ⟨e2, rest, by simp only; rw [e5, hc], hw⟩, rfl, e3⟩
  case finish rollback =>
    simp only [EventStorage.step, finishWrite]
    by_cases hip : s.ws.writeInProgress = true
    · obtain ⟨w1, w2⟩ := hw hip
      have hlen : s.cb.readSize = (encAll es).length + rest.length := by
        rw [← CircBuf.length_contents, hc, List.length_append]
      simp only [hip, Bool.not_true, Bool.false_eq_true, if_false]
      cases rollback with
      | true =>
        obtain ⟨-, e2, e3, -, e5⟩ := CircBuf.consumeFromEnd_eq h.inv s.ws.bytesWritten
        rw [if_pos (by omega)] at e5
        simp only [if_true, Option.map_some]
        refine ⟨_, _, rfl, ⟨e2, rest.take (rest.length - s.ws.bytesWritten), ?_, by simp⟩, rfl, e3⟩
        simp only
        rw [e5, hc, hlen, List.take_append, List.take_of_length_le (by omega)]
        congr 2; omega
      | false =>
        obtain ⟨cb', e1, e2, e3, e4, e5⟩ := CircBuf.writeAtOffset_eq h.inv s.ws.bytesWritten
          (le16 (s.ws.bytesWritten % 65536))
        have hsz := h.inv.size
        rw [if_pos (by rw [length_le16]; omega)] at e5
        simp only [Bool.false_eq_true, if_false, e1, Option.bind_eq_bind, Option.bind_some,
          Option.pure_def, Option.map_some]
        refine ⟨_, _, rfl, ⟨e2, ?_⟩, rfl, e3⟩
        rw [Spec.ByteQueue.overwrite, CircBuf.length_contents, hlen, hc, List.take_append,
          List.take_of_length_le (show (encAll es).length ≤ _ by omega), List.append_assoc,
          List.append_assoc] at e5
        exact ⟨_, e5, by simp⟩
    · simp only [hip, Bool.not_false, if_true, Option.map_some]
      exact ⟨_, s, rfl, h, rfl, rfl⟩

theorem writer_ops_front {es : List Bytes} (cfg : Config) (ops : List Op)
    (hops : ∀ op ∈ ops, writerOp op = true) : ∀ {s : EventStorage.State}, Front es s →
    ∃ os s', EventStorage.run cfg s ops = some (os, s') ∧ Front es s' ∧ s'.rs = s.rs ∧
      s'.cb.totalSpace = s.cb.totalSpace := by
  induction ops with
  | nil => intro s h; exact ⟨[], s, rfl, h, rfl, rfl⟩
  | cons op ops ih =>
    intro s h
    obtain ⟨o, s1, e1, H1, r1, t1⟩ := writer_op_front h op (hops op (by simp)) cfg
    obtain ⟨os, s2, e2, H2, r2, t2⟩ := ih (fun x hx => hops x (by simp [hx])) H1
    exact ⟨o :: os, s2, by simp [EventStorage.run, e1, e2], H2, by rw [r2, r1], by rw [t2, t1]⟩

/-- The reader's calls that fetch one message of `n` bytes and mark it read. -/
def fetch (n : Nat) : List Op := [.hasData, .read 0 n, .markRead]

theorem fetch_front {e : Bytes} {es : List Bytes} {s : EventStorage.State} (h : Front (e :: es) s)
    (hoe : Ok e) (hrs : s.rs = ⟨0, 0, []⟩) (hsm : s.cb.totalSpace < 2 ^ 31) :
    ∃ s', EventStorage.run ⟨none⟩ s (fetch e.length) =
        some ([.avail true e.length, .data (some e), .unit], s') ∧ Front es s' ∧
      s'.rs = ⟨0, 0, []⟩ ∧ s'.cb.totalSpace = s.cb.totalSpace := by
  obtain ⟨rest, hc, hw⟩ := h.front
  have h1 := hoe.1
  have h2 := hoe.2
  have hr := read_hdr h.inv (length_le16 (e.length + 2)) (pre := [])
    (rest := e ++ encAll es ++ rest) (by rw [hc]; simp [enc])
  simp only [List.length_nil] at hr
  have hlen : s.cb.readSize = (e.length + 2) + (encAll es).length + rest.length := by
    rw [← CircBuf.length_contents, hc]; simp; omega
  have hsz := h.inv.size
  have hcs : computeReadState ⟨none⟩ s.cb = some ⟨e.length + 2, 1, []⟩ := by
    unfold computeReadState computeLoop
    simp only [hr, ofLe16_le16 (show e.length + 2 < 65536 by omega)]
    rw [if_neg (by unfold writeInProgressMark; omega)]
    simp
  have ht : totalEventSize ⟨e.length + 2, 1, []⟩ = e.length := by
    unfold totalEventSize
    simp only [Nat.one_ne_zero, if_false, List.length_nil, Nat.add_zero, Nat.one_mul]
    rw [sub32_eq (by omega) (by omega)]; omega
  have ht0 : totalEventSize ⟨0, 0, []⟩ = 0 := rfl
  obtain ⟨s1, hs1⟩ : ∃ s1 : EventStorage.State, s1 = { s with rs := ⟨e.length + 2, 1, []⟩ } :=
    ⟨_, rfl⟩
  have hs1c : s1.cb = s.cb := by rw [hs1]
  have hs1r : s1.rs = ⟨e.length + 2, 1, []⟩ := by rw [hs1]
  have hhd : hasData ⟨none⟩ s = some (true, e.length, s1) := by
    unfold hasData
    simp only [hrs, ht0, hcs, ht, ne_eq, not_true_eq_false, if_false, Option.bind_eq_bind,
      Option.bind_some, Option.pure_def, show ¬ e.length = 0 by omega, not_false_eq_true,
      decide_true]
    rw [hs1]
  have hrl := readLoop_eq h.inv hsm (encAll es ++ rest) [e] (s.cb.readSize + 1) [] 0 0
    e.length [] (by rw [hc]; simp) (by simpa using hoe) (by simp; omega) (by simp) (by omega)
  simp only [List.length_nil, Nat.add_zero, List.nil_append, List.flatten_cons, List.flatten_nil,
    List.append_nil, List.drop_zero, List.take_length] at hrl
  have hrd : EventStorage.read s1 0 e.length = some (some e) := by
    unfold EventStorage.read
    rw [hs1r, hs1c, ht, if_neg (by omega)]
    simp only [List.length_nil]
    rw [if_neg (by omega), Nat.sub_zero, hrl]
  obtain ⟨cb', e1, e2, e3, e4, e5⟩ := CircBuf.consume_eq h.inv (e.length + 2)
  rw [if_pos (by omega)] at e5
  have hmr : markRead s1 = some { s with cb := cb', rs := ⟨0, 0, []⟩ } := by
    unfold markRead
    rw [hs1r, hs1c, if_neg (by simp only; omega)]
    simp only [e1, Option.bind_eq_bind, Option.bind_some, Option.pure_def, hs1]
  refine ⟨{ s with cb := cb', rs := ⟨0, 0, []⟩ }, ?_, ⟨e2, rest, ?_, hw⟩, rfl, e3⟩
  · simp [EventStorage.run, fetch, EventStorage.step, hhd, hrd, hmr]
  · simp only
    rw [e5, hc, encAll_cons, List.append_assoc, List.drop_left' (length_enc e)]

theorem fetch_all_front (es : List Bytes) : ∀ {s : EventStorage.State}, Front es s →
    (∀ e ∈ es, Ok e) → s.rs = ⟨0, 0, []⟩ → s.cb.totalSpace < 2 ^ 31 →
    ∃ s', EventStorage.run ⟨none⟩ s (es.flatMap fun e => fetch e.length) =
      some (es.flatMap fun e => [.avail true e.length, .data (some e), .unit], s') := by
  induction es with
  | nil => intro s _ _ _ _; exact ⟨s, rfl⟩
  | cons e es ih =>
    intro s h hok hrs hsm
    obtain ⟨s1, e1, H1, r1, t1⟩ := fetch_front h (hok e (by simp)) hrs hsm
    obtain ⟨s2, e2⟩ := ih H1 (fun x hx => hok x (by simp [hx])) r1 (by rw [t1]; exact hsm)
    refine ⟨s2, ?_⟩
    have happ : ∀ (a c : List Op) (s s1 : EventStorage.State) (o : List Out),
        EventStorage.run ⟨none⟩ s a = some (o, s1) →
        EventStorage.run ⟨none⟩ s (a ++ c) =
          (EventStorage.run ⟨none⟩ s1 c).map fun (os, s2) => (o ++ os, s2) := by
      intro a
      induction a with
      | nil =>
        intro c s s1 o h
        simp only [EventStorage.run, Option.some.injEq, Prod.mk.injEq] at h
        obtain ⟨rfl, rfl⟩ := h
        simp
      | cons op a iha =>
        intro c s s1 o h
        simp only [EventStorage.run, Option.bind_eq_bind, Option.bind_eq_some_iff,
          Option.pure_def, Option.some.injEq, Prod.mk.injEq, Prod.exists] at h
        obtain ⟨o1, s', h1, os', s'', h2, rfl, rfl⟩ := h
        simp only [List.cons_append, EventStorage.run, h1, Option.bind_eq_bind, Option.bind_some,
          iha c s' s'' os' h2]
        cases EventStorage.run ⟨none⟩ s'' c <;> simp
    rw [List.flatMap_cons, happ _ _ _ _ _ e1, e2]
    simp

/-- **C17, what does hold.** Take any storage that was used within its contract and has no event
half-written and no read under way. After *any* sequence of begin, append and finish calls whatsoever
(hence any interleaving of any number of writers, at the granularity of the lock) the storage has
stayed within its memory, and reading without batching still yields every event that had been
finished before, intact and in order. Missing for the full C17: the events of the overlapping
transactions themselves, which can be lost or corrupted as shown above. -/
theorem C17_finished_events_survive_partial (bufLen : Nat) (h0 : 0 < bufLen) (h1 : bufLen < 2 ^ 31)
    (before : List Op) (os : List Out) (q : Spec.EventQueue.State)
    (hs : Spec.EventQueue.run none (empty bufLen) before = some (os, q))
    (hidle : q.pending = none) (hnoread : q.reading = 0)
    (writers : List Op) (hw : ∀ op ∈ writers, writerOp op = true) :
    ∃ s0 s1 os2 s2 s3, boot bufLen = some s0 ∧ EventStorage.run ⟨none⟩ s0 before = some (os, s1) ∧
      EventStorage.run ⟨none⟩ s1 writers = some (os2, s2) ∧
      EventStorage.run ⟨none⟩ s2 (q.committed.flatMap fun e => fetch e.length) =
        some (q.committed.flatMap fun e => [.avail true e.length, .data (some e), .unit], s3) := by
  obtain ⟨s0, e0, H0⟩ := boot_holds (b := none) h0 h1
  obtain ⟨s1, e1, H1⟩ := run_refines before H0 hs
  have hrs : s1.rs = ⟨0, 0, []⟩ := by rw [H1.rs, hnoread]; rfl
  have hF : Front q.committed s1 := by
    refine ⟨H1.inv, [], ?_, ?_⟩
    · rw [H1.contents, hidle]; rfl
    · have := H1.ws; rw [hidle] at this; rw [this]; simp
  obtain ⟨os2, s2, e2, F2, r2, t2⟩ := writer_ops_front ⟨none⟩ writers hw hF
  obtain ⟨s3, e3⟩ := fetch_all_front q.committed F2 H1.ok (by rw [r2, hrs])
    (by rw [t2, H1.cap]; exact H1.small)
  exact ⟨s0, s1, os2, s2, s3, e0, e1, e2, e3⟩

/-- Two finished events, then the corrupting schedule from above. -/
example : Spec.EventQueue.run none (empty 64)
      [.begin, .append [1], .finish false, .begin, .append [2, 3], .finish false] =
      some ([.size 62, .ok true, .unit, .size 59, .ok true, .unit], ⟨64, [[1], [2, 3]], none, 0⟩) ∧
    ∀ op ∈ [Op.begin, .begin, .finish true, .append [5, 0, 7, 7, 7], .finish false],
      writerOp op = true := by decide +kernel

end Mflt.Props
