import Verif.Lemmas.EventStorage
import Verif.Spec.EventClient
import Verif.Props.Cbor

/-! # C15, C16: event storage -/

namespace Mflt.Props

open EventStorage Spec.EventQueue

/-- The storage `s` holds the queue `q`. -/
structure Holds (b : Option Nat) (s : EventStorage.State) (q : Spec.EventQueue.State) : Prop where
  inv : s.cb.Inv
  cap : s.cb.totalSpace = q.cap
  small : q.cap < 2 ^ 31
  contents : s.cb.contents = encAll q.committed ++ encPending q.pending
  ok : ∀ e ∈ q.committed, Ok e
  ws : s.ws = match q.pending with | none => ⟨false, 0⟩ | some p => ⟨true, p.length + 2⟩
  rs : s.rs = readStateOf b q.committed q.reading
  reading : q.reading ≤ q.committed.length
  single : b = none → q.reading ≤ 1

namespace Holds

variable {b : Option Nat} {s : EventStorage.State} {q : Spec.EventQueue.State}

theorem readSize (h : Holds b s q) : s.cb.readSize = used q := by
  rw [← CircBuf.length_contents s.cb, h.contents, List.length_append, length_encAll,
    length_encPending, used]
  cases q.pending <;> rfl

theorem used_le (h : Holds b s q) : used q ≤ q.cap := by
  rw [← h.readSize, ← h.cap]; exact h.inv.size

theorem len_le (h : Holds b s q) : s.cb.contents.length ≤ q.cap := by
  rw [CircBuf.length_contents, h.readSize]; exact h.used_le

theorem encAll_le (h : Holds b s q) : (encAll q.committed).length ≤ q.cap := by
  have := h.len_le; rw [h.contents, List.length_append] at this; omega

theorem total (h : Holds b s q) : totalEventSize s.rs = (message q).length := by
  have := h.encAll_le; have := h.small
  rw [h.rs, totalEventSize_readStateOf h.reading h.single (by omega)]; rfl

theorem message_pos {es : List Bytes} {n : Nat} (hn : n ≤ es.length) (hok : ∀ e ∈ es, Ok e) :
    (messageOf (es.take n)).length = 0 ↔ n = 0 := by
  constructor
  · intro h
    cases n with
    | zero => rfl
    | succ n =>
      cases es with
      | nil => simp at hn
      | cons e es =>
        have := (hok e (by simp)).1
        simp only [messageOf, List.take_succ_cons, List.flatten_cons, List.length_append] at h
        omega
  · rintro rfl; rfl

theorem message_eq (h : Holds b s q) : message q = s.rs.header ++ (q.committed.take q.reading).flatten := by
  rw [message, messageOf_eq, h.rs]
  have : (q.committed.take q.reading).length = q.reading := by
    rw [List.length_take]; exact Nat.min_eq_left h.reading
  rw [this, readStateOf]
  cases b with
  | none => simp [hdrOf, h.single rfl]
  | some _ => simp

end Holds

theorem take_append_congr {α} (l l' : List α) (n : Nat) (h : n ≤ l.length) :
    (l ++ l').take n = l.take n := List.take_append_of_le_length h

theorem readStateOf_append (b : Option Nat) (es es' : List Bytes) (n : Nat) (h : n ≤ es.length) :
    readStateOf b (es ++ es') n = readStateOf b es n := by
  unfold readStateOf; rw [take_append_congr _ _ _ h]

theorem batchCount_none (es : List Bytes) : batchCount none es ≤ 1 := by
  cases es <;> simp [batchCount]

/-- Every call answers as the queue does and leaves the storage holding the new queue. -/
theorem step_refines {b : Option Nat} {s : EventStorage.State} {q q' : Spec.EventQueue.State}
    {op : Op} {o : Out} (h : Holds b s q) (hs : Spec.EventQueue.step b q op = some (o, q')) :
    ∃ s', EventStorage.step ⟨b⟩ s op = some (o, s') ∧ Holds b s' q' := by
  have hrs := h.readSize
  have hul := h.used_le
  have hws := h.ws
  have hcap := h.cap
  cases op with
  | begin =>
    simp only [Spec.EventQueue.step] at hs
    simp only [EventStorage.step, beginWrite]
    cases hp : q.pending with
    | some p =>
      simp only [hp, Option.isSome_some, true_or, if_true, Option.some.injEq, Prod.mk.injEq] at hs
      obtain ⟨rfl, rfl⟩ := hs
      rw [hp] at hws
      refine ⟨s, ?_, h⟩
      rw [hws]; rfl
    | none =>
      rw [hp] at hws
      have hwip : s.ws.writeInProgress = false := by rw [hws]
      obtain ⟨cb', e1, e2, e3, e4, e5⟩ := CircBuf.write_eq h.inv (le16 writeInProgressMark)
      rw [length_le16, hrs, hcap] at e1 e5
      simp only [hwip, Bool.false_eq_true, if_false, e1, Option.bind_eq_bind, Option.bind_some]
      by_cases hc : q.cap < used q + 2
      · simp only [hp, hc, or_true, if_true, Option.some.injEq, Prod.mk.injEq] at hs
        obtain ⟨rfl, rfl⟩ := hs
        rw [if_neg (show ¬ used q + 2 ≤ q.cap by omega)] at e5
        simp only [show ¬ used q + 2 ≤ q.cap by omega, decide_false, Bool.not_false, if_true]
        refine ⟨_, rfl, ⟨e2, by rw [e3, hcap], h.small, by simp only; rw [e5, h.contents], h.ok,
          h.ws, h.rs, h.reading, h.single⟩⟩
      · simp only [hp, hc, or_false, Option.isSome_none, Bool.false_eq_true, if_false,
          Option.some.injEq, Prod.mk.injEq] at hs
        obtain ⟨rfl, rfl⟩ := hs
        rw [if_pos (show used q + 2 ≤ q.cap by omega)] at e5
        simp only [show used q + 2 ≤ q.cap by omega, decide_true, Bool.not_true,
          Bool.false_eq_true, if_false]
        have hrs' : cb'.readSize = used q + 2 := by
          rw [← CircBuf.length_contents, e5, List.length_append, CircBuf.length_contents, hrs,
            length_le16]
        refine ⟨{ s with cb := cb', ws := ⟨true, 2⟩ }, ?_, ⟨e2, by simp only; rw [e3, hcap], h.small,
          ?_, h.ok, rfl, h.rs, h.reading, h.single⟩⟩
        · simp only [Option.map_some, CircBuf.getWriteSize, hrs', e3, hcap]
          rw [show q.cap - (used q + 2) = q.cap - used q - 2 by omega]
          rfl
        · simp only; rw [e5, h.contents, hp]; simp [encPending]
  | append d =>
    simp only [Spec.EventQueue.step] at hs
    simp only [EventStorage.step, appendData]
    cases hp : q.pending with
    | none => simp [hp] at hs
    | some p =>
      rw [hp] at hws
      simp only [hp] at hs
      obtain ⟨cb', e1, e2, e3, e4, e5⟩ := CircBuf.write_eq h.inv d
      rw [hrs, hcap] at e1 e5
      simp only [e1, Option.bind_eq_bind, Option.bind_some]
      by_cases hc : used q + d.length ≤ q.cap
      · simp only [hc, if_true, Option.some.injEq, Prod.mk.injEq] at hs
        obtain ⟨rfl, rfl⟩ := hs
        rw [if_pos hc] at e5
        simp only [hc, decide_true, if_true]
        refine ⟨_, rfl, ⟨e2, by simp only; rw [e3, hcap], h.small, ?_, h.ok, ?_, h.rs, h.reading,
          h.single⟩⟩
        · simp only; rw [e5, h.contents, hp]; simp [encPending]
        · simp only [hws, List.length_append]; congr 1; omega
      · simp only [hc, if_false, Option.some.injEq, Prod.mk.injEq] at hs
        obtain ⟨rfl, rfl⟩ := hs
        rw [if_neg hc] at e5
        simp only [hc, decide_false, Bool.false_eq_true, if_false]
        refine ⟨_, rfl, ⟨e2, by simp only; rw [e3, hcap], h.small, by simp only; rw [e5, h.contents],
          h.ok, h.ws, h.rs, h.reading, h.single⟩⟩
  | finish rollback =>
    simp only [Spec.EventQueue.step] at hs
    simp only [EventStorage.step, finishWrite]
    cases hp : q.pending with
    | none =>
      simp only [hp, Option.some.injEq, Prod.mk.injEq] at hs
      obtain ⟨rfl, rfl⟩ := hs
      rw [hp] at hws
      refine ⟨s, ?_, h⟩
      simp [hws]
    | some p =>
      rw [hp] at hws
      simp only [hp] at hs
      have hbw : s.ws.bytesWritten = p.length + 2 := by rw [hws]
      have hwip : s.ws.writeInProgress = true := by rw [hws]
      have hlp : p.length + 2 ≤ s.cb.readSize := by
        rw [hrs, used, hp]; simp only; omega
      simp only [hwip, Bool.not_true, Bool.false_eq_true, if_false, hbw]
      have hcl : s.cb.contents = encAll q.committed ++ (le16 writeInProgressMark ++ p) := by
        rw [h.contents, hp]; rfl
      have hcll : (encAll q.committed).length + (p.length + 2) = s.cb.readSize := by
        rw [← CircBuf.length_contents, hcl]
        simp only [List.length_append, length_le16]; omega
      cases rollback with
      | true =>
        simp only [if_true, Option.some.injEq, Prod.mk.injEq] at hs
        obtain ⟨rfl, rfl⟩ := hs
        simp only [if_true, Option.map_some]
        obtain ⟨-, e2, e3, -, e5⟩ := CircBuf.consumeFromEnd_eq h.inv (p.length + 2)
        rw [if_pos hlp] at e5
        refine ⟨_, rfl, ⟨e2, by simp only; rw [e3, hcap], h.small, ?_, h.ok, rfl, h.rs, h.reading,
          h.single⟩⟩
        simp only; rw [e5, hcl, show s.cb.readSize - (p.length + 2) = (encAll q.committed).length
          by omega, List.take_left]; simp [encPending]
      | false =>
        by_cases hok : 1 ≤ p.length ∧ p.length ≤ 65532
        · simp only [Bool.false_eq_true, if_false, hok, and_self, if_true, Option.some.injEq,
            Prod.mk.injEq] at hs
          obtain ⟨rfl, rfl⟩ := hs
          simp only [Bool.false_eq_true, if_false]
          obtain ⟨cb', e1, e2, e3, e4, e5⟩ := CircBuf.writeAtOffset_eq h.inv (p.length + 2)
            (le16 ((p.length + 2) % 65536))
          have hcond : p.length + 2 ≤ s.cb.readSize ∧
              s.cb.readSize - (p.length + 2) + (le16 ((p.length + 2) % 65536)).length ≤
                s.cb.totalSpace := by
            rw [length_le16]; have := h.inv.size; omega
          rw [if_pos hcond] at e5
          simp only [e1, Option.bind_eq_bind, Option.bind_some, Option.pure_def, Option.map_some]
          refine ⟨_, rfl, ⟨e2, by simp only; rw [e3, hcap], h.small, ?_, ?_, rfl, ?_, ?_, h.single⟩⟩
          · simp only
            rw [e5, Spec.ByteQueue.overwrite, CircBuf.length_contents, hcl,
              show s.cb.readSize - (p.length + 2) = (encAll q.committed).length by omega,
              List.take_left, length_le16]
            rw [List.drop_append, List.drop_of_length_le (by omega), Nat.add_sub_cancel_left,
              List.nil_append, List.drop_left' (length_le16 _), encAll_append,
              Nat.mod_eq_of_lt (by omega)]
            simp [enc, encPending]
          · intro e he
            simp only [List.mem_append, List.mem_singleton] at he
            rcases he with he | rfl
            · exact h.ok e he
            · exact hok
          · simp only; rw [h.rs, readStateOf_append _ _ _ _ h.reading]
          · simp only [List.length_append]; have := h.reading; omega
        · simp [hok] at hs
  | hasData =>
    simp only [Spec.EventQueue.step, Option.some.injEq, Prod.mk.injEq] at hs
    obtain ⟨rfl, rfl⟩ := hs
    simp only [EventStorage.step, EventStorage.hasData]
    have hm0 := Holds.message_pos h.reading h.ok
    by_cases h0 : q.reading = 0
    · rw [if_neg (by rw [h.total]; simpa [message] using hm0.mpr h0)]
      have hbl := batchCount_le b q.committed
      have hcs := computeReadState_eq h.inv h.small h.len_le b q.committed q.pending h.contents h.ok
      simp only [hcs, h0, if_true, Option.bind_eq_bind, Option.bind_some, Option.pure_def,
        Option.map_some]
      have hsing : b = none → batchCount b q.committed ≤ 1 := by
        rintro rfl; exact batchCount_none _
      have hH : Holds b { s with rs := readStateOf b q.committed (batchCount b q.committed) }
          { q with reading := batchCount b q.committed } :=
        ⟨h.inv, h.cap, h.small, h.contents, h.ok, h.ws, rfl, hbl, hsing⟩
      have ht := hH.total
      have hp := Holds.message_pos hbl h.ok
      simp only at ht
      refine ⟨_, ?_, hH⟩
      rw [ht]
      simp only [message, hp, ne_eq]
    · have hne : ¬ (message q).length = 0 := by rw [message, hm0]; exact h0
      rw [if_pos (by rw [h.total]; exact hne), h.total]
      simp only [h0, if_false, Option.map_some, ne_eq, not_false_eq_true, decide_true]
      exact ⟨s, rfl, h⟩
  | read offset len =>
    simp only [EventStorage.step, EventStorage.read, h.total]
    simp only [Spec.EventQueue.step] at hs
    by_cases hc : offset + len ≤ (message q).length
    · simp only [hc, if_true, Option.some.injEq, Prod.mk.injEq] at hs
      obtain ⟨rfl, rfl⟩ := hs
      rw [if_neg (by omega)]
      refine ⟨s, ?_, h⟩
      have hm := h.message_eq
      have hml : (message q).length =
          s.rs.header.length + (q.committed.take q.reading).flatten.length := by
        rw [hm, List.length_append]
      rw [hm]
      generalize hhd : s.rs.header = hd at hml ⊢
      generalize hes : q.committed.take q.reading = es at hml ⊢
      have hoe : ∀ e ∈ es, Ok e := by
        intro e he; rw [← hes] at he; exact h.ok e (List.mem_of_mem_take he)
      have hcont : s.cb.contents =
          [] ++ (encAll es ++ (encAll (q.committed.drop q.reading) ++ encPending q.pending)) := by
        rw [h.contents, ← List.append_assoc (encAll es), ← hes, ← encAll_append,
          List.take_append_drop, List.nil_append]
      have hfl : es.flatten.length + 2 * es.length ≤ s.cb.readSize := by
        rw [← length_encAll', ← CircBuf.length_contents, hcont]; simp
      have hsz := h.small
      have hrl : s.cb.readSize ≤ q.cap := by rw [hrs]; exact hul
      by_cases ho : offset < hd.length
      · rw [if_pos ho]
        have hmc := memcpyOut_some (m := hd) (i := offset)
          (n := min len (hd.length - offset)) (by omega)
        rw [hmc]
        simp only
        have := readLoop_eq h.inv h.small _ es (s.cb.readSize + 1) [] 0 0
          (len - min len (hd.length - offset)) ((hd.drop offset).take (min len (hd.length - offset)))
          hcont hoe (by omega) (by omega) (by omega)
        simp only [List.length_nil, Nat.add_zero] at this
        rw [this]
        simp only [Option.map_some, List.drop_zero]
        rw [List.drop_append_of_le_length (by omega), List.take_append, List.length_drop]
        by_cases hlt : len ≤ hd.length - offset
        · rw [Nat.min_eq_left hlt]
          simp [show len - (hd.length - offset) = 0 by omega]
        · rw [Nat.min_eq_right (by omega),
            List.take_of_length_le (show (List.drop offset hd).length ≤ len by
              rw [List.length_drop]; omega),
            List.take_of_length_le (show (List.drop offset hd).length ≤ hd.length - offset by
              rw [List.length_drop]; omega)]
      · rw [if_neg ho]
        have := readLoop_eq h.inv h.small _ es (s.cb.readSize + 1) [] 0 (offset - hd.length) len []
          hcont hoe (by omega) (by omega) (by omega)
        simp only [List.length_nil, Nat.zero_add, List.nil_append] at this
        rw [this]
        simp only [Option.map_some]
        rw [List.drop_append, List.drop_of_length_le (show hd.length ≤ offset by omega),
          List.nil_append]
    · simp only [hc, if_false, Option.some.injEq, Prod.mk.injEq] at hs
      obtain ⟨rfl, rfl⟩ := hs
      rw [if_pos (by omega)]
      exact ⟨s, rfl, h⟩
  | markRead =>
    simp only [Spec.EventQueue.step, Option.some.injEq, Prod.mk.injEq] at hs
    obtain ⟨rfl, rfl⟩ := hs
    simp only [EventStorage.step, markRead]
    have hae : s.rs.activeEventReadSize = (encAll (q.committed.take q.reading)).length := by
      rw [h.rs]; rfl
    have hlt := length_encAll' (q.committed.take q.reading)
    have hl : (q.committed.take q.reading).length = q.reading := by
      rw [List.length_take]; exact Nat.min_eq_left h.reading
    rw [hl] at hlt
    by_cases h0 : q.reading = 0
    · rw [if_pos (by rw [hae, h0]; rfl)]
      refine ⟨s, rfl, ⟨h.inv, h.cap, h.small, by simp only [h0, List.drop_zero]; exact h.contents,
        by simp only [h0, List.drop_zero]; exact h.ok, h.ws, ?_, by simp, by simp⟩⟩
      simp only [h0, List.drop_zero]; rw [h.rs, h0]
    · rw [if_neg (by omega)]
      obtain ⟨cb', e1, e2, e3, e4, e5⟩ := CircBuf.consume_eq h.inv s.rs.activeEventReadSize
      have hcont : s.cb.contents = encAll (q.committed.take q.reading) ++
          (encAll (q.committed.drop q.reading) ++ encPending q.pending) := by
        rw [h.contents, ← List.append_assoc, ← encAll_append, List.take_append_drop]
      have hle : s.rs.activeEventReadSize ≤ s.cb.readSize := by
        rw [← CircBuf.length_contents, hcont, hae, List.length_append]; omega
      rw [if_pos hle] at e5
      simp only [e1, Option.bind_eq_bind, Option.bind_some, Option.pure_def, Option.map_some]
      refine ⟨_, rfl, ⟨e2, by simp only; rw [e3, hcap], h.small, ?_, ?_, h.ws, ?_, by simp, by simp⟩⟩
      · simp only; rw [e5, hcont, hae, List.drop_left]
      · intro e he; exact h.ok e (List.mem_of_mem_drop he)
      · simp [readStateOf, hdrOf]
  | bytesUsed =>
    simp only [Spec.EventQueue.step, Option.some.injEq, Prod.mk.injEq] at hs
    obtain ⟨rfl, rfl⟩ := hs
    exact ⟨s, by simp [EventStorage.step, bytesUsed, CircBuf.getReadSize, hrs], h⟩
  | bytesFree =>
    simp only [Spec.EventQueue.step, Option.some.injEq, Prod.mk.injEq] at hs
    obtain ⟨rfl, rfl⟩ := hs
    exact ⟨s, by simp [EventStorage.step, bytesFree, CircBuf.getWriteSize, hrs, hcap], h⟩

theorem run_refines {b : Option Nat} (ops : List Op) {s : EventStorage.State}
    {q q' : Spec.EventQueue.State} {os : List Out} (h : Holds b s q)
    (hs : Spec.EventQueue.run b q ops = some (os, q')) :
    ∃ s', EventStorage.run ⟨b⟩ s ops = some (os, s') ∧ Holds b s' q' := by
  induction ops generalizing s q os with
  | nil =>
    simp only [Spec.EventQueue.run, Option.some.injEq, Prod.mk.injEq] at hs
    obtain ⟨rfl, rfl⟩ := hs
    exact ⟨s, rfl, h⟩
  | cons op ops ih =>
    simp only [Spec.EventQueue.run, Option.bind_eq_bind, Option.bind_eq_some_iff,
      Option.pure_def, Option.some.injEq, Prod.mk.injEq, Prod.exists] at hs
    obtain ⟨o, q1, h1, os', q2, h2, rfl, rfl⟩ := hs
    obtain ⟨s1, e1, H1⟩ := step_refines h h1
    obtain ⟨s2, e2, H2⟩ := ih H1 h2
    exact ⟨s2, by simp [EventStorage.run, e1, e2], H2⟩

theorem boot_holds {b : Option Nat} {bufLen : Nat} (h0 : 0 < bufLen) (h1 : bufLen < 2 ^ 31) :
    ∃ s, boot bufLen = some s ∧ Holds b s (empty bufLen) := by
  have hi : ∃ cb, CircBuf.init bufLen = some cb := by
    unfold CircBuf.init; rw [if_neg (by omega)]; exact ⟨_, rfl⟩
  obtain ⟨cb, hcb⟩ := hi
  obtain ⟨i1, i2, i3⟩ := CircBuf.init_inv hcb
  refine ⟨⟨cb, ⟨false, 0⟩, ⟨0, 0, []⟩⟩, by simp [boot, hcb], i1, i3, h1, ?_, ?_, rfl, ?_, ?_, ?_⟩
  · simp only; rw [i2]; rfl
  · intro e he; simp [empty] at he
  · cases b <;> simp [readStateOf, empty, hdrOf]
  · simp [empty]
  · simp [empty]

/-- **C15, C16.** For every buffer (non-empty, under 2 GiB), with or without batching, and every
sequence of calls that keeps the storage's contract, the storage accesses only its own memory,
its loops end, and every call returns what the queue of `Spec.EventQueue` returns: begin, append,
finish, roll back, has-data, read (at any offset and length), mark-read and the byte counts. -/
theorem C15_event_storage_is_queue (b : Option Nat) (bufLen : Nat) (h0 : 0 < bufLen)
    (h1 : bufLen < 2 ^ 31) (ops : List Op) (os : List Out) (q : Spec.EventQueue.State)
    (hs : Spec.EventQueue.run b (empty bufLen) ops = some (os, q)) :
    ∃ s s', boot bufLen = some s ∧ EventStorage.run ⟨b⟩ s ops = some (os, s') := by
  obtain ⟨s, e, H⟩ := boot_holds (b := b) h0 h1
  obtain ⟨s', e', -⟩ := run_refines ops H hs
  exact ⟨s, s', e, e'⟩

/-- **C15 (size).** After every such sequence the storage says that its size is that of the buffer it was given. -/
theorem C15_storage_size (b : Option Nat) (bufLen : Nat) (h0 : 0 < bufLen)
    (h1 : bufLen < 2 ^ 31) (ops : List Op) (os : List Out) (q : Spec.EventQueue.State)
    (hs : Spec.EventQueue.run b (empty bufLen) ops = some (os, q)) :
    ∃ s s', boot bufLen = some s ∧ EventStorage.run ⟨b⟩ s ops = some (os, s') ∧ getSize s' = bufLen := by
  obtain ⟨s, e, H⟩ := boot_holds (b := b) h0 h1
  obtain ⟨s', e', H'⟩ := run_refines ops H hs
  refine ⟨s, s', e, e', ?_⟩
  have hcap : ∀ (ops : List Op) (q q' : Spec.EventQueue.State) (os : List Out),
      Spec.EventQueue.run b q ops = some (os, q') → q'.cap = q.cap := by
    intro ops
    induction ops with
    | nil => intro q q' os h; cases h; rfl
    | cons op ops ih =>
      intro q q' os h
      simp only [Spec.EventQueue.run, Option.bind_eq_bind, Option.bind_eq_some_iff,
        Option.pure_def, Option.some.injEq, Prod.mk.injEq, Prod.exists] at h
      obtain ⟨o, q1, h1, os', q2, h2, -, rfl⟩ := h
      rw [ih q1 q2 os' h2]
      cases op <;> simp only [Spec.EventQueue.step] at h1 <;> (repeat' split at h1) <;> cases h1 <;> rfl
  have h2 : s'.cb.totalSpace = bufLen := by rw [H'.cap, hcap ops _ _ _ hs]; rfl
  have h3 := H'.used_le
  rw [← H'.readSize, ← H'.cap] at h3
  simp only [getSize, CircBuf.getReadSize, CircBuf.getWriteSize, ← h2]
  omega

/-- A 16-byte storage that wraps around: a rolled-back event, two events and an append that does
not fit. -/
example : Spec.EventQueue.run none (empty 16)
    [.begin, .append [9, 9], .finish true, .hasData, .begin, .append [1, 2, 3], .append [4],
      .hasData, .finish false, .begin, .append [5, 6], .finish false, .hasData, .begin,
      .append [7, 7, 7, 7, 7], .finish true, .read 1 2, .markRead, .begin, .append [8, 8, 8, 8, 8],
      .finish false, .hasData, .read 0 2, .markRead, .hasData, .read 0 5, .markRead, .hasData,
      .bytesFree] =
    some ([.size 14, .ok true, .unit, .avail false 0, .size 14, .ok true, .ok true,
      .avail false 0, .unit, .size 8, .ok true, .unit, .avail true 4, .size 4,
      .ok false, .unit, .data (some [2, 3]), .unit, .size 10, .ok true,
      .unit, .avail true 2, .data (some [5, 6]), .unit, .avail true 5,
      .data (some [8, 8, 8, 8, 8]), .unit, .avail false 0, .size 16], empty 16) := by decide +kernel

/-- **C15.** In every history the events marked read followed by the events still stored are the
events finished, in the order they were finished: none is lost, repeated, reordered or altered. -/
theorem C15_events_in_order_exactly_once (b : Option Nat) (ops : List Op) :
    ∀ (q q' : Spec.EventQueue.State) (os : List Out), Spec.EventQueue.run b q ops = some (os, q') →
      consumed b q ops ++ q'.committed = q.committed ++ finished b q ops := by
  induction ops with
  | nil =>
    intro q q' os h
    simp only [Spec.EventQueue.run, Option.some.injEq, Prod.mk.injEq] at h
    obtain ⟨-, rfl⟩ := h; simp [consumed, finished]
  | cons op ops ih =>
    intro q q' os h
    simp only [Spec.EventQueue.run, Option.bind_eq_bind, Option.bind_eq_some_iff,
      Option.pure_def, Option.some.injEq, Prod.mk.injEq, Prod.exists] at h
    obtain ⟨o, q1, h1, os', q2, h2, -, rfl⟩ := h
    have := ih q1 q2 os' h2
    simp only [consumed, finished, h1]
    rw [List.append_assoc, this, ← List.append_assoc, ← List.append_assoc]
    congr 1
    clear this ih h2
    cases op <;> simp only [Spec.EventQueue.step] at h1 <;>
      simp only [consumedBy, finishedBy, List.nil_append, List.append_nil]
    case begin => split at h1 <;> simp at h1 <;> rw [← h1.2]
    case append d =>
      cases hp : q.pending with
      | none => simp [hp] at h1
      | some p =>
        simp only [hp] at h1
        split at h1 <;> simp at h1 <;> rw [← h1.2]
    case finish r =>
      cases hp : q.pending with
      | none => simp only [hp, Option.some.injEq, Prod.mk.injEq] at h1; rw [← h1.2]; cases r <;> simp
      | some p =>
        simp only [hp] at h1
        cases r with
        | true => simp at h1; rw [← h1.2]; simp
        | false =>
          split at h1
          · simp_all
          · split at h1 <;> simp at h1
            rw [← h1.2]; simp
    case hasData => simp at h1; rw [← h1.2]
    case read => split at h1 <;> simp at h1 <;> rw [← h1.2]
    case markRead => simp at h1; rw [← h1.2]; simp
    case bytesUsed => simp at h1; rw [← h1.2]
    case bytesFree => simp at h1; rw [← h1.2]

/-- **C16.** How many events a batch carries: never none when there is one; the total payload stays
within the limit unless the batch is a single event; and the next event would exceed the limit. -/
theorem C16_batch_maximal (max : Nat) (e : Bytes) (es : List Bytes) :
    let n := batchCount (some max) (e :: es)
    1 ≤ n ∧ n ≤ es.length + 1 ∧
    (1 < n → ((e :: es).take n).flatten.length ≤ max) ∧
    (∀ x, (e :: es)[n]? = some x → max < ((e :: es).take n).flatten.length + x.length) := by
  have key : ∀ (es : List Bytes) (size : Nat),
      let k := moreEvents max size es
      (0 < k → size + (es.take k).flatten.length ≤ max) ∧
      (∀ x, es[k]? = some x → max < size + (es.take k).flatten.length + x.length) := by
    intro es
    induction es with
    | nil => intro size; simp [moreEvents]
    | cons f es ih =>
      intro size
      have := ih (size + f.length)
      simp only [moreEvents]
      split
      · rename_i hle
        rw [Nat.add_comm 1]
        simp only [List.take_succ_cons, List.flatten_cons, List.length_append,
          List.getElem?_cons_succ]
        refine ⟨fun _ => ?_, fun x hx => ?_⟩
        · by_cases hk : 0 < moreEvents max (size + f.length) es
          · have := this.1 hk; omega
          · have h0 : moreEvents max (size + f.length) es = 0 := by omega
            rw [h0]; simp; omega
        · have := this.2 x hx; omega
      · rename_i hle
        refine ⟨by simp, fun x hx => ?_⟩
        simp at hx; subst hx; simp; omega
  have h1 := key es e.length
  have h2 := moreEvents_le max e.length es
  simp only [batchCount]
  rw [Nat.add_comm 1]
  simp only [List.take_succ_cons, List.flatten_cons, List.length_append, List.getElem?_cons_succ]
  exact ⟨by omega, by omega, fun hn => h1.1 (by omega), fun x hx => h1.2 x hx⟩

/-- **C16.** With batching, the message of several events that are CBOR items (as the serializers
write them) is one CBOR array of exactly those items. -/
theorem C16_batch_is_cbor_array (vs : List CborVal) (hlen : 2 ≤ vs.length)
    (hn : vs.length < 2 ^ 32) (hok : CborVal.okList vs) :
    Spec.Cbor.decode (messageOf (vs.map fun v => Cbor.emitAll v.calls)) =
      some (.array (CborVal.items vs)) := by
  have hcall : Cbor.emitAll (CborVal.callsList [CborVal.array vs]) =
      messageOf (vs.map fun v => Cbor.emitAll v.calls) := by
    have hfl : Cbor.emitAll (CborVal.callsList vs) =
        (vs.map fun v => Cbor.emitAll v.calls).flatten := by
      clear hlen hn hok
      induction vs with
      | nil => rfl
      | cons v vs ih => simp only [CborVal.callsList, emitAll_append, ih, List.map_cons,
          List.flatten_cons]
    simp only [CborVal.callsList, CborVal.calls, List.append_nil, emitAll_cons, hfl, messageOf,
      List.length_map, show ¬ vs.length ≤ 1 by omega, if_false]
    rw [← headBytes_array hn]
    simp [Cbor.emit, Cbor.pieces]
  have := decodeSeq_emit [CborVal.array vs] ((messageOf (vs.map fun v => Cbor.emitAll v.calls)).length + 1)
    [] (by simp [CborVal.okList, CborVal.ok, hn, hok]) (by rw [hcall]; omega)
  rw [hcall, List.append_nil] at this
  unfold Spec.Cbor.decode
  simp only [List.length_cons, List.length_nil, Nat.zero_add] at this
  rw [this]
  simp [CborVal.items, CborVal.item]

/-- Batching with a limit of 8 bytes: the first two events are sent as one array, an event that
arrives during the read is not lost, and the long one comes alone. -/
example : Spec.EventQueue.run (some 8) (empty 64)
    [.begin, .append [0x01], .finish false, .begin, .append [0x18, 0x20], .finish false,
      .begin, .append [0x48, 1, 2, 3, 4, 5, 6, 7, 8], .finish false,
      .hasData, .read 0 2, .begin, .append [0x05], .finish false, .hasData, .read 2 2, .markRead,
      .hasData, .read 0 9, .markRead, .hasData, .read 0 1, .markRead, .hasData] =
    some ([.size 62, .ok true, .unit, .size 59, .ok true, .unit, .size 55, .ok true, .unit,
      .avail true 4, .data (some [0x82, 0x01]), .size 44, .ok true, .unit, .avail true 4,
      .data (some [0x18, 0x20]), .unit, .avail true 9,
      .data (some [0x48, 1, 2, 3, 4, 5, 6, 7, 8]), .unit, .avail true 1, .data (some [0x05]), .unit,
      .avail false 0], empty 64) := by decide +kernel

/-- What happens outside the contract: an event finished without any data blocks the storage. The
reader is told that there is nothing to read, now and after any later event, although a complete
event follows; the space is never given back. -/
theorem C15_empty_event_blocks_storage :
    ((boot 32).bind fun s => EventStorage.run ⟨none⟩ s
      [.begin, .finish false, .begin, .append [1, 2, 3], .finish false, .hasData, .hasData]).map
        Prod.fst =
    some [.size 30, .unit, .size 28, .ok true, .unit, .avail false 0, .avail false 0] := by
  decide +kernel

/-- An event of 65533 bytes is stored with the length mark that means "still being written". -/
theorem oversize_event (cfg : Config) (s : EventStorage.State) (p : Bytes)
    (hinv : s.cb.Inv) (hlen : p.length = 65533)
    (hc : s.cb.contents = le16 writeInProgressMark ++ p) (hws : s.ws = ⟨true, p.length + 2⟩)
    (hrs : s.rs = ⟨0, 0, []⟩) :
    ∃ s', finishWrite s false = some s' ∧ s'.cb.contents = s.cb.contents ∧
      EventStorage.hasData cfg s' = some (false, 0, s') := by
  have hrsz : s.cb.readSize = 65535 := by
    rw [← CircBuf.length_contents, hc, List.length_append, length_le16, hlen]
  obtain ⟨cb', e1, e2, e3, e4, e5⟩ := CircBuf.writeAtOffset_eq hinv 65535 (le16 65535)
  have hsz := hinv.size
  rw [if_pos (by rw [length_le16]; omega)] at e5
  have hcont : cb'.contents = le16 writeInProgressMark ++ p := by
    rw [e5, Spec.ByteQueue.overwrite, CircBuf.length_contents, hrsz, hc, length_le16,
      show (65535 - 65535 : Nat) = 0 by omega, List.take_zero, Nat.zero_add,
      List.drop_left' (length_le16 _)]
    rfl
  refine ⟨{ s with cb := cb', ws := ⟨false, 0⟩ }, ?_, by rw [hcont, hc], ?_⟩
  · simp only [finishWrite, hws, hlen, Bool.not_true, Bool.false_eq_true, if_false]
    rw [show (65533 + 2) % 65536 = 65535 by omega, show 65533 + 2 = 65535 by omega, e1]
    rfl
  · have hr := read_hdr e2 (length_le16 writeInProgressMark) (pre := []) (rest := p)
      (by rw [hcont]; rfl)
    simp only [List.length_nil] at hr
    have hcs : computeReadState cfg cb' = some ⟨0, 0, []⟩ := by
      unfold computeReadState computeLoop
      simp only [hr, ofLe16_le16 (show writeInProgressMark < 65536 by decide), if_true,
        Option.bind_eq_bind, Option.bind_some]
      cases cfg.batchMax <;> rfl
    unfold EventStorage.hasData
    simp only [hrs, hcs, totalEventSize, if_true, ne_eq, not_true_eq_false, if_false,
      Option.bind_eq_bind, Option.bind_some, Option.pure_def, decide_false]

/-- What happens outside the contract: in a storage that has room for it, an event of 65533 bytes is
accepted, and then there is nothing to read: it is stored with the length mark that means "still
being written". -/
theorem C15_oversize_event_blocks_storage (b : Option Nat) (bufLen : Nat) (h1 : 65535 ≤ bufLen)
    (h2 : bufLen < 2 ^ 31) (p : Bytes) (hlen : p.length = 65533) :
    ∃ s s', boot bufLen = some s ∧
      EventStorage.run ⟨b⟩ s [.begin, .append p, .finish false, .hasData] =
        some ([.size (bufLen - 2), .ok true, .unit, .avail false 0], s') := by
  obtain ⟨s, e, H⟩ := boot_holds (b := b) (bufLen := bufLen) (by omega) h2
  have hs1 : Spec.EventQueue.step b (empty bufLen) .begin =
      some (.size (bufLen - 2), ⟨bufLen, [], some [], 0⟩) := by
    simp [Spec.EventQueue.step, empty, used]; omega
  obtain ⟨s1, e1, H1⟩ := step_refines H hs1
  have hs2 : Spec.EventQueue.step b ⟨bufLen, [], some [], 0⟩ (.append p) =
      some (.ok true, ⟨bufLen, [], some p, 0⟩) := by
    simp only [Spec.EventQueue.step, used, List.map_nil, List.sum_nil, List.length_nil,
      List.nil_append]
    rw [if_pos (by omega)]
  obtain ⟨s2, e2, H2⟩ := step_refines H1 hs2
  obtain ⟨s3, e3, -, e5⟩ := oversize_event ⟨b⟩ s2 p H2.inv hlen (by rw [H2.contents]; rfl) H2.ws
    (by rw [H2.rs]; cases b <;> rfl)
  refine ⟨s, s3, e, ?_⟩
  simp only [EventStorage.run, e1, e2, Option.bind_eq_bind, Option.bind_some]
  simp only [EventStorage.step, e3, e5, Option.map_some, Option.bind_some, Option.pure_def]

end Mflt.Props
