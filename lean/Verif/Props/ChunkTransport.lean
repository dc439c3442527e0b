import Verif.Lemmas.ChunkTransport

/-! # C13, C14: chunk transport -/

namespace Mflt.Props

open Mflt.Chunk Mflt.Spec.Chunk Mflt.Spec.Crc16

/-- What is said of every call: it keeps the buffer's size, uses at least one byte and at most all
of it, and fills the rest with 0xBA. -/
def CallOk (size : Nat) (c : Call) : Prop :=
  c.buf.length = size ∧ 1 ≤ c.len ∧ c.len ≤ size ∧
    c.buf.drop c.len = List.replicate (size - c.len) 0xBA

/-- Every call is fine for the buffer it was given. -/
def CallsOk (bufs : List Bytes) (calls : List Call) : Prop :=
  calls.length ≤ bufs.length ∧
    ∀ (i : Nat) (c : Call), calls[i]? = some c → ∃ b, bufs[i]? = some b ∧ CallOk b.length c

theorem CallsOk.nil (bufs : List Bytes) : CallsOk bufs [] := by
  refine ⟨by simp, fun i c h => by simp at h⟩

theorem CallsOk.cons {b : Bytes} {bs : List Bytes} {c : Call} {cs : List Call}
    (h : CallOk b.length c) (hs : CallsOk bs cs) : CallsOk (b :: bs) (c :: cs) := by
  refine ⟨by simp [hs.1], fun i c' h' => ?_⟩
  cases i with
  | zero => simp at h'; subst h'; exact ⟨b, rfl, h⟩
  | succ i => simp at h'; obtain ⟨b', h1, h2⟩ := hs.2 i c' h'; exact ⟨b', by simpa using h1, h2⟩

theorem callOk_of (chunk : Bytes) (size : Nat) (h1 : 1 ≤ chunk.length) (h2 : chunk.length ≤ size) :
    CallOk size ⟨chunk ++ List.replicate (size - chunk.length) 0xBA, chunk.length⟩ := by
  refine ⟨by simp; omega, h1, h2, by simp⟩

/-- Replace the last chunk by itself followed by `junk`. -/
def extendLast (junk : Bytes) : List Bytes → List Bytes
  | [] => []
  | [c] => [c ++ junk]
  | c :: d :: cs => c :: extendLast junk (d :: cs)

theorem extendLast_cons (junk c : Bytes) (cs : List Bytes) (h : cs ≠ []) :
    extendLast junk (c :: cs) = c :: extendLast junk cs := by
  cases cs with
  | nil => exact absurd rfl h
  | cons d ds => rfl

theorem extendLast_append (junk c : Bytes) (cs : List Bytes) :
    extendLast junk (cs ++ [c]) = cs ++ [c ++ junk] := by
  induction cs with
  | nil => rfl
  | cons d ds ih => rw [List.cons_append, extendLast_cons _ _ _ (by simp), ih]; rfl

/-- The continuation chunks of a message. -/
theorem send_cont {σ : Type} (read : Reader σ) (msg : Bytes) (ready : σ → Nat → Prop)
    (hs : Serves read msg ready) (hlen : msg.length + 3 < 2 ^ 32) (bufs : List Bytes) :
    (∀ b ∈ bufs, 9 ≤ b.length) → ∀ (off single : Nat) (st : σ), 0 < off → off ≤ msg.length →
    ready st off →
    ∃ calls fin ctx' st',
      send read bufs ⟨msg.length, false, single, off, crc 0 (msg.take off)⟩ st =
        some (calls, fin, ctx', st') ∧ CallsOk bufs calls ∧
      (fin = true → calls ≠ [] ∧ ready st' msg.length ∧ ctx'.readOffset = msg.length ∧
        ctx'.singleChunkMessageLength = single ∧
        ∀ junk, collect (msg.take off) (extendLast junk (calls.map Call.chunk)) =
          some (msg ++ crcBytes msg ++ junk)) ∧
      ((msg.length - off + 2) / 3 + 1 ≤ bufs.length → fin = true) := by
  induction bufs with
  | nil =>
    intro _ off single st _ _ _
    exact ⟨[], false, _, st, rfl, CallsOk.nil _, by simp, by simp⟩
  | cons b bs ih =>
    intro hb off single st h0 hoff hr
    have h9 : 9 ≤ b.length := hb b (by simp)
    obtain ⟨v, rest, n, more, p1, p2, p3, p4, p5, p6, p7⟩ :=
      plan_cont ⟨msg.length, false, single, off, crc 0 (msg.take off)⟩ b (by simp; omega) rfl h9
        (by simp; omega)
    simp only at p2 p3 p7
    have hfit : n + (if more then 0 else 2) ≤ rest.length := by
      cases hm : more
      · rw [hm] at p3
        have := of_decide_eq_false p3.symm
        simp; omega
      · simp; omega
    obtain ⟨st', chunk, pad, c1, c2, c3, c4, c5⟩ := finish read msg ready hs _ st b h9 _ p1
      ((if more then 0xC0 else 0x80) :: v) rest rfl (by simp; omega) hr (by simp only; omega) hfit rfl
    simp only at c1 c2 c3 c4 c5
    have hpl : ((if more then 0xC0 else 0x80) :: v ++ rest : Bytes).length = b.length := by
      simp; omega
    rw [hpl] at c2 c3
    have hcl : 1 ≤ chunk.length := by rw [c1]; simp
    have hok : CallOk b.length ⟨chunk ++ pad, chunk.length⟩ := by
      rw [c2]; exact callOk_of _ _ hcl c3
    have htake : (chunk ++ pad).take chunk.length = chunk := List.take_left
    have hacc : msg.take off ++ (msg.drop off).take n = msg.take (off + n) := by
      rw [← List.take_add]
    have hofflen : (msg.take off).length = off := by simp; omega
    unfold send
    simp only [c4, Option.bind_eq_bind, Option.bind_some]
    cases hm : more with
    | false =>
      rw [hm] at p3 c1
      have hsp := of_decide_eq_false p3.symm
      have hn : off + n = msg.length := by omega
      refine ⟨[⟨chunk ++ pad, chunk.length⟩], true, _, st', rfl, CallsOk.cons hok (CallsOk.nil _),
        fun _ => ⟨by simp, by rw [← hn]; exact c5, by simp [hn], by simp, fun junk => ?_⟩, by simp⟩
      simp only [List.map_cons, List.map_nil, Call.chunk, htake, extendLast]
      rw [c1]
      simp only [Bool.false_eq_true, if_false, List.cons_append, List.append_assoc, collect, p7,
        Option.bind_eq_bind, Option.bind_some, hofflen]
      simp only [ne_eq, not_true_eq_false, if_false, if_true]
      rw [← List.append_assoc, hacc, hn, List.take_length]
    | true =>
      rw [hm] at p3 c1
      have hsp := of_decide_eq_true p3.symm
      obtain ⟨calls, fin, ctx', st'', e1, e2, e3, e4⟩ := ih (fun b h => hb b (by simp [h]))
        (off + n) single st' (by omega) (by omega) c5
      refine ⟨⟨chunk ++ pad, chunk.length⟩ :: calls, fin, ctx', st'', ?_, CallsOk.cons hok e2, ?_, ?_⟩
      · simp only [if_true, e1, Option.bind_some, Option.pure_def]
      · intro hf
        obtain ⟨g1, g2, g3, g4, g5⟩ := e3 hf
        refine ⟨by simp, g2, g3, g4, fun junk => ?_⟩
        rw [List.map_cons, extendLast_cons _ _ _ (by simp [g1])]
        simp only [Call.chunk, htake]
        rw [c1]
        simp only [if_true, List.cons_append, List.append_assoc, List.append_nil, collect, p7,
          Option.bind_eq_bind, Option.bind_some, hofflen, hacc]
        simp only [ne_eq, not_true_eq_false, if_false]
        rw [if_neg (by decide), g5 junk, List.append_assoc]
      · intro hlen'
        apply e4
        simp only [List.length_cons] at hlen'
        omega

theorem checkCrc_ok (msg : Bytes) : checkCrc (msg ++ crcBytes msg) = some msg := by
  have hl : (msg ++ crcBytes msg).length - 2 = msg.length := by simp [crcBytes]
  unfold checkCrc
  simp only [hl, List.take_left, List.drop_left]
  simp only [crcBytes]
  have := (crc 0 msg).isLt
  rw [if_pos]
  rw [UInt8.toNat_ofNat', UInt8.toNat_ofNat']
  omega

theorem crcBytes_length (msg : Bytes) : (crcBytes msg).length = 2 := rfl

/-- C13: for every message, every reader that serves it and every sequence of buffers of at least 9
bytes, no call writes outside of its buffer or reads outside of the message; when the transport
says it is done, the chunks reassemble to the message. -/
theorem C13_chunks_reassemble {σ : Type} (read : Reader σ) (msg : Bytes) (ready : σ → Nat → Prop)
    (hs : Serves read msg ready) (hlen : msg.length + 3 < 2 ^ 32) (bufs : List Bytes)
    (hb : ∀ b ∈ bufs, 9 ≤ b.length) (st : σ) (hr : ready st 0) :
    ∃ calls fin ctx' st', send read bufs (Ctx.start msg.length false) st =
        some (calls, fin, ctx', st') ∧ CallsOk bufs calls ∧
      (fin = true → reassemble (calls.map Call.chunk) = some msg ∧ ready st' msg.length ∧
        ctx'.singleChunkMessageLength = msg.length + 3 ∧
        (∀ init last, calls = init ++ [last] → init ≠ [] →
          reassemblePadded (init.map Call.chunk ++ [last.buf]) = some msg)) ∧
      (msg.length / 3 + 2 ≤ bufs.length → fin = true) := by
  cases bufs with
  | nil => exact ⟨[], false, _, st, rfl, CallsOk.nil _, by simp, by simp⟩
  | cons b bs =>
    have h9 : 9 ≤ b.length := hb b (by simp)
    have hcrc0 : (0 : BitVec 16) = crc 0 (msg.take 0) := rfl
    by_cases hfit : msg.length + 3 ≤ b.length
    · obtain ⟨rest, p1, p2⟩ := plan_single (Ctx.start msg.length false) b rfl rfl h9 hlen hfit
      obtain ⟨st', chunk, pad, c1, c2, c3, c4, c5⟩ := finish read msg ready hs _ st b h9 _ p1
        [0x08] rest rfl (by simp) hr (by simp [Ctx.start]) (by simp [Ctx.start]; omega) hcrc0
      simp only [Ctx.start] at c1 c2 c3 c4 c5
      have hpl : ([0x08] ++ rest : Bytes).length = b.length := by simp; omega
      rw [hpl] at c2 c3
      have hcl : 1 ≤ chunk.length := by rw [c1]; simp
      have hok : CallOk b.length ⟨chunk ++ pad, chunk.length⟩ := by
        rw [c2]; exact callOk_of _ _ hcl c3
      have htake : (chunk ++ pad).take chunk.length = chunk := List.take_left
      unfold send
      simp only [Ctx.start, c4, Option.bind_eq_bind, Option.bind_some]
      refine ⟨[⟨chunk ++ pad, chunk.length⟩], true, _, st', rfl, CallsOk.cons hok (CallsOk.nil _),
        fun _ => ⟨?_, by simpa using c5, rfl, ?_⟩, by simp⟩
      · simp only [List.map_cons, List.map_nil, Call.chunk, htake]
        rw [c1]
        simp only [Nat.zero_add, List.drop_zero, List.take_length, Bool.false_eq_true, if_false,
          List.append_assoc, List.singleton_append, reassemble, if_true]
        exact checkCrc_ok msg
      · intro init last h1 h2
        have := congrArg List.length h1
        simp at this
        exact absurd this h2
    · obtain ⟨v, rest, p1, p4, p5, p6, p7⟩ := plan_first (Ctx.start msg.length false) b rfl rfl h9 hlen
        (by simp [Ctx.start]; omega)
      obtain ⟨st', chunk, pad, c1, c2, c3, c4, c5⟩ := finish read msg ready hs _ st b h9 _ p1
        (0x48 :: v) rest rfl (by simp; omega) hr (by simp [Ctx.start]; omega) (by simp; omega) hcrc0
      simp only [Ctx.start, Nat.zero_add] at c1 c2 c3 c4 c5 p7
      have hpl : (0x48 :: v ++ rest : Bytes).length = b.length := by simp; omega
      rw [hpl] at c2 c3
      have hcl : 1 ≤ chunk.length := by rw [c1]; simp
      have hok : CallOk b.length ⟨chunk ++ pad, chunk.length⟩ := by
        rw [c2]; exact callOk_of _ _ hcl c3
      have htake : (chunk ++ pad).take chunk.length = chunk := List.take_left
      obtain ⟨calls, fin, ctx', st'', e1, e2, e3, e4⟩ := send_cont read msg ready hs hlen bs
        (fun b h => hb b (by simp [h])) (b.length - 1 - v.length) (msg.length + 3) st' (by omega)
        (by omega) c5
      unfold send
      simp only [Ctx.start, c4, Option.bind_eq_bind, Option.bind_some, if_true, e1]
      refine ⟨⟨chunk ++ pad, chunk.length⟩ :: calls, fin, ctx', st'', rfl, CallsOk.cons hok e2,
        fun hf => ?_, fun h => e4 (by simp only [List.length_cons] at h; omega)⟩
      obtain ⟨g1, g2, g3, g4, g5⟩ := e3 hf
      have hhead : ∀ cs, reassemble (chunk :: cs) =
          (collect (msg.take (b.length - 1 - v.length)) cs).bind fun acc =>
            if acc.length = msg.length + 2 then checkCrc acc else none := by
        intro cs
        rw [c1]
        simp only [List.cons_append, List.append_assoc, reassemble, if_true, List.append_nil, p7,
          Option.bind_eq_bind, Option.bind_some, List.drop_zero,
          show ¬ (0x48 : UInt8) = 0x08 by decide, if_false]
      have hheadP : ∀ cs, reassemblePadded (chunk :: cs) =
          (collect (msg.take (b.length - 1 - v.length)) cs).bind fun acc =>
            if msg.length + 2 ≤ acc.length then checkCrc (acc.take (msg.length + 2)) else none := by
        intro cs
        rw [c1]
        simp only [List.cons_append, List.append_assoc, reassemblePadded, if_true, List.append_nil, p7,
          Option.bind_eq_bind, Option.bind_some, List.drop_zero,
          show ¬ (0x48 : UInt8) = 0x08 by decide, if_false]
      have hml : (msg ++ crcBytes msg).length = msg.length + 2 := by simp [crcBytes]
      refine ⟨?_, g2, g4, ?_⟩
      · have hj := g5 []
        have hx : ∀ l : List Bytes, extendLast [] l = l := by
          intro l
          induction l with
          | nil => rfl
          | cons x xs ih =>
            cases xs with
            | nil => simp [extendLast]
            | cons y ys => rw [extendLast_cons _ _ _ (by simp), ih]
        rw [hx] at hj
        simp only [List.map_cons, Call.chunk, htake]
        rw [hhead]
        simp only [hj, Option.bind_some, List.append_nil]
        rw [if_pos hml]
        exact checkCrc_ok msg
      · intro init last h1 h2
        cases init with
        | nil => exact absurd rfl h2
        | cons i0 is =>
          simp only [List.cons_append, List.cons.injEq] at h1
          obtain ⟨rfl, h1⟩ := h1
          have hj := g5 (last.buf.drop last.len)
          rw [h1, List.map_append, List.map_cons, List.map_nil, extendLast_append] at hj
          rw [show last.chunk ++ last.buf.drop last.len = last.buf from List.take_append_drop _ _] at hj
          rw [List.map_cons, List.cons_append]
          simp only [Call.chunk, htake]
          rw [hheadP, hj, Option.bind_some, if_pos (by rw [List.length_append, hml]; omega), ← hml,
            List.take_left]
          exact checkCrc_ok msg

/-- Non-vacuous: a 20-byte message in buffers of 9, 12 and 30 bytes. -/
example : (send (memReader (List.replicate 20 7)) [List.replicate 9 0, List.replicate 12 0,
    List.replicate 30 0] (Ctx.start 20 false) ()).map
      (fun r => (r.1.map Call.chunk, r.2.1)) =
    some ([[0x48, 20, 7, 7, 7, 7, 7, 7, 7], [0xC0, 7, 7, 7, 7, 7, 7, 7, 7, 7, 7, 7],
      [0x80, 17, 7, 7, 7, 216, 90]], true) := by decide +kernel

/-- A message held in memory is served by its reader: the hypotheses of `C13_chunks_reassemble` are
met for every message. -/
theorem memReader_serves (msg : Bytes) : Serves (memReader msg) msg (fun _ _ => True) := by
  intro st off n _ _ h
  exact ⟨(), by simp [memReader, memcpyOut, h], trivial⟩

theorem send_multi_cont {σ : Type} (read : Reader σ) (msg : Bytes) (ready : σ → Nat → Prop)
    (hs : Serves read msg ready) (bufs : List Bytes) :
    (∀ b ∈ bufs, 9 ≤ b.length) → ∀ (off single : Nat) (st : σ), 0 < off → off ≤ msg.length →
    ready st off →
    ∃ calls fin ctx' st',
      send read bufs ⟨msg.length, true, single, off, crc 0 (msg.take off)⟩ st =
        some (calls, fin, ctx', st') ∧ CallsOk bufs calls ∧
      (fin = true → ready st' msg.length ∧ ctx'.singleChunkMessageLength = single ∧
        (calls.map Call.chunk).flatten = msg.drop off ++ crcBytes msg) ∧
      ((msg.length - off + 8) / 9 + 1 ≤ bufs.length → fin = true) := by
  induction bufs with
  | nil =>
    intro _ off single st _ _ _
    exact ⟨[], false, _, st, rfl, CallsOk.nil _, by simp, by simp⟩
  | cons b bs ih =>
    intro hb off single st h0 hoff hr
    have h9 : 9 ≤ b.length := hb b (by simp)
    have p1 := plan_multi_cont ⟨msg.length, true, single, off, crc 0 (msg.take off)⟩ b
      (by simp; omega) rfl
    simp only at p1
    generalize hn : min b.length (msg.length - off) = n at p1
    generalize hmore : decide (b.length - n < 2) = more at p1
    have hfit : n + (if more then 0 else 2) ≤ b.length := by
      cases hm : more
      · rw [hm] at hmore
        have := of_decide_eq_false hmore
        simp; omega
      · simp; omega
    obtain ⟨st', chunk, pad, c1, c2, c3, c4, c5⟩ := finish read msg ready hs _ st b h9 _ p1
      [] b rfl (by simp) hr (by simp only; omega) hfit rfl
    simp only [List.nil_append] at c1 c2 c3 c4 c5
    have hcl : 1 ≤ chunk.length := by
      rw [c1]
      cases hm : more
      · simp [crcBytes]
      · rw [hm] at hmore
        have := of_decide_eq_true hmore
        simp; omega
    have hok : CallOk b.length ⟨chunk ++ pad, chunk.length⟩ := by
      rw [c2]; exact callOk_of _ _ hcl c3
    have htake : (chunk ++ pad).take chunk.length = chunk := List.take_left
    unfold send
    simp only [c4, Option.bind_eq_bind, Option.bind_some]
    cases hm : more with
    | false =>
      rw [hm] at hmore c1
      have hsp := of_decide_eq_false hmore
      have hn' : off + n = msg.length := by omega
      refine ⟨[⟨chunk ++ pad, chunk.length⟩], true, _, st', rfl, CallsOk.cons hok (CallsOk.nil _),
        fun _ => ⟨by rw [← hn']; exact c5, rfl, ?_⟩, by simp⟩
      simp only [List.map_cons, List.map_nil, Call.chunk, htake, List.flatten_cons,
        List.flatten_nil, List.append_nil]
      rw [c1, hn', List.take_length, List.take_of_length_le (by simp; omega)]
      simp
    | true =>
      rw [hm] at hmore c1
      have hsp := of_decide_eq_true hmore
      obtain ⟨calls, fin, ctx', st'', e1, e2, e3, e4⟩ := ih (fun b h => hb b (by simp [h]))
        (off + n) single st' (by omega) (by omega) c5
      refine ⟨⟨chunk ++ pad, chunk.length⟩ :: calls, fin, ctx', st'', ?_, CallsOk.cons hok e2, ?_, ?_⟩
      · simp only [if_true, e1, Option.bind_some, Option.pure_def]
      · intro hf
        obtain ⟨g1, g2, g3⟩ := e3 hf
        refine ⟨g1, g2, ?_⟩
        simp only [List.map_cons, List.flatten_cons, g3, Call.chunk, htake]
        rw [c1]
        simp only [if_true, List.append_nil, ← List.append_assoc]
        rw [← List.drop_drop, List.take_append_drop]
      · intro hlen'
        apply e4
        simp only [List.length_cons] at hlen'
        omega

/-- C13 for multi-call mode: the outputs of all calls together are one chunk, which is the message
with its CRC and is exactly as long as announced. -/
theorem C13_multi_call_chunk {σ : Type} (read : Reader σ) (msg : Bytes) (ready : σ → Nat → Prop)
    (hs : Serves read msg ready) (hlen : msg.length + 3 < 2 ^ 32) (bufs : List Bytes)
    (hb : ∀ b ∈ bufs, 9 ≤ b.length) (st : σ) (hr : ready st 0) :
    ∃ calls fin ctx' st', send read bufs (Ctx.start msg.length true) st =
        some (calls, fin, ctx', st') ∧ CallsOk bufs calls ∧
      (fin = true → reassemble [(calls.map Call.chunk).flatten] = some msg ∧
        ready st' msg.length ∧
        (calls.map Call.chunk).flatten.length =
          (getChunkInfo (Ctx.start msg.length true)).singleChunkMessageLength) ∧
      (msg.length / 9 + 3 ≤ bufs.length → fin = true) := by
  have hcrc0 : (0 : BitVec 16) = crc 0 (msg.take 0) := rfl
  have hfinal : ∀ l : Bytes, l = 0x08 :: (msg ++ crcBytes msg) →
      reassemble [l] = some msg ∧
      l.length = (getChunkInfo (Ctx.start msg.length true)).singleChunkMessageLength := by
    intro l hl
    subst hl
    constructor
    · simp only [reassemble, if_true]; exact checkCrc_ok msg
    · simp only [getChunkInfo, Ctx.start, singleMessageChunkSize, ne_eq, not_true_eq_false, if_false,
        List.length_cons, List.length_append, crcBytes_length]
      rw [Nat.mod_eq_of_lt (by omega)]; omega
  cases bufs with
  | nil => exact ⟨[], false, _, st, rfl, CallsOk.nil _, by simp, by simp⟩
  | cons b bs =>
    have h9 : 9 ≤ b.length := hb b (by simp)
    obtain ⟨rest, p0, p2⟩ := plan_multi_first (Ctx.start msg.length true) b rfl rfl h9 hlen
    have p1 : plan (Ctx.start msg.length true) b = some ⟨[0x08] ++ rest, 1,
        min (b.length - 1) msg.length, decide (b.length < msg.length + 3),
        ⟨msg.length, true, msg.length + 3, 0, 0⟩⟩ := p0
    clear p0
    generalize hn : min (b.length - 1) msg.length = n at p1
    generalize hmore : decide (b.length < msg.length + 3) = more at p1
    have hfit : n + (if more then 0 else 2) ≤ rest.length := by
      cases hm : more
      · rw [hm] at hmore
        have := of_decide_eq_false hmore
        simp; omega
      · simp; omega
    obtain ⟨st', chunk, pad, c1, c2, c3, c4, c5⟩ := finish read msg ready hs _ st b h9 _ p1
      [0x08] rest rfl (by simp) hr (by simp only; omega) hfit hcrc0
    simp only [Nat.zero_add, List.drop_zero] at c1 c2 c3 c4 c5
    have hpl : ([0x08] ++ rest : Bytes).length = b.length := by simp; omega
    rw [hpl] at c2 c3
    have hcl : 1 ≤ chunk.length := by rw [c1]; simp
    have hok : CallOk b.length ⟨chunk ++ pad, chunk.length⟩ := by
      rw [c2]; exact callOk_of _ _ hcl c3
    have htake : (chunk ++ pad).take chunk.length = chunk := List.take_left
    unfold send
    simp only [c4, Option.bind_eq_bind, Option.bind_some]
    cases hm : more with
    | false =>
      rw [hm] at hmore c1
      have hsp := of_decide_eq_false hmore
      have hn' : n = msg.length := by omega
      refine ⟨[⟨chunk ++ pad, chunk.length⟩], true, _, st', rfl, CallsOk.cons hok (CallsOk.nil _),
        fun _ => ?_, by simp⟩
      have : ([(⟨chunk ++ pad, chunk.length⟩ : Call)].map Call.chunk).flatten =
          0x08 :: (msg ++ crcBytes msg) := by
        simp only [List.map_cons, List.map_nil, Call.chunk, htake, List.flatten_cons,
          List.flatten_nil, List.append_nil]
        rw [c1, hn', List.take_length]
        simp
      obtain ⟨f1, f2⟩ := hfinal _ this
      exact ⟨f1, by rw [← hn']; exact c5, f2⟩
    | true =>
      rw [hm] at hmore c1
      have hsp := of_decide_eq_true hmore
      obtain ⟨calls, fin, ctx', st'', e1, e2, e3, e4⟩ := send_multi_cont read msg ready hs bs
        (fun b h => hb b (by simp [h])) n (msg.length + 3) st' (by omega) (by omega) c5
      refine ⟨⟨chunk ++ pad, chunk.length⟩ :: calls, fin, ctx', st'', ?_, CallsOk.cons hok e2, ?_, ?_⟩
      · simp only [if_true, e1, Option.bind_some, Option.pure_def]
      · intro hf
        obtain ⟨g1, g2, g3⟩ := e3 hf
        have : ((⟨chunk ++ pad, chunk.length⟩ :: calls).map Call.chunk).flatten =
            0x08 :: (msg ++ crcBytes msg) := by
          simp only [List.map_cons, List.flatten_cons, g3, Call.chunk, htake]
          rw [c1]
          simp only [if_true, List.append_nil, List.append_assoc, List.singleton_append, List.cons_append]
          rw [← List.append_assoc (List.take n msg), List.take_append_drop]
          rfl
        obtain ⟨f1, f2⟩ := hfinal _ this
        exact ⟨f1, g1, f2⟩
      · intro hlen'
        apply e4
        simp only [List.length_cons] at hlen'
        omega

example : (send (memReader (List.replicate 20 7)) [List.replicate 9 0, List.replicate 12 0,
    List.replicate 30 0] (Ctx.start 20 true) ()).map
      (fun r => (r.1.map Call.chunk, r.2.1)) =
    some ([[0x08, 7, 7, 7, 7, 7, 7, 7, 7], [7, 7, 7, 7, 7, 7, 7, 7, 7, 7, 7, 7],
      [216, 90]], true) := by decide +kernel

/-- C14: a buffer below the minimum is refused without touching anything. -/
theorem C14_small_buffer_refused {σ : Type} (read : Reader σ) (ctx : Ctx) (st : σ) (buf : Bytes)
    (h : buf.length < 9) : getNextChunk read ctx st buf = some ⟨true, 0, buf, ctx, st⟩ := by
  simp [getNextChunk, minChunkBufLen, h]

/-- C14: for every message in memory and every sequence of buffers of at least 9 bytes, in either
mode, no call writes outside its buffer or asks for bytes outside the message (both would be
`none`), each call produces between 1 and the buffer's size bytes, and the transfer completes within
`length / 3 + 3` calls. -/
theorem C14_chunks_in_bounds_and_terminate (msg : Bytes) (multi : Bool)
    (hlen : msg.length + 3 < 2 ^ 32) (bufs : List Bytes) (hb : ∀ b ∈ bufs, 9 ≤ b.length) :
    ∃ calls fin ctx', send (memReader msg) bufs (Ctx.start msg.length multi) () =
        some (calls, fin, ctx', ()) ∧ CallsOk bufs calls ∧
      (msg.length / 3 + 3 ≤ bufs.length → fin = true) := by
  cases multi
  · obtain ⟨calls, fin, ctx', _, h1, h2, -, h3⟩ := C13_chunks_reassemble (memReader msg) msg _
      (memReader_serves msg) hlen bufs hb () trivial
    exact ⟨calls, fin, ctx', h1, h2, fun h => h3 (by omega)⟩
  · obtain ⟨calls, fin, ctx', _, h1, h2, -, h3⟩ := C13_multi_call_chunk (memReader msg) msg _
      (memReader_serves msg) hlen bufs hb () trivial
    exact ⟨calls, fin, ctx', h1, h2, fun h => h3 (by omega)⟩

end Mflt.Props
