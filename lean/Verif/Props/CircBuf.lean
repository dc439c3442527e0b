import Verif.Lemmas.CircBufCallback

/-! # C01, C02: the circular buffer is a bounded FIFO byte queue -/

namespace Mflt.Props

open Spec CircBuf

/-- One API call on the modelled circular buffer; `none` is undefined behaviour. -/
def cbStep (cb : CircBuf) : BufOp → Option (CircBuf × BufOut)
  | .write d => (cb.write d).map fun (b, cb') => (cb', .ok b)
  | .writeAtOffset off d => (cb.writeAtOffset off d).map fun (b, cb') => (cb', .ok b)
  | .consume n => (cb.consume n).map fun (b, cb') => (cb', .ok b)
  | .consumeFromEnd n => let (b, cb') := cb.consumeFromEnd n; some (cb', .ok b)
  | .read off n => (cb.read off n).map fun d => (cb, .data d)
  | .readSize => some (cb, .size cb.getReadSize)
  | .writeSize => some (cb, .size cb.getWriteSize)

/-- A sequence of API calls with all results; `none` if any step is undefined behaviour. -/
def cbRun (cb : CircBuf) : List BufOp → Option (CircBuf × List BufOut)
  | [] => some (cb, [])
  | op :: ops => do
    let (cb1, o) ← cbStep cb op
    let (cb2, os) ← cbRun cb1 ops
    return (cb2, o :: os)

theorem cbStep_refines {cb : CircBuf} (h : cb.Inv) (op : BufOp) :
    ∃ cb' o, cbStep cb op = some (cb', o) ∧ cb'.Inv ∧
      (ByteQueue.mk cb.totalSpace cb.contents).step op =
        (ByteQueue.mk cb'.totalSpace cb'.contents, o) := by
  cases op with
  | write d =>
    obtain ⟨cb', h1, h2, h3, -, h5⟩ := write_eq h d
    refine ⟨cb', _, by simp [cbStep, h1]; rfl, h2, ?_⟩
    simp only [ByteQueue.step, length_contents, h3, h5]
    split <;> simp [*]
  | writeAtOffset off d =>
    obtain ⟨cb', h1, h2, h3, -, h5⟩ := writeAtOffset_eq h off d
    refine ⟨cb', _, by simp [cbStep, h1]; rfl, h2, ?_⟩
    simp only [ByteQueue.step, length_contents, h3, h5]
    split
    · simp [*]
    · rename_i hc
      simp only [Prod.mk.injEq, true_and]
      congr 1
      simpa using hc
  | consume n =>
    obtain ⟨cb', h1, h2, h3, -, h5⟩ := consume_eq h n
    refine ⟨cb', _, by simp [cbStep, h1]; rfl, h2, ?_⟩
    simp only [ByteQueue.step, length_contents, h3, h5]
    split <;> simp [*]
  | consumeFromEnd n =>
    obtain ⟨h1, h2, h3, -, h5⟩ := consumeFromEnd_eq h n
    refine ⟨(cb.consumeFromEnd n).2, .ok (cb.consumeFromEnd n).1, by simp [cbStep], h2, ?_⟩
    simp only [ByteQueue.step, length_contents, h1, h3, h5]
    split <;> simp [*]
  | read off n =>
    refine ⟨cb, _, by simp [cbStep, read_eq h]; rfl, h, ?_⟩
    simp [ByteQueue.step]
  | readSize => exact ⟨cb, _, rfl, h, by simp [ByteQueue.step, getReadSize]⟩
  | writeSize => exact ⟨cb, _, rfl, h, by simp [ByteQueue.step, getWriteSize]⟩

/-- **C01.** After a successful `memfault_circular_buffer_init` over storage of `n` bytes, any
sequence of API calls is free of undefined behaviour and returns, call by call, exactly what a
FIFO byte queue of capacity `n` returns; at the end the buffer holds what the queue holds. -/
theorem C01_circular_buffer_refines_queue (n : Nat) (cb : CircBuf) (hinit : init n = some cb)
    (ops : List BufOp) :
    ∃ cb' outs, cbRun cb ops = some (cb', outs) ∧
      (ByteQueue.mk n []).run ops = (ByteQueue.mk n cb'.contents, outs) := by
  obtain ⟨hinv, hc, hn⟩ := init_inv hinit
  have key : ∀ (ops : List BufOp) (cb : CircBuf), cb.Inv →
      ∃ cb' outs, cbRun cb ops = some (cb', outs) ∧ 
        (ByteQueue.mk cb.totalSpace cb.contents).run ops =
          (ByteQueue.mk cb'.totalSpace cb'.contents, outs) := by
    intro ops
    induction ops with
    | nil => intro cb _; exact ⟨cb, [], rfl, rfl⟩
    | cons op ops ih =>
      intro cb hinv
      obtain ⟨cb1, o, h1, h2, h3⟩ := cbStep_refines hinv op
      obtain ⟨cb2, os, h4, h5⟩ := ih cb1 h2
      refine ⟨cb2, o :: os, by simp [cbRun, h1, h4], ?_⟩
      simp only [ByteQueue.run, h3, h5]
  obtain ⟨cb', outs, h1, h2⟩ := key ops cb hinv
  rw [hc, hn] at h2
  refine ⟨cb', outs, h1, ?_⟩
  have hcap : ∀ (ops : List BufOp) (q : ByteQueue), (q.run ops).1.cap = q.cap := by
    intro ops
    induction ops with
    | nil => intro q; rfl
    | cons op ops ih =>
      intro q
      simp only [ByteQueue.run, ih]
      cases op <;> simp only [ByteQueue.step] <;> (try split) <;> rfl
  have := hcap ops (ByteQueue.mk n [])
  rw [h2] at this
  simp only at this
  rw [h2, this]

/-- Readable plus writable size is the capacity, after any sequence of calls. -/
theorem C01_sizes_add_up (n : Nat) (cb cb' : CircBuf) (hinit : init n = some cb)
    (ops : List BufOp) (outs : List BufOut) (hrun : cbRun cb ops = some (cb', outs)) :
    cb'.getReadSize + cb'.getWriteSize = n := by
  obtain ⟨hinv, -, hn⟩ := init_inv hinit
  have key : ∀ (ops : List BufOp) (cb cb' : CircBuf) (outs : List BufOut), cb.Inv →
      cbRun cb ops = some (cb', outs) → cb'.Inv ∧ cb'.totalSpace = cb.totalSpace := by
    intro ops
    induction ops with
    | nil => intro cb cb' outs hi h; simp [cbRun] at h; obtain ⟨rfl, -⟩ := h; exact ⟨hi, rfl⟩
    | cons op ops ih =>
      intro cb cb' outs hi h
      obtain ⟨cb1, o, h1, h2, h3⟩ := cbStep_refines hi op
      simp only [cbRun, h1, Option.bind_eq_bind, Option.bind_some] at h
      cases h4 : cbRun cb1 ops with
      | none => simp [h4] at h
      | some r =>
        obtain ⟨cb2, os⟩ := r
        simp [h4] at h
        obtain ⟨rfl, -⟩ := h
        obtain ⟨h5, h6⟩ := ih cb1 cb2 os h2 h4
        refine ⟨h5, h6.trans ?_⟩
        have : ((ByteQueue.mk cb.totalSpace cb.contents).step op).1.cap = cb.totalSpace := by
          cases op <;> simp only [ByteQueue.step] <;> (try split) <;> rfl
        rw [h3] at this
        exact this
  obtain ⟨h1, h2⟩ := key ops cb cb' outs hinv hrun
  have := h1.size
  unfold getReadSize getWriteSize
  omega

/-- Non-vacuity: a run that wraps around the end of a 4-byte buffer, fails once, overwrites and
reads back. -/
example : (init 4).bind (fun cb => (cbRun cb
      [.write [1, 2, 3], .consume 2, .write [4, 5, 6], .write [7], .writeAtOffset 2 [9], .read 0 4,
       .consumeFromEnd 1, .read 1 2, .readSize, .writeSize]).map (·.2)) =
    some [.ok true, .ok true, .ok true, .ok false, .ok true, .data (some [3, 4, 9, 6]),
      .ok true, .data (some [4, 9]), .size 3, .size 1] := by decide

/-- **C02 (callback).** Reading a range of a well-formed buffer with a callback is defined for
every callback; if the range is readable the callback gets at most two non-empty pieces at
consecutive offsets (until it refuses one), and together the pieces are exactly the bytes that
the copying read returns; otherwise it is not called and the result is `false`. -/
theorem C02_callback_read {σ : Type} (cb : CircBuf) (h : cb.Inv) (off n : Nat)
    (callback : σ → Nat → Bytes → σ × Bool) (ctx : σ) :
    (cb.readSize < off + n → cb.read off n = some none ∧
      cb.readWithCallback off n callback ctx = some (false, ctx)) ∧
    (off + n ≤ cb.readSize → ∃ ps : List Bytes, ps.length ≤ 2 ∧ (∀ p ∈ ps, p ≠ []) ∧
      cb.read off n = some (some ps.flatten) ∧
      cb.readWithCallback off n callback ctx = some (feed callback 0 ps ctx)) := by
  constructor
  · intro hr
    rw [read_eq h, readWithCallback_eq h, if_neg (by simp; omega), if_neg (by omega)]
    exact ⟨rfl, rfl⟩
  · intro hr
    refine ⟨cb.pieces off n, pieces_length _ _ _, pieces_ne_nil h hr, ?_, ?_⟩
    · rw [read_eq h, if_pos (by simpa using hr), pieces_flatten]
    · rw [readWithCallback_eq h, if_pos hr]

/-- **C02 (pointer).** The zero-copy pointer is valid, its length is positive whenever there is
something to read at that offset, and the memory it designates holds the bytes that the copying
read of the same length returns. -/
theorem C02_pointer_read (cb : CircBuf) (h : cb.Inv) (off : Nat) (hoff : off ≤ cb.readSize) :
    ∃ ptr len, cb.getReadPointer off = some (some (ptr, len)) ∧ ptr + len ≤ cb.storage.length ∧
      (off < cb.readSize → 0 < len) ∧ off + len ≤ cb.readSize ∧
      cb.read off len = some (some ((cb.storage.drop ptr).take len)) := by
  have hpos := h.pos
  have hidx := Nat.mod_lt (cb.readOffset + off) hpos
  have hlen := h.len
  refine ⟨(cb.readOffset + off) % cb.totalSpace,
    min (cb.totalSpace - (cb.readOffset + off) % cb.totalSpace) (cb.readSize - off), ?_, ?_, ?_, ?_, ?_⟩
  · simp [getReadPointer, show ¬ cb.readSize < off by omega, umod, show cb.totalSpace ≠ 0 by omega]
  · omega
  · omega
  · omega
  · rw [read_eq h, if_pos (by simp; omega)]
    have := memcpyOut_contents h
      (off := off) (b := min (cb.totalSpace - (cb.readOffset + off) % cb.totalSpace) (cb.readSize - off))
      (by omega) (by omega)
    unfold memcpyOut at this
    rw [if_pos (by omega)] at this
    simp only [Option.some.injEq] at this
    rw [← this]

/-- Well-formed buffers are exactly what the theorems above need: every state reachable from
`init` is well formed. -/
theorem C02_reachable_inv (n : Nat) (cb cb' : CircBuf) (hinit : init n = some cb)
    (ops : List BufOp) (outs : List BufOut) (hrun : cbRun cb ops = some (cb', outs)) : cb'.Inv := by
  obtain ⟨hinv, -, -⟩ := init_inv hinit
  clear hinit
  induction ops generalizing cb outs with
  | nil => simp [cbRun] at hrun; obtain ⟨rfl, -⟩ := hrun; exact hinv
  | cons op ops ih =>
    obtain ⟨cb1, o, h1, h2, -⟩ := cbStep_refines hinv op
    simp only [cbRun, h1, Option.bind_eq_bind, Option.bind_some] at hrun
    cases h4 : cbRun cb1 ops with
    | none => simp [h4] at hrun
    | some r =>
      obtain ⟨cb2, os⟩ := r
      simp [h4] at hrun
      obtain ⟨rfl, -⟩ := hrun
      exact ih cb1 os h4 h2

/-- Non-vacuity: a wrapped range is delivered in two pieces. -/
example : (init 4).bind (fun cb => (cbRun cb [.write [1, 2, 3], .consume 2, .write [4, 5, 6]]).bind
    fun r => r.1.readWithCallback 1 3 (fun acc o p => (acc ++ [(o, p)], true)) []) =
    some (true, [(0, [4]), (1, [5, 6])]) := by decide

end Mflt.Props
