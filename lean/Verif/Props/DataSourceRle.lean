import Verif.Lemmas.DataSourceRle
import Verif.Props.Rle
import Verif.Spec.RleSourceClient

/-! # C22: the RLE data source -/

namespace Mflt.Props

open Mflt.DataSourceRle Mflt.Rle Mflt.Spec.Rle

theorem readSeq_eq {msg E : Bytes} (hd : msg.length < 2 ^ 31) (sizes : List Nat) :
    ∀ (s : DataSourceRle.State) (off : Nat), Ready msg E s off → (∀ n ∈ sizes, 0 < n) →
    off + sizes.sum ≤ E.length →
    ∃ outs s', readSeq msg s off sizes = some (outs, s') ∧
      outs.flatten = (E.drop off).take sizes.sum ∧ outs.map List.length = sizes ∧
      Ready msg E s' (off + sizes.sum) := by
  induction sizes with
  | nil => intro s off h _ _; exact ⟨[], s, rfl, by simp, rfl, by simpa using h⟩
  | cons n ns ih =>
    intro s off h hp hs
    simp only [List.sum_cons] at hs ⊢
    obtain ⟨s1, e1, e2⟩ := h.read hd (hp n (by simp)) (by omega)
    obtain ⟨outs, s2, f1, f2, f3, f4⟩ := ih s1 (off + n) e2 (fun m hm => hp m (by simp [hm])) (by omega)
    refine ⟨(E.drop off).take n :: outs, s2, ?_, ?_, ?_, by rw [← Nat.add_assoc]; exact f4⟩
    · simp [readSeq, e1, f1]
    · rw [List.flatten_cons, f2, List.take_add, ← List.drop_drop]
    · rw [List.map_cons, f3, List.length_take, List.length_drop, Nat.min_eq_left (by omega)]

/-- The encoding found by the source is the one the encoder produces however it is fed. -/
theorem encodeAll_completes {msg E : Bytes} {c : Ctx} (hd : msg.length < 2 ^ 31)
    (hc : completes msg 0 Ctx.zero [] = some (c, E)) (pieces : List Nat) (c' : Ctx) (out : Bytes)
    (h : encodeAll msg pieces = some (c', msg.length, out)) : out = E := by
  obtain ⟨a, i, u, a1, -, -, -, a2, -⟩ := feed_spec msg hd pieces Ctx.zero 0 [] (by omega)
    (by simpa using outInv_zero) (by simp [runFrom])
  unfold encodeAll at h
  simp only [a1, Option.bind_eq_bind, Option.bind_some] at h
  cases hf : finalize a with
  | none => simp [hf] at h
  | some x =>
    simp only [hf, Option.bind_some] at h
    cases hx : collect (msg.take i) x.writeInfo u with
    | none => simp [hx] at h
    | some y =>
      simp only [hx, Option.bind_some, Option.pure_def, Option.some.injEq, Prod.mk.injEq] at h
      obtain ⟨-, rfl, rfl⟩ := h
      rw [List.take_length] at a2 hx
      unfold completes at hc
      simp only [List.take_zero, List.drop_zero, a2, Option.bind_some, hf, hx, Option.map_some,
        Option.some.injEq, Prod.mk.injEq] at hc
      exact hc.2

/-- C22: for every non-empty message below 2^31 bytes the wrapped source announces the size of a
run-length encoding `E` of it (the one the encoder produces, however it is fed; it expands back to
the message); reading it from the beginning with any read sizes inside that size succeeds and gives
consecutive pieces of `E`; at any point a read at another offset fails without writing or changing
anything, and asking for the size again gives the same answer and changes nothing. -/
theorem C22_rle_source_streams_encoding (msg : Bytes) (hd : msg.length < 2 ^ 31) (hne : msg ≠ []) :
    ∃ E s0, hasMoreMsgs (some msg) DataSourceRle.State.zero = some (some E.length, s0) ∧
      expand E = some msg ∧
      (∀ pieces c out, encodeAll msg pieces = some (c, msg.length, out) → out = E) ∧
      ∀ sizes : List Nat, (∀ n ∈ sizes, 0 < n) → sizes.sum ≤ E.length →
        ∃ outs s, readSeq msg s0 0 sizes = some (outs, s) ∧
          outs.flatten = E.take sizes.sum ∧ outs.map List.length = sizes ∧
          (∀ off n, off ≠ sizes.sum → readMsg msg s off n = some (false, [], s)) ∧
          hasMoreMsgs (some msg) s = some (some E.length, s) := by
  obtain ⟨c, E, h1, h2, h3, -⟩ := completes_zero msg hd
  have hE : E ≠ [] := by
    intro hx
    rw [hx] at h2
    exact hne (by simpa [expand, expandN] using h2.symm)
  obtain ⟨s0, e1, e2⟩ := hasMoreMsgs_fresh hd hne h1 h3 fresh_zero
  refine ⟨E, s0, e1, h2, encodeAll_completes hd h1, fun sizes hp hs => ?_⟩
  obtain ⟨outs, s, f1, f2, f3, f4⟩ := readSeq_eq hd sizes s0 0 e2 hp (by omega)
  rw [Nat.zero_add] at f4
  refine ⟨outs, s, f1, by simpa using f2, f3, fun off n ho => ?_, hasMoreMsgs_again f4 hE⟩
  unfold readMsg
  rw [if_pos (by rw [f4.curr]; exact ho)]

/-- Non-vacuous: the message 1 2 3 3 3 3 4 4 read in pieces of 2, 3, 1 and 1. -/
example : ((hasMoreMsgs (some [1, 2, 3, 3, 3, 3, 4, 4]) DataSourceRle.State.zero).bind fun r =>
    (readSeq [1, 2, 3, 3, 3, 3, 4, 4] r.2 0 [2, 3, 1, 1]).map fun q => (r.1, q.1)) =
    some (some 7, [[3, 1], [2, 8, 3], [4], [4]]) := by decide +kernel

/-- C22: an empty message is announced with size zero. -/
theorem C22_rle_source_empty_message :
    (hasMoreMsgs (some []) DataSourceRle.State.zero).map (·.1) = some (some 0) := by decide

/-- C22: without a message nothing is announced. -/
theorem C22_rle_source_no_message (s : DataSourceRle.State) : (hasMoreMsgs none s).map (·.1) = some none := rfl

end Mflt.Props
