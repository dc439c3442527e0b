import Verif.Lemmas.Rle

/-! # C11, C12: run-length encoding -/

namespace Mflt.Props

open Mflt.Rle Mflt.Spec.Rle

theorem feed_spec (data : Bytes) (hd : data.length < 2 ^ 31) (pieces : List Nat) :
    ∀ (ctx : Ctx) (off : Nat) (out : Bytes), off ≤ data.length →
    OutInv (data.take off) ctx out → runFrom Ctx.zero [] [] (data.take off) = some (ctx, out) →
    ∃ ctx' off' out', feed data pieces ctx off out = some (ctx', off', out') ∧
      off ≤ off' ∧ off' ≤ data.length ∧ OutInv (data.take off') ctx' out' ∧
      runFrom Ctx.zero [] [] (data.take off') = some (ctx', out') ∧
      ((∀ k ∈ pieces, 0 < k) → min data.length (off + pieces.length) ≤ off') := by
  induction pieces with
  | nil => intro ctx off out ho h1 h2; exact ⟨ctx, off, out, rfl, by omega, ho, h1, h2, by simp; omega⟩
  | cons k ks ih =>
    intro ctx off out ho h1 h2
    unfold feed
    by_cases hp : (data.drop off).take k = []
    · obtain ⟨c, o', u, g1, g2, g3, g4, g5, g6⟩ := ih ctx off out ho h1 h2
      refine ⟨c, o', u, by rw [if_pos hp, g1], g2, g3, g4, g5, fun hk => ?_⟩
      have hk0 := hk k (by simp)
      have := congrArg List.length hp
      simp at this
      omega
    · rw [if_neg hp]
      have hl : (data.take off).length = off := by simp; omega
      have hpl : ((data.drop off).take k).length ≤ data.length - off := by simp; omega
      obtain ⟨c1, o1, n, e1, e2, e3, e4, e5, e6⟩ := encode_run ((data.drop off).take k) (data.take off)
        ctx out h1 (by omega) hp
      have ht : data.take off ++ ((data.drop off).take k).take n = data.take (off + n) := by
        rw [List.take_take, Nat.min_eq_left (by simp at e3; omega), ← List.take_add]
      rw [ht] at e4 e6
      have hr : runFrom Ctx.zero [] [] (data.take (off + n)) = some (c1, o1) := by
        rw [← ht, runFrom_append, h2]; simpa using e5
      obtain ⟨c, o', u, g1, g2, g3, g4, g5, g6⟩ := ih c1 (off + n) o1 (by omega) e6 hr
      refine ⟨c, o', u, ?_, by omega, g3, g4, g5, fun hk => ?_⟩
      · simp [e1, e4, g1]
      · have := g6 (fun k hk' => hk k (by simp [hk']))
        simp only [List.length_cons]
        omega

/-- C11: whatever the data (below 2^31 bytes) and however it is cut into pieces, the encoder never
fails, never asks for bytes it has not been fed, consumes at least one byte per call, and once all
bytes are consumed the emitted stream expands to exactly the original data. -/
theorem C11_rle_lossless (data : Bytes) (hd : data.length < 2 ^ 31) (pieces : List Nat) :
    ∃ ctx off out, encodeAll data pieces = some (ctx, off, out) ∧
      ctx.writeInfo.available = true ∧ expand out = some (data.take off) ∧ off ≤ data.length ∧
      ((∀ k ∈ pieces, 0 < k) → min data.length pieces.length ≤ off) := by
  obtain ⟨c, o, u, h1, -, h2, h3, -, h4⟩ := feed_spec data hd pieces Ctx.zero 0 [] (by omega)
    (by simpa using outInv_zero) (by simp [runFrom])
  obtain ⟨c', u', e1, e2, e3, e4, -⟩ := finalize_spec (data.take o) c u h3 (by simp; omega)
  refine ⟨c', o, u', by simp [encodeAll, h1, e1, e3], e2, e4, h2, ?_⟩
  simpa using h4

/-- The hypotheses are met by a stream with literals and runs, fed in pieces of 1, 3 and 100. -/
example : (encodeAll [1, 2, 3, 3, 3, 3, 4, 4] [1, 3, 100, 100, 100]).map (fun r => (r.2.1, r.2.2)) =
    some (8, [3, 1, 2, 8, 3, 4, 4]) := by decide

/-- C11: the emitted stream does not depend on how the data was cut. -/
theorem C11_rle_piece_independent (data : Bytes) (hd : data.length < 2 ^ 31) (ps qs : List Nat)
    (c1 c2 : Ctx) (off : Nat) (o1 o2 : Bytes)
    (h1 : encodeAll data ps = some (c1, off, o1)) (h2 : encodeAll data qs = some (c2, off, o2)) :
    o1 = o2 ∧ c1.totalRleSize = c2.totalRleSize := by
  obtain ⟨a, i, u, a1, -, -, -, a2, -⟩ := feed_spec data hd ps Ctx.zero 0 [] (by omega)
    (by simpa using outInv_zero) (by simp [runFrom])
  obtain ⟨b, j, v, b1, -, -, -, b2, -⟩ := feed_spec data hd qs Ctx.zero 0 [] (by omega)
    (by simpa using outInv_zero) (by simp [runFrom])
  unfold encodeAll at h1 h2
  simp only [a1, Option.bind_eq_bind, Option.bind_some] at h1
  simp only [b1, Option.bind_eq_bind, Option.bind_some] at h2
  have hi : i = off := by
    cases hf : finalize a with
    | none => simp [hf] at h1
    | some x =>
      cases hc : collect (data.take i) x.writeInfo u with
      | none => simp [hf, hc] at h1
      | some y => simp [hf, hc] at h1; exact h1.2.1
  have hj : j = off := by
    cases hf : finalize b with
    | none => simp [hf] at h2
    | some x =>
      cases hc : collect (data.take j) x.writeInfo v with
      | none => simp [hf, hc] at h2
      | some y => simp [hf, hc] at h2; exact h2.2.1
  subst hi; subst hj
  rw [a2] at b2
  simp only [Option.some.injEq, Prod.mk.injEq] at b2
  obtain ⟨rfl, rfl⟩ := b2
  rw [h1] at h2
  simp only [Option.some.injEq, Prod.mk.injEq] at h2
  exact ⟨h2.2.2, by rw [h2.1]⟩

/-- C12: the size the encoder reports is exactly the number of bytes emitted, and a stream of `n`
bytes never grows by more than `n / 64 + 1` bytes. -/
theorem C12_rle_size (data : Bytes) (hd : data.length < 2 ^ 31) (pieces : List Nat)
    (ctx : Ctx) (off : Nat) (out : Bytes) (h : encodeAll data pieces = some (ctx, off, out)) :
    ctx.totalRleSize = out.length ∧ out.length ≤ off + off / 64 + 1 := by
  obtain ⟨c, o, u, h1, -, h2, h3, -, h4⟩ := feed_spec data hd pieces Ctx.zero 0 [] (by omega)
    (by simpa using outInv_zero) (by simp [runFrom])
  obtain ⟨c', u', e1, e2, e3, -, e4, e5⟩ := finalize_spec (data.take o) c u h3 (by simp; omega)
  have h' : encodeAll data pieces = some (c', o, u') := by simp [encodeAll, h1, e1, e3]
  rw [h'] at h
  simp only [Option.some.injEq, Prod.mk.injEq] at h
  obtain ⟨rfl, rfl, rfl⟩ := h
  rw [List.length_take, Nat.min_eq_left h2] at e5
  exact ⟨e4, e5⟩

/-- The bound is reached: 3 distinct bytes take 4. -/
example : (encodeAll [1, 2, 3] [3]).map (fun r => (r.1.totalRleSize, r.2.2.length)) = some (4, 4) := by
  decide

end Mflt.Props
