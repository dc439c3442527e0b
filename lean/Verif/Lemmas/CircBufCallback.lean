import Verif.Lemmas.CircBuf

namespace Mflt.CircBuf

theorem memcpyOut_contents {cb : CircBuf} (h : cb.Inv) {off b : Nat}
    (h1 : off + b ≤ cb.readSize) (h2 : b ≤ cb.totalSpace - (cb.readOffset + off) % cb.totalSpace) :
    memcpyOut cb.storage ((cb.readOffset + off) % cb.totalSpace) b =
      some ((cb.contents.drop off).take b) := by
  have hr := read_eq h off b
  have hpos := h.pos
  have hlen := h.len
  have hidx := Nat.mod_lt (cb.readOffset + off) hpos
  rw [if_pos (by simpa using h1)] at hr
  unfold read at hr
  rw [if_neg (by omega)] at hr
  simp only [umod, show cb.totalSpace ≠ 0 by omega, if_false, Option.bind_eq_bind,
      Option.bind_some, gt_iff_lt] at hr
  generalize (cb.readOffset + off) % cb.totalSpace = r at *
  have hb : (if b < cb.totalSpace - r then b else cb.totalSpace - r) = b := by
    split <;> omega
  rw [hb] at hr
  have : memcpyOut cb.storage r b = some ((cb.storage.drop r).take b) := by
    unfold memcpyOut; rw [if_pos (by omega)]
  rw [this] at hr ⊢
  simpa using hr

/-- The contiguous pieces in which a byte range of the buffer is delivered. -/
def pieces (cb : CircBuf) (off n : Nat) : List Bytes :=
  let range := (cb.contents.drop off).take n
  let room := cb.totalSpace - (cb.readOffset + off) % cb.totalSpace
  if n = 0 then [] else if n ≤ room then [range] else [range.take room, range.drop room]

/-- Feed pieces at consecutive offsets to a callback until it refuses one. -/
def feed {σ : Type} (callback : σ → Nat → Bytes → σ × Bool) : Nat → List Bytes → σ → Bool × σ
  | _, [], ctx => (true, ctx)
  | offset, p :: ps, ctx =>
    match callback ctx offset p with
    | (ctx', true) => feed callback (offset + p.length) ps ctx'
    | (ctx', false) => (false, ctx')

theorem readCallbackLoop_step {σ : Type} {cb : CircBuf} (h : cb.Inv) {off n : Nat}
    (callback : σ → Nat → Bytes → σ × Bool) (ctx : σ) (fuel left : Nat) (hl : left ≤ n)
    (hl0 : 0 < left) (hr : off + n ≤ cb.readSize) :
    let b := min left (cb.totalSpace - (cb.readOffset + (off + (n - left))) % cb.totalSpace)
    readCallbackLoop cb off n callback (fuel + 1) left ctx =
      match callback ctx (n - left) ((cb.contents.drop (off + (n - left))).take b) with
      | (ctx', false) => some (false, ctx')
      | (ctx', true) => readCallbackLoop cb off n callback fuel (left - b) ctx' := by
  intro b
  have hpos := h.pos
  have hidx := Nat.mod_lt (cb.readOffset + (off + (n - left))) hpos
  rw [readCallbackLoop]
  simp only [show ¬ left = 0 by omega, if_false, getReadPointer, show ¬ cb.readSize < off + (n - left) by omega,
    umod, show cb.totalSpace ≠ 0 by omega, Option.bind_eq_bind, Option.bind_some]
  have hb : min left (min (cb.totalSpace - (cb.readOffset + (off + (n - left))) % cb.totalSpace)
      (cb.readSize - (off + (n - left)))) = b := by
    show _ = min left _
    omega
  show (match memcpyOut cb.storage ((cb.readOffset + (off + (n - left))) % cb.totalSpace) (min left (min (cb.totalSpace - (cb.readOffset + (off + (n - left))) % cb.totalSpace)
      (cb.readSize - (off + (n - left))))) with
    | none => none
    | some piece => _) = _
  rw [hb, memcpyOut_contents h (by omega) (by omega)]
  rfl

theorem readWithCallback_eq {σ : Type} {cb : CircBuf} (h : cb.Inv) (off n : Nat)
    (callback : σ → Nat → Bytes → σ × Bool) (ctx : σ) :
    cb.readWithCallback off n callback ctx =
      some (if off + n ≤ cb.readSize then feed callback 0 (cb.pieces off n) ctx
            else (false, ctx)) := by
  have hpos := h.pos
  have hsz := h.size
  have hoff := h.off
  unfold readWithCallback
  by_cases hr : off + n ≤ cb.readSize
  · rw [if_neg (by omega), if_pos hr]
    have hidx := Nat.mod_lt (cb.readOffset + off) hpos
    by_cases hn : n = 0
    · subst hn; simp [pieces, feed, readCallbackLoop]
    · rw [readCallbackLoop_step h callback ctx n n (Nat.le_refl _) (by omega) hr]
      simp only [Nat.sub_self, Nat.add_zero]
      unfold pieces
      rw [if_neg hn]
      by_cases hroom : n ≤ cb.totalSpace - (cb.readOffset + off) % cb.totalSpace
      · rw [if_pos hroom, Nat.min_eq_left hroom]
        simp only [feed]
        rcases hcb : callback ctx 0 ((cb.contents.drop off).take n) with ⟨ctx', _ | _⟩
        · rfl
        · simp only [Nat.sub_self]
          obtain ⟨k, rfl⟩ : ∃ k, n = k + 1 := ⟨n - 1, by omega⟩
          rw [readCallbackLoop, if_pos rfl]
      · rw [if_neg hroom]
        have hmod := mod_lt_two (a := cb.readOffset + off) (t := cb.totalSpace) (by omega)
        generalize hrr : (cb.readOffset + off) % cb.totalSpace = r at *
        have hzero : (cb.readOffset + (off + (cb.totalSpace - r))) % cb.totalSpace = 0 := by
          rw [← Nat.add_assoc, Nat.add_mod, hrr]
          rcases Nat.eq_zero_or_pos r with h0 | h0
          · subst h0; simp
          · rw [Nat.mod_eq_of_lt (a := cb.totalSpace - r) (by omega)]
            rw [show r + (cb.totalSpace - r) = cb.totalSpace by omega]; simp
        rw [show min n (cb.totalSpace - r) = cb.totalSpace - r by omega]
        simp only [feed, List.take_take, show min (cb.totalSpace - r) n = cb.totalSpace - r by omega]
        rcases hcb : callback ctx 0 ((cb.contents.drop off).take (cb.totalSpace - r)) with ⟨ctx', _ | _⟩
        · rfl
        · simp only
          obtain ⟨k, rfl⟩ : ∃ k, n = k + 1 := ⟨n - 1, by omega⟩
          rw [readCallbackLoop_step h callback ctx' k _ (by omega) (by omega) hr]
          rw [show k + 1 - (k + 1 - (cb.totalSpace - r)) = cb.totalSpace - r by omega]
          rw [hzero]
          rw [show min (k + 1 - (cb.totalSpace - r)) (cb.totalSpace - 0) =
            k + 1 - (cb.totalSpace - r) by omega]
          have hlen : ((cb.contents.drop off).take (cb.totalSpace - r)).length = cb.totalSpace - r := by
            simp; omega
          rw [hlen, Nat.zero_add]
          rw [List.drop_take, List.drop_drop]
          rcases hcb2 : callback ctx' (cb.totalSpace - r)
            ((cb.contents.drop (off + (cb.totalSpace - r))).take (k + 1 - (cb.totalSpace - r))) with ⟨ctx2, _ | _⟩
          · rfl
          · simp only [Nat.sub_self]
            obtain ⟨j, rfl⟩ : ∃ j, k = j + 1 := ⟨k - 1, by omega⟩
            rw [readCallbackLoop, if_pos rfl]
  · rw [if_pos (by omega), if_neg hr]

theorem pieces_flatten (cb : CircBuf) (off n : Nat) :
    (cb.pieces off n).flatten = (cb.contents.drop off).take n := by
  unfold pieces
  simp only
  split
  · rename_i h; subst h; simp
  · split <;> simp

theorem pieces_length (cb : CircBuf) (off n : Nat) : (cb.pieces off n).length ≤ 2 := by
  unfold pieces
  simp only
  split
  · simp
  · split <;> simp

theorem pieces_ne_nil {cb : CircBuf} (h : cb.Inv) {off n : Nat} (hr : off + n ≤ cb.readSize) :
    ∀ p ∈ cb.pieces off n, p ≠ [] := by
  have hidx := Nat.mod_lt (cb.readOffset + off) h.pos
  unfold pieces
  simp only
  intro p hp
  split at hp
  · simp at hp
  · split at hp
    · simp only [List.mem_singleton] at hp
      subst hp
      intro hc
      have := congrArg List.length hc
      simp at this; omega
    · simp only [List.mem_cons, List.not_mem_nil, or_false] at hp
      rcases hp with rfl | rfl <;> intro hc <;> have := congrArg List.length hc <;>
        simp at this <;> omega

end Mflt.CircBuf
