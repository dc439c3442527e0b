import Verif.Lemmas.Cbor

/-! # Encoders that have enough room -/

namespace Mflt.Cbor

variable {σ : Type}

/-- The encoder after some pieces were added with success. -/
def push (e : Encoder σ) (ps : List Bytes) : Encoder σ :=
  { e with
    ctx := match e.writeCb with
      | none => e.ctx
      | some cb => feedWrites cb e.encodedSize ps e.ctx
    encodedSize := e.encodedSize + ps.flatten.length }

/-- There is room for `n` more bytes. -/
def Room (e : Encoder σ) (n : Nat) : Prop := e.writeCb = none ∨ e.encodedSize + n ≤ e.bufLen

theorem push_nil (e : Encoder σ) : push e [] = e := by
  unfold push; cases e with | mk w c b s => cases w <;> simp [feedWrites]

theorem push_append (e : Encoder σ) (a b : List Bytes) : push e (a ++ b) = push (push e a) b := by
  unfold push
  cases e with
  | mk w c l s => cases w <;> simp [feedWrites_append, Nat.add_assoc]

theorem Room.mono {e : Encoder σ} {n m : Nat} (h : Room e n) (hm : m ≤ n) : Room e m := by
  rcases h with h | h
  · exact .inl h
  · exact .inr (by omega)

theorem Room.push {e : Encoder σ} {n : Nat} (ps : List Bytes) (h : Room e (ps.flatten.length + n)) :
    Room (push e ps) n := by
  rcases h with h | h
  · exact .inl h
  · refine .inr ?_
    show e.encodedSize + ps.flatten.length + n ≤ e.bufLen
    omega

theorem addAll_push (e : Encoder σ) (ps : List Bytes) (hne : ∀ p ∈ ps, p ≠ [])
    (h : Room e ps.flatten.length) : addAll e ps = (true, push e ps) := by
  cases hw : e.writeCb with
  | none =>
    rw [addAll_sizeOnly e hw]
    unfold push; rw [hw]
  | some cb =>
    rcases h with h | h
    · rw [hw] at h; cases h
    · obtain ⟨ws, h1, h2, h3, h4, h5⟩ := addAll_bounded e cb hw (by omega) ps hne
      have ht := h4.mpr h
      rw [h5 ht] at h2
      have : addAll e ps = ((addAll e ps).1, (addAll e ps).2) := rfl
      rw [this, ht, h2]
      unfold push; rw [hw]

/-- The pieces of a sequence of calls. -/
def piecesAll (cs : List Call) : List Bytes := cs.flatMap pieces

theorem piecesAll_append (a b : List Call) : piecesAll (a ++ b) = piecesAll a ++ piecesAll b := by
  simp [piecesAll]

theorem piecesAll_cons (c : Call) (b : List Call) : piecesAll (c :: b) = pieces c ++ piecesAll b := by
  simp [piecesAll]

theorem piecesAll_ne_nil (cs : List Call) : ∀ p ∈ piecesAll cs, p ≠ [] := by
  intro p hp
  obtain ⟨c, -, hc⟩ := List.mem_flatMap.mp hp
  exact pieces_ne_nil hc

theorem piecesAll_flatten (cs : List Call) : (piecesAll cs).flatten = emitAll cs := (emitAll_eq cs).symm

theorem callAll_push (e : Encoder σ) (cs : List Call) (h : Room e (emitAll cs).length) :
    callAll e cs = (true, push e (piecesAll cs)) := by
  rw [callAll_eq_addAll]
  exact addAll_push e _ (piecesAll_ne_nil cs) (by rw [← piecesAll_flatten] at h; exact h)

theorem call_push (e : Encoder σ) (c : Call) (h : Room e (emit c).length) :
    call e c = (true, push e (pieces c)) := by
  rw [call_eq_addAll]
  exact addAll_push e _ (fun p hp => pieces_ne_nil hp) h

end Mflt.Cbor
