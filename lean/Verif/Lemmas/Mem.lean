import Verif.Model.Mem

/-! # Lemmas about the memory primitives -/

namespace Mflt

theorem memcpyIn_at {p r d : Bytes} {i : Nat} (hp : p.length = i) (hd : d.length ≤ r.length) :
    memcpyIn (p ++ r) i d = some ((p ++ d) ++ r.drop d.length) := by
  unfold memcpyIn
  rw [if_pos (by simp; omega), List.take_left' hp, ← hp, ← List.drop_drop, List.drop_left]

theorem memcpyIn_zero {m d : Bytes} (hd : d.length ≤ m.length) :
    memcpyIn m 0 d = some (d ++ m.drop d.length) := by
  have := memcpyIn_at (p := []) (r := m) (d := d) (i := 0) rfl hd
  simpa using this

theorem memcpyOut_some {m : Bytes} {i n : Nat} (h : i + n ≤ m.length) :
    memcpyOut m i n = some ((m.drop i).take n) := by
  simp [memcpyOut, h]

end Mflt
