import Verif.Model.Base64
import Verif.Spec.Base64
import Verif.Lemmas.CircBuf

namespace Mflt.Base64

open Spec.Base64 (letter)

theorem table_get : ∀ n : Fin 64, table[n.val]? = some (letter n.val) := by decide +kernel

theorem getChar_eq (word offset : Nat) :
    getChar word offset = some (letter (word / 2 ^ (offset * 6) % 64)) := by
  unfold getChar
  have h := table_get ⟨word / 2 ^ (offset * 6) % 64, Nat.mod_lt _ (by decide)⟩
  rw [Nat.shiftRight_eq_div_pow, show (0x3f : Nat) = 2 ^ 6 - 1 from rfl,
    Nat.and_two_pow_sub_one_eq_mod]
  exact h

/-- The four letters of a triple, in terms of its bytes. -/
theorem triple_letters (a b c : Nat) (ha : a < 256) (hb : b < 256) (hc : c < 256) :
    getChar ((a <<< 16) + (b <<< 8) + c) 3 = some (letter (a / 4)) ∧
    getChar ((a <<< 16) + (b <<< 8) + c) 2 = some (letter (a % 4 * 16 + b / 16)) ∧
    getChar ((a <<< 16) + (b <<< 8) + c) 1 = some (letter (b % 16 * 4 + c / 64)) ∧
    getChar ((a <<< 16) + (b <<< 8) + c) 0 = some (letter (c % 64)) := by
  simp only [getChar_eq, Nat.shiftLeft_eq]
  refine ⟨?_, ?_, ?_, ?_⟩ <;> congr 2 <;> omega

theorem memcpyIn_some {m : Bytes} {i : Nat} {d : Bytes} (h : i + d.length ≤ m.length) :
    ∃ m', memcpyIn m i d = some m' ∧ m'.length = m.length ∧
      ∀ k, m'[k]? = if i ≤ k ∧ k < i + d.length then d[k - i]? else m[k]? := by
  have hs : memcpyIn m i d = some (m.take i ++ d ++ m.drop (i + d.length)) := by
    simp [memcpyIn, h]
  refine ⟨_, hs, ?_, fun k => ?_⟩
  · simp; omega
  · simp only [List.getElem?_append, List.getElem?_take, List.getElem?_drop, List.length_append,
      List.length_take]
    rw [Nat.min_eq_left (by omega)]
    by_cases h1 : k < i
    · simp [h1, show k < i + d.length by omega, show ¬ i ≤ k by omega]
    · by_cases h2 : k < i + d.length
      · simp [h1, h2, show i ≤ k by omega]
      · simp only [h2, if_false, and_false]
        congr 1; omega

/-- Four consecutive stores of one byte. -/
theorem memcpyIn_one {m : Bytes} {i : Nat} (c : UInt8) (h : i < m.length) :
    memcpyIn m i [c] = some (m.set i c) := by
  unfold memcpyIn
  simp only [List.length_singleton]
  rw [if_pos (by omega)]
  congr 1
  rw [List.set_eq_take_append_cons_drop, if_pos h]
  simp

end Mflt.Base64
