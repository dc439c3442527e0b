import Verif.Model.MbedHexdump

/-!
# C139: hex dump of the Mbed example
-/

namespace Mflt.Props

open Mflt.Spec.MbedHexdump Mflt.MbedHexdump

namespace MbedHexdumpAux

theorem dump_lines : ∀ (bs cur : List UInt8), cur.length < 21 → ∃ lines : List (List UInt8),
    lines.flatten = cur ++ bs ∧ (∀ l ∈ lines.dropLast, l.length = 21) ∧ (∀ l ∈ lines, 0 < l.length ∧ l.length ≤ 21) ∧
      (if cur.length = 0 then [] else Out.header :: cur.map Out.byte) ++ dump bs cur.length = lines.flatMap line := by
  intro bs
  induction bs with
  | nil =>
    intro cur h
    cases cur with
    | nil => exact ⟨[], rfl, by simp, by simp, rfl⟩
    | cons c cs =>
      refine ⟨[c :: cs], by simp, by simp, ?_, ?_⟩
      · intro l hl
        rw [List.mem_singleton] at hl
        subst hl
        exact ⟨Nat.succ_pos _, by omega⟩
      · rw [if_neg (by simp), dump, if_pos (by simp)]
        simp [line]
  | cons b bs ih =>
    intro cur h
    have hm : maxBytesPerLine = 21 := rfl
    have hcur : (if cur.length = 0 then [] else Out.header :: cur.map Out.byte) ++ (if cur.length = 0 then [Out.header] else []) =
        Out.header :: cur.map Out.byte := by
      cases cur with
      | nil => rfl
      | cons c cs => simp
    rw [dump, hm, ← List.append_assoc, hcur]
    by_cases hl : cur.length + 1 = 21
    · rw [if_pos hl]
      obtain ⟨lines, h1, h2, h3, h4⟩ := ih [] (by simp)
      have hlen : (cur ++ [b]).length = 21 := by rw [List.length_append]; exact hl
      refine ⟨(cur ++ [b]) :: lines, ?_, ?_, ?_, ?_⟩
      · rw [List.flatten_cons, h1]
        simp
      · intro l hm
        cases lines with
        | nil => simp at hm
        | cons x xs =>
          rw [List.dropLast_cons₂] at hm
          rcases List.mem_cons.1 hm with rfl | hm
          · exact hlen
          · exact h2 l hm
      · intro l hm
        rcases List.mem_cons.1 hm with rfl | hm
        · omega
        · exact h3 l hm
      · have h5 : dump bs 0 = lines.flatMap line := h4
        rw [List.flatMap_cons, h5]
        simp [line]
    · rw [if_neg hl]
      obtain ⟨lines, h1, h2, h3, h4⟩ := ih (cur ++ [b]) (by rw [List.length_append]; simp only [List.length_singleton]; omega)
      refine ⟨lines, by rw [h1]; simp, h2, h3, ?_⟩
      rw [← h4, if_neg (by simp), List.length_append]
      simp

end MbedHexdumpAux

open MbedHexdumpAux

/-- C139. A dump has as many bytes as asked for, in lines of 21 bytes, of which the last may be shorter, each with its header and its
end. Missing: that the bytes are those of the caller, which is false, see `C139_false_bytes`. -/
theorem C139_lines_partial (m : Memory) (sp p len : Nat) : ∃ lines : List (List UInt8),
    lines.flatten.length = len ∧ (∀ l ∈ lines.dropLast, l.length = 21) ∧ (∀ l ∈ lines, 0 < l.length ∧ l.length ≤ 21) ∧
      hexdump m sp p len = lines.flatMap line := by
  obtain ⟨lines, h1, h2, h3, h4⟩ := dump_lines ((List.range len).map fun i => pushParameter m sp p (sp + i)) [] (by simp)
  refine ⟨lines, ?_, h2, h3, h4⟩
  rw [h1]
  simp

/-- C139. Whatever the data of the caller is, the first byte of a dump is the lowest byte of its address, and what follows the address
is the stack. -/
theorem C139_false_bytes (m : Memory) (sp p len : Nat) :
    bytesOf (hexdump m sp p len) =
      (data (fun a => if a < sp + 4 then UInt8.ofNat (p / 256 ^ (a - sp)) else m a) sp len) := by
  have hb : ∀ (bs : List UInt8) (n : Nat), bytesOf (dump bs n) = bs := by
    intro bs
    induction bs with
    | nil =>
      intro n
      rw [dump]
      by_cases h : n > 0
      · rw [if_pos h]; rfl
      · rw [if_neg h]; rfl
    | cons b bs ih =>
      intro n
      have ha : ∀ x y : List Out, bytesOf (x ++ y) = bytesOf x ++ bytesOf y := fun x y => List.filterMap_append
      have hn : ∀ x : List Out, bytesOf (Out.newline :: x) = bytesOf x := fun x => rfl
      have hc : ∀ x : List Out, bytesOf (Out.byte b :: x) = b :: bytesOf x := fun x => rfl
      have hh : bytesOf (if n = 0 then [Out.header] else []) = [] := by
        by_cases h1 : n = 0
        · rw [if_pos h1]; rfl
        · rw [if_neg h1]; rfl
      rw [dump, ha, hh, hc]
      by_cases h2 : n + 1 = maxBytesPerLine
      · rw [if_pos h2, hn, ih]; rfl
      · rw [if_neg h2, ih]; rfl
  unfold hexdump data
  rw [hb]
  apply List.map_congr_left
  intro i _
  unfold pushParameter
  simp only []
  by_cases h : i < 4
  · rw [if_pos (by omega), if_pos (by omega)]
  · rw [if_neg (by omega), if_neg (by omega)]

/-- C139. Two buffers with different bytes at one address have the same dump. -/
theorem C139_false_same : ∃ (m n : Memory) (sp p : Nat), data m p 4 ≠ data n p 4 ∧ hexdump m sp p 4 = hexdump n sp p 4 :=
  ⟨fun _ => 0, fun a => if a = 0x20 then 1 else 0, 0x80, 0x20, by decide, by decide⟩

example : hexdump (fun _ => 0xAA) 0x80 0x20001234 5 =
    [.header, .byte 0x34, .byte 0x12, .byte 0x00, .byte 0x20, .byte 0xAA, .newline] := by decide +kernel

end Mflt.Props
