import Verif.Model.CircBuf
import Verif.Spec.ByteQueue

namespace Mflt

theorem mod_lt_two {a t : Nat} (h : a < 2 * t) : a % t = if a < t then a else a - t := by
  split
  · exact Nat.mod_eq_of_lt ‹_›
  · rw [Nat.mod_eq_sub_mod (by omega)]; exact Nat.mod_eq_of_lt (by omega)

theorem getElem?_memcpyIn {mem : Bytes} {idx : Nat} {d out : Bytes}
    (h : memcpyIn mem idx d = some out) (j : Nat) :
    out[j]? = if idx ≤ j ∧ j < idx + d.length then d[j - idx]? else mem[j]? := by
  unfold memcpyIn at h
  split at h <;> simp at h
  subst h
  rename_i hle
  simp only [List.getElem?_append, List.getElem?_drop, List.getElem?_take, List.length_take]
  split <;> split <;> (try split) <;> (try split) <;> (try omega) <;> (try rfl) <;>
    first
      | (congr 1; omega)
      | (simp_all; done)
      | skip

theorem length_memcpyIn {mem : Bytes} {idx : Nat} {d out : Bytes}
    (h : memcpyIn mem idx d = some out) : out.length = mem.length := by
  unfold memcpyIn at h
  split at h <;> simp at h
  subst h
  simp; omega

namespace CircBuf

/-- Well-formedness of a circular buffer; holds after `init` and is preserved by every call. -/
structure Inv (cb : CircBuf) : Prop where
  pos : 0 < cb.totalSpace
  len : cb.storage.length = cb.totalSpace
  size : cb.readSize ≤ cb.totalSpace
  off : cb.readOffset < cb.totalSpace

/-- The bytes the buffer holds, oldest first. -/
def contents (cb : CircBuf) : Bytes :=
  (List.range cb.readSize).map fun i => cb.storage.getD ((cb.readOffset + i) % cb.totalSpace) 0

@[simp] theorem length_contents (cb : CircBuf) : cb.contents.length = cb.readSize := by
  simp [contents]

theorem getElem?_contents {cb : CircBuf} (h : cb.Inv) (i : Nat) :
    cb.contents[i]? =
      if i < cb.readSize then cb.storage[(cb.readOffset + i) % cb.totalSpace]? else none := by
  have hm : (cb.readOffset + i) % cb.totalSpace < cb.totalSpace := Nat.mod_lt _ h.pos
  have hl := h.len
  simp only [contents, List.getElem?_map]
  split
  · rw [List.getElem?_range (by assumption)]
    simp only [Option.map_some, List.getD_eq_getElem?_getD]
    rw [List.getElem?_eq_getElem (by omega)]; simp
  · rw [List.getElem?_eq_none (by simp; omega)]; simp

theorem read_eq {cb : CircBuf} (h : cb.Inv) (off n : Nat) :
    cb.read off n =
      some (if off + n ≤ cb.contents.length then some ((cb.contents.drop off).take n)
            else none) := by
  have hpos := h.pos; have hlen := h.len; have hsz := h.size; have hoff := h.off
  unfold read
  simp only [length_contents]
  by_cases hc : cb.readSize < off + n
  · simp [hc, show ¬ (off + n ≤ cb.readSize) by omega]
  · simp only [hc, if_false, show off + n ≤ cb.readSize by omega, if_true]
    have hidx := Nat.mod_lt (cb.readOffset + off) hpos
    have hmod := mod_lt_two (a := cb.readOffset + off) (t := cb.totalSpace) (by omega)
    simp only [umod, show cb.totalSpace ≠ 0 by omega, if_false, Option.bind_eq_bind,
      Option.bind_some, gt_iff_lt]
    generalize hr : (cb.readOffset + off) % cb.totalSpace = r at *
    by_cases h1 : n < cb.totalSpace - r
    · simp only [h1, if_true, memcpyOut, show r + n ≤ cb.storage.length by omega,
        Option.bind_some, Nat.sub_self, ne_eq, not_true_eq_false, if_false]
      congr 2
      apply List.ext_getElem?
      intro i
      simp only [List.getElem?_take, List.getElem?_drop]
      split
      · rw [getElem?_contents h]
        rw [if_pos (by omega)]
        have hm2 := mod_lt_two (a := cb.readOffset + (off + i)) (t := cb.totalSpace) (by omega)
        rw [hm2]
        congr 1
        split at hmod <;> split <;> omega
      · rfl
    · simp only [h1, if_false, memcpyOut, show r + (cb.totalSpace - r) ≤ cb.storage.length by omega,
        if_true, Option.bind_some]
      have hcommon : ∀ i, i < n →
          (cb.storage.drop r ++ cb.storage)[i]? = cb.contents[off + i]? := by
        intro i hi
        rw [getElem?_contents h, if_pos (by omega)]
        have hm2 := mod_lt_two (a := cb.readOffset + (off + i)) (t := cb.totalSpace) (by omega)
        rw [hm2]
        simp only [List.getElem?_append, List.length_drop, List.getElem?_drop]
        split
        · congr 1; split at hmod <;> split <;> omega
        · congr 1; split at hmod <;> split <;> omega
      have htake : (cb.storage.drop r).take (cb.totalSpace - r) = cb.storage.drop r := by
        apply List.take_of_length_le; simp; omega
      rw [htake]
      by_cases h2 : n - (cb.totalSpace - r) = 0
      · simp only [h2, ne_eq, not_true_eq_false, if_false]
        show some (some (cb.storage.drop r)) = _
        congr 2
        apply List.ext_getElem?
        intro i
        by_cases hi : i < n
        · have := hcommon i hi
          rw [List.getElem?_take, if_pos hi, List.getElem?_drop (xs := cb.contents), ← this,
            List.getElem?_append]
          rw [if_pos (by simp; omega)]
        · simp only [List.getElem?_take, hi, if_false, List.getElem?_drop]
          rw [List.getElem?_eq_none (by omega)]
      · simp only [ne_eq, h2, not_false_eq_true, if_true,
          show 0 + (n - (cb.totalSpace - r)) ≤ cb.storage.length by omega, Option.bind_some,
          List.drop_zero]
        show some (some _) = _
        congr 2
        apply List.ext_getElem?
        intro i
        by_cases hi : i < n
        · have := hcommon i hi
          rw [List.getElem?_take, if_pos hi, List.getElem?_drop, ← this]
          simp only [List.getElem?_append, List.length_drop, List.getElem?_take]
          split
          · rfl
          · rw [if_pos (by omega)]
        · rw [List.getElem?_take, if_neg hi]
          apply List.getElem?_eq_none
          simp; omega

theorem consume_eq {cb : CircBuf} (h : cb.Inv) (n : Nat) :
    ∃ cb', cb.consume n = some (decide (n ≤ cb.readSize), cb') ∧ cb'.Inv ∧
      cb'.totalSpace = cb.totalSpace ∧
      cb'.readOffset = (if n ≤ cb.readSize then (cb.readOffset + n) % cb.totalSpace
        else cb.readOffset) ∧
      cb'.contents = if n ≤ cb.readSize then cb.contents.drop n else cb.contents := by
  have hpos := h.pos; have hlen := h.len; have hsz := h.size; have hoff := h.off
  unfold consume
  by_cases hc : cb.readSize < n
  · refine ⟨cb, ?_⟩
    simp [hc, show ¬ (n ≤ cb.readSize) by omega, h]
  · have hm := Nat.mod_lt (cb.readOffset + n) hpos
    have hinv : Inv { cb with readOffset := (cb.readOffset + n) % cb.totalSpace,
                              readSize := cb.readSize - n } :=
      ⟨hpos, hlen, by simp; omega, hm⟩
    refine ⟨{ cb with readOffset := (cb.readOffset + n) % cb.totalSpace,
                      readSize := cb.readSize - n }, ?_⟩
    refine ⟨by simp [hc, umod, show cb.totalSpace ≠ 0 by omega, show n ≤ cb.readSize by omega],
      hinv, rfl, by simp [show n ≤ cb.readSize by omega], ?_⟩
    rw [if_pos (by omega)]
    apply List.ext_getElem?
    intro i
    rw [getElem?_contents hinv, List.getElem?_drop, getElem?_contents h]
    have hmod := mod_lt_two (a := cb.readOffset + n) (t := cb.totalSpace) (by omega)
    simp only
    by_cases hi : i < cb.readSize - n
    · rw [if_pos hi, if_pos (by omega)]
      rw [Nat.mod_add_mod, Nat.add_assoc]
    · rw [if_neg hi, if_neg (by omega)]

theorem consumeFromEnd_eq {cb : CircBuf} (h : cb.Inv) (n : Nat) :
    (cb.consumeFromEnd n).1 = decide (n ≤ cb.readSize) ∧ (cb.consumeFromEnd n).2.Inv ∧
      (cb.consumeFromEnd n).2.totalSpace = cb.totalSpace ∧
      (cb.consumeFromEnd n).2.readOffset = cb.readOffset ∧
      (cb.consumeFromEnd n).2.contents =
        if n ≤ cb.readSize then cb.contents.take (cb.readSize - n) else cb.contents := by
  have hpos := h.pos; have hlen := h.len; have hsz := h.size; have hoff := h.off
  unfold consumeFromEnd
  by_cases hc : cb.readSize < n
  · simp [hc, show ¬ (n ≤ cb.readSize) by omega, h]
  · have hinv : Inv { cb with readSize := cb.readSize - n } := ⟨hpos, hlen, by simp; omega, hoff⟩
    simp only [hc, if_false, show n ≤ cb.readSize by omega, decide_true, true_and, if_true]
    refine ⟨hinv, ?_⟩
    apply List.ext_getElem?
    intro i
    rw [getElem?_contents hinv, List.getElem?_take, getElem?_contents h]
    by_cases hi : i < cb.readSize - n
    · rw [if_pos hi, if_pos hi, if_pos (by omega)]
    · rw [if_neg hi, if_neg hi]

theorem writeAtOffset_eq {cb : CircBuf} (h : cb.Inv) (off : Nat) (d : Bytes) :
    ∃ cb', cb.writeAtOffset off d =
        some (decide (off ≤ cb.readSize ∧ cb.readSize - off + d.length ≤ cb.totalSpace), cb') ∧
      cb'.Inv ∧ cb'.totalSpace = cb.totalSpace ∧ cb'.readOffset = cb.readOffset ∧
      cb'.contents =
        if off ≤ cb.readSize ∧ cb.readSize - off + d.length ≤ cb.totalSpace then
          Spec.ByteQueue.overwrite cb.contents off d else cb.contents := by
  have hpos := h.pos; have hlen := h.len; have hsz := h.size; have hoff := h.off
  unfold writeAtOffset
  by_cases hc : cb.readSize < off
  · refine ⟨cb, ?_⟩
    simp [hc, show ¬ (off ≤ cb.readSize) by omega, h]
  simp only [hc, if_false, getWriteSize]
  generalize hnb : (if d.length > off then d.length - off else 0) = nb
  have hnb' : nb = d.length - off := by rw [← hnb]; split <;> omega
  clear hnb
  by_cases hf : cb.totalSpace - cb.readSize < nb
  · refine ⟨cb, ?_⟩
    simp [hf, show ¬ (cb.readSize - off + d.length ≤ cb.totalSpace) by omega, h]
  have hfit : off ≤ cb.readSize ∧ cb.readSize - off + d.length ≤ cb.totalSpace := by omega
  simp only [hf, if_false, umod, show cb.totalSpace ≠ 0 by omega, Option.bind_eq_bind,
    Option.bind_some, gt_iff_lt, hfit, and_self, decide_true, if_true]
  have hw := Nat.mod_lt (cb.readOffset + cb.readSize - off) hpos
  have hmod := mod_lt_two (a := cb.readOffset + cb.readSize - off) (t := cb.totalSpace) (by omega)
  generalize hwd : (cb.readOffset + cb.readSize - off) % cb.totalSpace = w at *
  generalize hb : (if d.length < cb.totalSpace - w then d.length else cb.totalSpace - w) = b
  have hb' : b = min d.length (cb.totalSpace - w) := by rw [← hb]; split <;> omega
  clear hb
  -- first memcpy
  have hm1 : memcpyIn cb.storage w (d.take b) =
      some (cb.storage.take w ++ d.take b ++ cb.storage.drop (w + (d.take b).length)) := by
    unfold memcpyIn; rw [if_pos (by simp; omega)]
  rw [hm1]
  generalize hst1 : cb.storage.take w ++ d.take b ++ cb.storage.drop (w + (d.take b).length) = st1
    at hm1
  have hl1 := length_memcpyIn hm1
  have hg1 := getElem?_memcpyIn hm1
  simp only [Option.bind_some]
  obtain ⟨st2, hm2, hl2, hg2⟩ : ∃ st2,
      (if d.length - b ≠ 0 then memcpyIn st1 0 (d.drop b) else some st1) = some st2 ∧
      st2.length = cb.totalSpace ∧
      ∀ j, j < cb.totalSpace → st2[j]? =
        if (if w ≤ j then j - w else j + cb.totalSpace - w) < d.length then
          d[if w ≤ j then j - w else j + cb.totalSpace - w]? else cb.storage[j]? := by
    by_cases hr : d.length - b = 0
    · refine ⟨st1, by simp [hr], by omega, ?_⟩
      intro j hj
      rw [hg1]
      have : (d.take b) = d := List.take_of_length_le (by omega)
      rw [this]
      by_cases hwj : w ≤ j
      · simp only [hwj, true_and, if_true]
        split <;> split <;> first | rfl | omega
      · simp only [hwj, false_and, if_false]
        rw [if_neg (by omega)]
    · have hm2 : memcpyIn st1 0 (d.drop b) =
          some (st1.take 0 ++ d.drop b ++ st1.drop (0 + (d.drop b).length)) := by
        unfold memcpyIn; rw [if_pos (by simp; omega)]
      refine ⟨st1.take 0 ++ d.drop b ++ st1.drop (0 + (d.drop b).length),
        by simp only [ne_eq, hr, not_false_eq_true, if_true]; exact hm2,
        by rw [length_memcpyIn hm2]; omega, ?_⟩
      intro j hj
      rw [getElem?_memcpyIn hm2, hg1]
      simp only [List.length_drop, List.length_take, List.getElem?_drop, List.getElem?_take]
      by_cases hwj : w ≤ j
      · simp only [hwj, true_and, if_true]
        rw [if_neg (by omega)]
        by_cases hjj : j < w + min b d.length
        · rw [if_pos hjj, if_pos (by omega), if_pos (by omega)]
        · rw [if_neg hjj, if_neg (by omega)]
      · simp only [hwj, false_and, if_false]
        by_cases hjj : j + cb.totalSpace - w < d.length
        · rw [if_pos hjj, if_pos (by omega)]
          congr 1; omega
        · rw [if_neg hjj, if_neg (by omega)]
  refine ⟨{ cb with storage := st2, readSize := cb.readSize + nb }, ?_, ?_⟩
  · split
    · rename_i hb; rw [if_pos hb] at hm2; rw [hm2]; rfl
    · rename_i hb; rw [if_neg hb] at hm2; simp at hm2; rw [hm2]; rfl
  have hinv : Inv { cb with storage := st2, readSize := cb.readSize + nb } :=
    ⟨hpos, hl2, by simp; omega, hoff⟩
  refine ⟨hinv, rfl, rfl, ?_⟩
  apply List.ext_getElem?
  intro i
  rw [getElem?_contents hinv]
  simp only [Spec.ByteQueue.overwrite, length_contents]
  by_cases hi : i < cb.readSize + nb
  · rw [if_pos hi]
    have hmi := mod_lt_two (a := cb.readOffset + i) (t := cb.totalSpace) (by omega)
    rw [hg2 _ (Nat.mod_lt _ hpos)]
    have hci := getElem?_contents h i
    generalize hj : (cb.readOffset + i) % cb.totalSpace = j at *
    have hd : (if w ≤ j then j - w else j + cb.totalSpace - w) =
        (if cb.readSize - off ≤ i then i - (cb.readSize - off)
          else i + cb.totalSpace - (cb.readSize - off)) ∨
        (i = cb.readSize - off + cb.totalSpace) := by
      split at hmod <;> split at hmi <;> split <;> split <;> omega
    rcases hd with hd | hd
    · rw [hd]
      simp only [List.getElem?_append, List.length_append, List.length_take, length_contents,
        List.getElem?_take, List.getElem?_drop]
      rw [show min (cb.readSize - off) cb.readSize = cb.readSize - off by omega]
      by_cases hio : cb.readSize - off ≤ i
      · simp only [hio, if_true]
        by_cases hid : i - (cb.readSize - off) < d.length
        · rw [if_pos hid, if_pos (by omega), if_neg (by omega)]
        · rw [if_neg hid, if_neg (by omega)]
          rw [show cb.readSize - off + d.length + (i - (cb.readSize - off + d.length)) = i by omega]
          rw [hci, if_pos (by omega)]
      · simp only [hio, if_false]
        rw [if_neg (by omega), if_pos (by omega), if_pos (by omega), if_pos (by omega),
          hci, if_pos (by omega)]
    · omega
  · rw [if_neg hi]
    symm
    apply List.getElem?_eq_none
    simp; omega

theorem write_eq {cb : CircBuf} (h : cb.Inv) (d : Bytes) :
    ∃ cb', cb.write d = some (decide (cb.readSize + d.length ≤ cb.totalSpace), cb') ∧
      cb'.Inv ∧ cb'.totalSpace = cb.totalSpace ∧ cb'.readOffset = cb.readOffset ∧
      cb'.contents =
        if cb.readSize + d.length ≤ cb.totalSpace then cb.contents ++ d else cb.contents := by
  obtain ⟨cb', h1, h2, h3, h4, h5⟩ := writeAtOffset_eq h 0 d
  refine ⟨cb', ?_, h2, h3, h4, ?_⟩
  · unfold write; rw [h1]; simp
  · rw [h5]
    simp only [Nat.zero_le, Nat.sub_zero, true_and, Spec.ByteQueue.overwrite, length_contents]
    have e1 : cb.contents.take cb.readSize = cb.contents := List.take_of_length_le (by simp)
    have e2 : cb.contents.drop (cb.readSize + d.length) = [] :=
      List.drop_eq_nil_of_le (by simp)
    rw [e1, e2, List.append_nil]

theorem init_inv {n : Nat} {cb : CircBuf} (h : init n = some cb) :
    cb.Inv ∧ cb.contents = [] ∧ cb.totalSpace = n := by
  unfold init at h
  split at h <;> simp at h
  subst h
  exact ⟨⟨by simp; omega, by simp, by simp, by simp; omega⟩, by simp [contents], rfl⟩

end CircBuf
end Mflt
