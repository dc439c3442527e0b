import Verif.Lemmas.BufferedStorage

/-!
# C68: a coredump written through aligned blocks

`Spec.BufferedStorage` (`Spec/BufferedStorage.lean`) is the specification.
-/

namespace Mflt.Props

open BufferedStorage
open Spec.BufferedStorage (block blocks numBlocks pieces program)

/-- **C68 (partial).** A coredump whose header is at most one block long, and which is at least one block
long, is written in pieces behind the header, the header last. Whatever the pieces are and whichever
blocks the port refuses: nothing is accessed outside of the working buffers; the writes all succeed only
if exactly the blocks of the coredump were written, in order, the first one last, and then the working
buffers are as after a reset; otherwise some of them were written, in order, and not the first one. A port
that refuses everything from some block on is a reset at this point. If the port refuses nothing all writes
succeed.

Missing: see `C68_false_small_write_size` and `C68_false_small_dump`. -/
theorem C68_buffered_write_partial {W size : Nat} {port : Port} {hdr : Bytes} {ds : List Bytes}
    (h0 : 0 < hdr.length) (hW : hdr.length ≤ W) (hs1 : size % W = 0) (hs2 : W ≤ size) (hs3 : size < 2 ^ 32)
    (hfit : (hdr ++ ds.flatten).length ≤ size) (hbig : W ≤ (hdr ++ ds.flatten).length) :
    ∃ r s, writes W size port (init W) (pieces hdr.length ds ++ [(0, hdr)]) = some (r, s) ∧
      (r = true → s = { init W with log := blocks W (hdr ++ ds.flatten) }) ∧
      (r = false → ∃ n, n < (blocks W (hdr ++ ds.flatten)).length ∧
        s.log = (blocks W (hdr ++ ds.flatten)).take n) ∧
      ((∀ l b, port l b = true) → r = true) := by
  have hs3 : size < 4294967296 := hs3
  have hl : (List.replicate hdr.length (0 : UInt8)).length = hdr.length := List.length_replicate
  have hfit' := hfit
  rw [List.length_append] at hfit'
  have hw := writes_inv (port := port) h0 hW hs1 hs2 hs3 ds [(0, hdr)] (List.replicate hdr.length 0)
    (init W) (by omega) (by omega) (init_inv h0 hW)
  rw [hl] at hw
  rcases hw with ⟨s', n, e, hn, hlog, hport⟩ | ⟨s', e, hI⟩
  · refine ⟨false, s', e, fun hx => by simp at hx, fun _ => ?_, fun hall => absurd hall hport⟩
    rw [List.length_append, hl, ← List.length_append] at hn
    rw [done_header hl (by omega), done_take W _ hn] at hlog
    have hbl := blocks_eq (by omega) (hdr ++ ds.flatten) hbig
    have hdl := done_length W (hdr ++ ds.flatten) ((hdr ++ ds.flatten).length / W)
    refine ⟨n - 1, ?_, ?_⟩
    · rw [hbl, List.append_assoc, List.length_append (as := done _ _ _), hdl]
      have hpos : ∀ (X : List (Nat × Bytes)) y, 0 < (X ++ [y]).length := by simp
      exact Nat.lt_of_le_of_lt (Nat.sub_le_sub_right hn 1) (Nat.lt_add_of_pos_right (hpos _ _))
    · rw [hlog, hbl, List.append_assoc, List.take_append_of_le_length (by rw [hdl]; omega)]
  · obtain ⟨r, s'', e1, e2, e3, e4⟩ := header_write (port := port) h0 hW hs1 hs2 hs3 hbig hI
    refine ⟨r, s'', ?_, e2, e3, e4⟩
    rw [e, writes, e1]
    cases r <;> rfl

/-- The hypotheses, and the blocks written: a header of 12 bytes and 30 bytes in three pieces. -/
example : writes 16 64 (fun _ _ => true) (init 16)
      (pieces 12 [[1, 2, 3, 4, 5, 6], [7], List.replicate 23 8] ++ [(0, List.replicate 12 9)]) =
    some (true, { init 16 with log :=
      [(16, [5, 6, 7] ++ List.replicate 13 8), (32, List.replicate 10 8 ++ List.replicate 6 0),
       (0, List.replicate 12 9 ++ [1, 2, 3, 4])] }) := by decide +kernel

/-- Every block is aligned, as long as a block, inside the storage, and written once. -/
theorem C68_blocks {W size : Nat} {dump : Bytes} (hW : 0 < W) (hs1 : size % W = 0) (hs2 : W ≤ size)
    (hfit : dump.length ≤ size) :
    ((blocks W dump).map (·.1)).Nodup ∧
    ∀ b ∈ blocks W dump, b.1 % W = 0 ∧ b.2.length = W ∧ b.1 + W ≤ size := by
  have hn : numBlocks W dump * W ≤ size := by
    have hsz : size / W * W = size := by
      have := Nat.div_add_mod size W
      rw [Nat.mul_comm] at this; omega
    have : numBlocks W dump ≤ size / W := by
      unfold numBlocks
      rw [Nat.div_le_iff_le_mul_add_pred hW, Nat.mul_comm, hsz]
      omega
    calc numBlocks W dump * W ≤ size / W * W := Nat.mul_le_mul_right W this
      _ = size := hsz
  unfold blocks
  constructor
  · rw [List.map_append, List.map_map, List.nodup_append]
    refine ⟨?_, by simp, ?_⟩
    · rw [List.Nodup, List.pairwise_map]
      refine List.Pairwise.imp ?_ (List.nodup_range (n := numBlocks W dump - 1))
      intro a b hab h
      have h : (a + 1) * W = (b + 1) * W := h
      have := Nat.eq_of_mul_eq_mul_right hW h
      omega
    · intro a ha b hb
      simp only [List.map_cons, List.map_nil, List.mem_singleton] at hb
      obtain ⟨k, -, rfl⟩ := List.mem_map.mp ha
      have : 0 < (k + 1) * W := Nat.mul_pos (by omega) hW
      subst hb
      show (k + 1) * W ≠ 0
      omega
  · intro b hb
    rcases List.mem_append.mp hb with hb | hb
    · obtain ⟨k, hk, rfl⟩ := List.mem_map.mp hb
      rw [List.mem_range] at hk
      refine ⟨Nat.mul_mod_left _ _, block_length .., ?_⟩
      have : (k + 1 + 1) * W ≤ numBlocks W dump * W := Nat.mul_le_mul_right W (by omega)
      rw [Nat.add_mul (k + 1), Nat.one_mul] at this
      show (k + 1) * W + W ≤ size
      omega
    · rw [List.mem_singleton] at hb
      subst hb
      exact ⟨Nat.zero_mod _, block_length .., by omega⟩

theorem program_length {mem : Bytes} {b : Nat × Bytes} (h : b.1 + b.2.length ≤ mem.length) :
    (program mem b).length = mem.length := by
  simp only [program, List.length_append, List.length_take, List.length_drop]; omega

theorem program_get {mem : Bytes} {b : Nat × Bytes} (h : b.1 + b.2.length ≤ mem.length) (i : Nat) :
    (program mem b)[i]? = if b.1 ≤ i ∧ i < b.1 + b.2.length then b.2[i - b.1]? else mem[i]? := by
  have hl : (mem.take b.1).length = b.1 := by rw [List.length_take]; omega
  unfold program
  rw [List.getElem?_append, List.getElem?_append, List.length_append, hl]
  by_cases h1 : i < b.1
  · rw [if_pos (by omega), if_pos h1, if_neg (by omega), List.getElem?_take_of_lt h1]
  · by_cases h2 : i < b.1 + b.2.length
    · rw [if_pos h2, if_neg h1, if_pos (by omega)]
    · rw [if_neg h2, if_neg (by omega), List.getElem?_drop]
      congr 1; omega

theorem div_eq_of_block {W a i : Nat} (hW : 0 < W) (ha : a % W = 0) :
    (a ≤ i ∧ i < a + W) ↔ i / W * W = a := by
  have h1 : a / W * W = a := by
    have := Nat.div_add_mod a W
    rw [Nat.mul_comm] at this; omega
  have h2 := Nat.div_add_mod i W
  rw [Nat.mul_comm] at h2
  have h3 := Nat.mod_lt i hW
  constructor
  · intro h
    have : i / W = a / W := by
      rw [Nat.div_eq_iff hW]; omega
    rw [this, h1]
  · omega

/-- Blocks written one after the other, none of them twice. -/
theorem programs_get {W : Nat} (hW : 0 < W) (l : List (Nat × Bytes)) (mem : Bytes)
    (hl : ∀ b ∈ l, b.1 % W = 0 ∧ b.2.length = W ∧ b.1 + W ≤ mem.length) (hn : (l.map (·.1)).Nodup)
    (i : Nat) :
    (∀ b ∈ l, b.1 = i / W * W → (l.foldl program mem)[i]? = b.2[i - b.1]?) ∧
    ((∀ b ∈ l, b.1 ≠ i / W * W) → (l.foldl program mem)[i]? = mem[i]?) := by
  induction l generalizing mem with
  | nil => exact ⟨fun b hb => absurd hb (by simp), fun _ => rfl⟩
  | cons a l ih =>
    obtain ⟨a1, a2, a3⟩ := hl a (List.mem_cons_self ..)
    have hfit : a.1 + a.2.length ≤ mem.length := by omega
    rw [List.map_cons, List.nodup_cons] at hn
    obtain ⟨i1, i2⟩ := ih (program mem a) (fun b hb => by
      rw [program_length hfit]; exact hl b (List.mem_cons_of_mem _ hb)) hn.2
    have hget := program_get hfit i
    rw [a2] at hget
    rw [List.foldl_cons]
    constructor
    · intro b hb hbi
      rcases List.mem_cons.mp hb with rfl | hb
      · rw [i2 (fun b' hb' he => hn.1 (List.mem_map.mpr ⟨b', hb', by rw [he, hbi]⟩)), hget,
          if_pos ((div_eq_of_block hW a1).mpr hbi.symm)]
      · exact i1 b hb hbi
    · intro hne
      rw [i2 (fun b hb => hne b (List.mem_cons_of_mem _ hb)), hget, if_neg]
      intro hx
      exact hne a (List.mem_cons_self ..) ((div_eq_of_block hW a1).mp hx).symm

theorem block_get {W : Nat} {dump : Bytes} {i : Nat} (hW : 0 < W) (hi : i < dump.length) :
    (block W dump (i / W))[i - i / W * W]? = dump[i]? := by
  have h2 := Nat.div_add_mod i W
  rw [Nat.mul_comm] at h2
  have h3 := Nat.mod_lt i hW
  unfold block
  simp only
  rw [List.getElem?_append_left (by rw [List.length_take, List.length_drop]; omega),
    List.getElem?_take_of_lt (by omega), List.getElem?_drop]
  congr 1; omega

/-- **C68 (memory).** What the blocks leave in the storage: all of them, the coredump; some of them, but
not the last one, nothing where the header goes, so that there is no coredump. -/
theorem C68_memory {W : Nat} {dump mem : Bytes} (hW : 0 < W) (hs1 : mem.length % W = 0)
    (hs2 : W ≤ mem.length) (hfit : dump.length ≤ mem.length) :
    ((blocks W dump).foldl program mem).take dump.length = dump ∧
    ∀ n, n < (blocks W dump).length →
      (((blocks W dump).take n).foldl program mem).take W = mem.take W := by
  obtain ⟨hn, hb⟩ := C68_blocks (dump := dump) hW hs1 hs2 hfit
  constructor
  · apply List.ext_getElem?
    intro i
    rcases Nat.lt_or_ge i dump.length with hi | hi
    · rw [List.getElem?_take_of_lt hi, ← block_get hW hi]
      refine (programs_get hW _ mem hb hn i).1 (i / W * W, block W dump (i / W)) ?_ rfl
      unfold blocks
      rcases Nat.eq_zero_or_pos (i / W) with h0 | h0
      · rw [h0, Nat.zero_mul]; exact List.mem_append_right _ (by simp)
      · refine List.mem_append_left _ (List.mem_map.mpr ⟨i / W - 1, ?_, ?_⟩)
        · have : i / W + 1 ≤ numBlocks W dump := by
            unfold numBlocks
            rw [Nat.le_div_iff_mul_le hW, Nat.add_mul, Nat.one_mul]
            have := Nat.div_mul_le_self i W
            omega
          rw [List.mem_range]; omega
        · simp only [Nat.sub_add_cancel h0]
    · rw [List.getElem?_eq_none hi, List.getElem?_eq_none (by rw [List.length_take]; omega)]
  · intro n hlt
    have hsub : ∀ b ∈ (blocks W dump).take n, b ∈ blocks W dump := fun b hb => List.mem_of_mem_take hb
    have hget := programs_get hW ((blocks W dump).take n) mem (fun b h => hb b (hsub b h)) (by
      rw [List.map_take]; exact hn.sublist (List.take_sublist ..))
    apply List.ext_getElem?
    intro i
    rcases Nat.lt_or_ge i W with hi | hi
    · rw [List.getElem?_take_of_lt hi, List.getElem?_take_of_lt hi]
      refine (hget i).2 ?_
      intro b hbm
      rw [Nat.div_eq_of_lt hi, Nat.zero_mul]
      unfold blocks at hbm hlt
      rw [List.length_append, List.length_singleton] at hlt
      rw [List.take_append_of_le_length (by omega)] at hbm
      obtain ⟨k, -, rfl⟩ := List.mem_map.mp (List.mem_of_mem_take hbm)
      exact Nat.mul_ne_zero (by omega) (by omega)
    · rw [List.getElem?_eq_none (by rw [List.length_take]; omega),
        List.getElem?_eq_none (by rw [List.length_take]; omega)]

/-- A storage of 64 bytes after all blocks of a coredump of 42 bytes, and after the first two. -/
example : (blocks 16 (List.replicate 42 5)).length = 3 ∧
    ((blocks 16 (List.replicate 42 5)).foldl program (List.replicate 64 0xff)) =
      List.replicate 42 5 ++ List.replicate 6 0 ++ List.replicate 16 0xff ∧
    (((blocks 16 (List.replicate 42 5)).take 2).foldl program (List.replicate 64 0xff)).take 16 =
      List.replicate 16 0xff := by decide +kernel

/-- **C68 is false for blocks shorter than the header**, as with the write size of 8 that
stm32cube/u5/flash_coredump_storage.c uses for parts that program double words: all writes succeed, but
the bytes behind the header go into the wrong places. The storage does not hold the coredump. -/
theorem C68_false_small_write_size :
    ∃ (hdr : Bytes) (ds : List Bytes) (s : State), hdr.length = 12 ∧
      writes 8 64 (fun _ _ => true) (init 8) (pieces 12 ds ++ [(0, hdr)]) = some (true, s) ∧
      s.log = [(16, [5, 6, 7, 8, 1, 2, 3, 4]), (32, List.replicate 8 7), (0, List.replicate 8 9)] ∧
      (s.log.foldl program (List.replicate 64 0)).take 40 ≠ hdr ++ ds.flatten := by
  refine ⟨List.replicate 12 9, [[1, 2, 3, 4, 5, 6, 7, 8], List.replicate 20 7],
    (((writes 8 64 (fun _ _ => true) (init 8) (pieces 12 [[1, 2, 3, 4, 5, 6, 7, 8], List.replicate 20 7] ++
      [(0, List.replicate 12 9)])).get (by decide +kernel)).2), rfl, ?_, ?_, ?_⟩ <;> decide +kernel

/-- **C68 is false for coredumps shorter than a block**: all writes succeed, and nothing is written. -/
theorem C68_false_small_dump {W size : Nat} {hdr : Bytes} {ds : List Bytes} (h0 : 0 < hdr.length)
    (hs1 : size % W = 0) (hs2 : W ≤ size) (hs3 : size < 2 ^ 32)
    (hsmall : (hdr ++ ds.flatten).length < W) :
    ∃ s, writes W size (fun _ _ => true) (init W) (pieces hdr.length ds ++ [(0, hdr)]) = some (true, s) ∧
      s.log = [] := by
  have hs3 : size < 4294967296 := hs3
  rw [List.length_append] at hsmall
  have hl : (List.replicate hdr.length (0 : UInt8)).length = hdr.length := List.length_replicate
  have hw := writes_inv (port := fun _ _ => true) h0 (by omega) hs1 hs2 hs3 ds [(0, hdr)]
    (List.replicate hdr.length 0) (init W) (by omega) (by omega) (init_inv h0 (by omega))
  rw [hl] at hw
  rcases hw with ⟨s', n, e, hn, hlog, hport⟩ | ⟨s', e, hI⟩
  · exact absurd (fun _ _ => rfl) hport
  · rw [e]
    obtain ⟨hD, hB, dD, dB, dO, dZ, hL⟩ := hI
    have hlc : (List.replicate hdr.length (0 : UInt8) ++ ds.flatten).length < W := by
      rw [List.length_append, hl]; exact hsmall
    have hq := Nat.div_eq_of_lt hlc
    rw [hq, if_pos rfl] at dB
    rw [hq] at hL
    rw [List.length_append, hl] at hB
    have hb : add32 s'.hdr.bytesWritten hdr.length ≠ W := by
      rw [add32_eq (by rw [hB]; omega), hB]; omega
    unfold writes bufferedWrite
    rw [add32_eq (by omega), if_neg (by omega)]
    simp only [Nat.zero_div, Nat.zero_mul, ne_eq, not_true_eq_false, if_false]
    unfold loop
    rw [if_pos h0]
    simp only [List.drop_zero, Nat.sub_zero, Nat.zero_add]
    rw [Nat.min_eq_right (by omega), List.take_length]
    unfold put
    rw [if_pos rfl, hD, block_zero_header hl (by omega), Option.map_some]
    unfold tryFlush
    rw [if_neg (by exact hb), flushFullDat_not (by simp only [dB]; omega)]
    simp only
    unfold loop
    rw [if_neg (by omega)]
    exact ⟨_, rfl, hL⟩

/-- The case: 12 + 10 bytes with the default write size of 32. -/
example : (List.replicate 12 (0 : UInt8) ++ [List.replicate 10 7].flatten).length < 32 := by decide

end Mflt.Props
