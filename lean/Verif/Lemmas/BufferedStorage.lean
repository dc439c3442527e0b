import Verif.Spec.BufferedStorage
import Verif.Model.U32

/-! # Lemmas: buffered coredump storage -/

namespace Mflt.BufferedStorage

open Spec.BufferedStorage

theorem block_length (W : Nat) (c : Bytes) (k : Nat) : (block W c k).length = W := by
  simp only [block, List.length_append, List.length_take, List.length_drop, List.length_replicate]
  omega

/-- A block that is complete does not change. -/
theorem block_append {W : Nat} {c : Bytes} (d : Bytes) {k : Nat} (h : (k + 1) * W ≤ c.length) :
    block W (c ++ d) k = block W c k := by
  have h' : k * W + W ≤ c.length := by rw [← Nat.succ_mul]; exact h
  unfold block
  rw [List.drop_append_of_le_length (by omega),
    List.take_append_of_le_length (by rw [List.length_drop]; omega)]

theorem block_nil {W : Nat} {c : Bytes} {k : Nat} (h : c.length ≤ k * W) :
    block W c k = List.replicate W 0 := by
  unfold block
  rw [List.drop_eq_nil_of_le h]
  simp

/-- Data put behind what is there. -/
theorem memcpy_block {W : Nat} {c d : Bytes} {p : Nat} (h1 : p * W ≤ c.length)
    (h2 : c.length + d.length ≤ p * W + W) :
    memcpyIn (block W c p) (c.length - p * W) d = some (block W (c ++ d) p) := by
  have hb : block W c p = c.drop (p * W) ++ List.replicate (W - (c.length - p * W)) 0 := by
    unfold block
    simp only
    rw [List.take_of_length_le (by rw [List.length_drop]; omega), List.length_drop]
  have hb' : block W (c ++ d) p =
      c.drop (p * W) ++ d ++ List.replicate (W - (c.length - p * W) - d.length) 0 := by
    unfold block
    simp only
    rw [List.drop_append_of_le_length h1, List.take_of_length_le (by
      rw [List.length_append, List.length_drop]; omega), List.length_append, List.length_drop]
    congr 2
    omega
  unfold memcpyIn
  rw [if_pos (by rw [block_length]; omega), hb, hb']
  have hl : (c.drop (p * W)).length = c.length - p * W := List.length_drop ..
  congr 1
  congr 1
  · rw [← hl, List.take_left]
  · rw [List.drop_append, List.drop_eq_nil_of_le (by omega), List.nil_append, List.drop_replicate, hl]
    congr 1
    omega

/-- The blocks written once `n` blocks are complete. -/
def done (W : Nat) (c : Bytes) (n : Nat) : List (Nat × Bytes) :=
  (List.range (n - 1)).map fun k => ((k + 1) * W, block W c (k + 1))

theorem done_append {W : Nat} {c : Bytes} (d : Bytes) {n : Nat} (h : n * W ≤ c.length) :
    done W (c ++ d) n = done W c n := by
  unfold done
  apply List.map_congr_left
  intro k hk
  rw [List.mem_range] at hk
  have : (k + 1 + 1) * W ≤ n * W := Nat.mul_le_mul_right W (by omega)
  rw [block_append d (Nat.le_trans this h)]

theorem done_succ (W : Nat) (c : Bytes) {n : Nat} (h : 1 ≤ n) :
    done W c (n + 1) = done W c n ++ [(n * W, block W c n)] := by
  unfold done
  have : n + 1 - 1 = (n - 1) + 1 := by omega
  rw [this, List.range_succ, List.map_append, List.map_singleton]
  have : n - 1 + 1 = n := by omega
  rw [this]

/-- What the buffers and the storage hold after everything up to `c.length` was written, except for the
`H` bytes of the header. -/
structure Inv (W H : Nat) (c : Bytes) (s : State) : Prop where
  hdrData : s.hdr.data = block W c 0
  hdrBytes : s.hdr.bytesWritten = min c.length W - H
  datData : s.dat.data = if c.length / W = 0 then List.replicate W 0 else block W c (c.length / W)
  datBytes : s.dat.bytesWritten = if c.length / W = 0 then 0 else c.length % W
  datOffset : s.dat.bytesWritten ≠ 0 → s.dat.writeOffset = c.length / W * W
  datZero : s.dat.bytesWritten = 0 → s.dat = zeroBuf W
  log : s.log = done W c (c.length / W)

theorem flushFullDat_not {W : Nat} {port : Port} {s : State} (h : s.dat.bytesWritten ≠ W) :
    flushFullDat W port s = (true, s) := by
  unfold flushFullDat; rw [if_neg h]

theorem put_inv {W H : Nat} {port : Port} {c d : Bytes} {s : State} (hH : 0 < H) (hHW : H ≤ W)
    (hW : W < 4294967296) (hc : H ≤ c.length) (h : Inv W H c s) (hd : c.length % W + d.length ≤ W)
    (hd0 : 0 < d.length) :
    ∃ r s', put W port s (c.length / W * W) (c.length % W) d = some (r, s') ∧
      (r = true → Inv W H (c ++ d) s') ∧ (r = false → s'.log = s.log) ∧
      ((∀ l b, port l b = true) → r = true) := by
  have hWp : 0 < W := by omega
  have hdm : c.length / W * W + c.length % W = c.length := by
    rw [Nat.mul_comm]; exact Nat.div_add_mod _ _
  have hml := Nat.mod_lt c.length hWp
  have hidx : c.length % W = c.length - c.length / W * W := by omega
  have hmem := memcpy_block (W := W) (c := c) (d := d) (p := c.length / W) (by omega) (by omega)
  rw [← hidx] at hmem
  have hlen : (c ++ d).length = c.length + d.length := List.length_append
  unfold put
  by_cases hp : c.length / W = 0
  · -- the first block
    have hlt : c.length < W := by
      rcases Nat.div_eq_zero_iff.mp hp with h0 | h0
      · omega
      · exact h0
    have hmod : c.length % W = c.length := Nat.mod_eq_of_lt hlt
    rw [hp] at hmem ⊢
    rw [Nat.zero_mul, if_pos rfl, h.hdrData, hmem, Option.map_some]
    have hb : add32 s.hdr.bytesWritten d.length = c.length + d.length - H := by
      rw [add32_eq (by rw [h.hdrBytes]; omega), h.hdrBytes]; omega
    have hne : add32 s.hdr.bytesWritten d.length ≠ W := by rw [hb]; omega
    have hdb : s.dat.bytesWritten = 0 := by rw [h.datBytes, if_pos hp]
    unfold tryFlush
    rw [if_neg (by exact hne), flushFullDat_not (by simp only [hdb]; omega)]
    refine ⟨_, _, rfl, fun _ => ?_, fun _ => rfl, fun _ => rfl⟩
    have hq : (c.length + d.length) / W = 0 ∨
        ((c.length + d.length) / W = 1 ∧ c.length + d.length = W) := by
      rcases Nat.lt_or_ge (c.length + d.length) W with h1 | h1
      · exact Or.inl (Nat.div_eq_of_lt h1)
      · have : c.length + d.length = W := by omega
        exact Or.inr ⟨by rw [this]; exact Nat.div_self hWp, this⟩
    refine ⟨rfl, ?_, ?_, ?_, ?_, h.datZero, ?_⟩
    · simp only [hb, hlen]; omega
    · simp only [hlen, h.datData, hp, if_true]
      rcases hq with hq | ⟨hq, he⟩
      · rw [hq, if_pos rfl]
      · rw [hq, if_neg (by decide), block_nil (by rw [hlen]; omega)]
    · simp only [hlen, hdb]
      rcases hq with hq | ⟨hq, he⟩
      · rw [hq, if_pos rfl]
      · rw [hq, if_neg (by decide), he, Nat.mod_self]
    · intro hx; exact absurd hdb hx
    · simp only [hlen, h.log, hp]
      rcases hq with hq | ⟨hq, he⟩ <;> rw [hq] <;> rfl
  · -- a later block
    have hge : W ≤ c.length := by
      rcases Nat.lt_or_ge c.length W with h1 | h1
      · exact absurd (Nat.div_eq_of_lt h1) hp
      · exact h1
    have hpW : c.length / W * W ≠ 0 := Nat.mul_ne_zero hp (by omega)
    have hdd : s.dat.data = block W c (c.length / W) := by rw [h.datData, if_neg hp]
    have hdb : s.dat.bytesWritten = c.length % W := by rw [h.datBytes, if_neg hp]
    rw [if_neg hpW, hdd, hmem, Option.map_some]
    have hb : add32 s.dat.bytesWritten d.length = c.length % W + d.length := by
      rw [add32_eq (by rw [hdb]; omega), hdb]
    have hhb : s.hdr.bytesWritten = W - H := by rw [h.hdrBytes]; omega
    have hh0 : block W (c ++ d) 0 = block W c 0 := block_append d (by omega)
    unfold tryFlush
    rw [if_neg (by simp only [hhb]; omega)]
    by_cases hfull : c.length % W + d.length = W
    · -- the block is complete
      have hnew : c.length + d.length = (c.length / W + 1) * W := by rw [Nat.succ_mul]; omega
      have hq : (c.length + d.length) / W = c.length / W + 1 := by
        rw [hnew]; exact Nat.mul_div_cancel _ hWp
      have hm : (c.length + d.length) % W = 0 := by rw [hnew]; exact Nat.mul_mod_left _ _
      unfold flushFullDat
      rw [if_pos (by simp only [hb]; exact hfull)]
      unfold writeDat
      simp only
      by_cases hport : port s.log (c.length / W * W, block W (c ++ d) (c.length / W)) = true
      · rw [hport]
        simp only [Bool.not_true, Bool.false_eq_true, if_false]
        refine ⟨_, _, rfl, fun _ => ?_, fun hx => by simp at hx, fun _ => rfl⟩
        refine ⟨?_, ?_, ?_, ?_, ?_, fun _ => rfl, ?_⟩
        · simp only [hh0, h.hdrData]
        · simp only [hhb, hlen]; omega
        · simp only [hlen, hq, zeroBuf]
          rw [if_neg (Nat.succ_ne_zero _), block_nil (by rw [hlen]; omega)]
        · simp only [hlen, hq, hm, zeroBuf]
          rw [if_neg (Nat.succ_ne_zero _)]
        · intro hx; exact absurd rfl hx
        · simp only [hlen, hq]
          rw [done_succ W (c ++ d) (Nat.pos_of_ne_zero hp), done_append d (by omega), h.log]
      · rw [Bool.not_eq_true] at hport
        rw [hport]
        refine ⟨_, _, rfl, fun hx => by simp at hx, fun _ => rfl, fun hall => ?_⟩
        rw [hall] at hport; cases hport
    · -- not yet
      have hq : (c.length + d.length) / W = c.length / W := by
        rw [Nat.div_eq_iff hWp]
        have := Nat.succ_mul (c.length / W) W
        omega
      have hm : (c.length + d.length) % W = c.length % W + d.length := by
        have := Nat.div_add_mod (c.length + d.length) W
        rw [hq, Nat.mul_comm] at this
        omega
      rw [flushFullDat_not (by simp only [hb]; exact hfull)]
      refine ⟨_, _, rfl, fun _ => ?_, fun _ => rfl, fun _ => rfl⟩
      refine ⟨?_, ?_, ?_, ?_, ?_, ?_, ?_⟩
      · simp only [hh0, h.hdrData]
      · simp only [hhb, hlen]; omega
      · simp only [hlen, hq]
        rw [if_neg hp]
      · simp only [hlen, hq, hm, hb]
        rw [if_neg hp]
      · intro _; simp only [hlen, hq]
      · intro hx; simp only [hb] at hx; omega
      · simp only [hlen, hq, h.log]
        rw [done_append d (by omega)]

theorem done_fail {W H : Nat} {c : Bytes} {s : State} (h : Inv W H c s) (hW : 0 < W) (d : Bytes) :
    ∃ n, n ≤ (c ++ d).length / W ∧ s.log = done W (c ++ d) n := by
  refine ⟨c.length / W, Nat.div_le_div_right (by rw [List.length_append]; omega), ?_⟩
  rw [done_append d (Nat.div_mul_le_self _ _), h.log]

theorem loop_inv {W H : Nat} {port : Port} {data : Bytes} {startAddr : Nat} (hH : 0 < H) (hHW : H ≤ W)
    (hW : W < 4294967296) (fuel : Nat) (c : Bytes) (s : State) (i : Nat)
    (hc : H ≤ c.length) (h : Inv W H c s) (hal : i < data.length → c.length % W = 0)
    (hi : i < data.length → startAddr + i = c.length) (hf : data.length < i + fuel) :
    ∃ r s', loop W port startAddr data fuel s i = some (r, s') ∧
      (r = true → Inv W H (c ++ data.drop i) s') ∧
      (r = false → ∃ n, n ≤ (c ++ data.drop i).length / W ∧ s'.log = done W (c ++ data.drop i) n) ∧
      ((∀ l b, port l b = true) → r = true) := by
  induction fuel generalizing c s i with
  | zero =>
    unfold loop
    rw [if_neg (by omega), List.drop_eq_nil_of_le (by omega), List.append_nil]
    exact ⟨_, _, rfl, fun _ => h, fun hx => by simp at hx, fun _ => rfl⟩
  | succ fuel ih =>
    unfold loop
    by_cases hlt : i < data.length
    · rw [if_pos hlt]
      have hWp : 0 < W := by omega
      have ha := hal hlt
      have hdm : c.length / W * W + c.length % W = c.length := by
        rw [Nat.mul_comm]; exact Nat.div_add_mod _ _
      have hl : ((data.drop i).take (min W (data.length - i))).length = min W (data.length - i) := by
        rw [List.length_take, List.length_drop]; omega
      obtain ⟨r, s', e, e1, ef, e2⟩ := put_inv (port := port) (d := (data.drop i).take (min W (data.length - i)))
        hH hHW hW hc h (by rw [hl, ha]; omega) (by rw [hl]; omega)
      have hadd : startAddr + i = c.length / W * W := by rw [hi hlt]; omega
      rw [ha, ← hadd] at e
      rw [e]
      cases r with
      | false =>
        refine ⟨_, _, rfl, fun hx => by simp at hx, fun _ => ?_, fun hall => e2 hall⟩
        rw [ef rfl]; exact done_fail h hWp _
      | true =>
        simp only
        have hInv := e1 rfl
        have hsplit : c ++ (data.drop i).take (min W (data.length - i)) ++ data.drop (i + W) =
            c ++ data.drop i := by
          rw [List.append_assoc]
          congr 1
          rcases Nat.le_total W (data.length - i) with hm | hm
          · rw [Nat.min_eq_left hm, ← List.drop_drop, List.take_append_drop]
          · rw [Nat.min_eq_right hm, List.take_of_length_le (by rw [List.length_drop]; omega),
              List.drop_eq_nil_of_le (i := i + W) (by omega), List.append_nil]
        rw [← hsplit]
        refine ih _ s' (i + W) (by rw [List.length_append]; omega) hInv ?_ ?_ (by omega)
        · intro hlt'
          rw [List.length_append, hl, Nat.min_eq_left (by omega), Nat.add_mod_right, ha]
        · intro hlt'
          rw [List.length_append, hl, Nat.min_eq_left (by omega)]
          have := hi hlt
          omega
    · rw [if_neg hlt, List.drop_eq_nil_of_le (by omega), List.append_nil]
      exact ⟨_, _, rfl, fun _ => h, fun hx => by simp at hx, fun _ => rfl⟩

/-- One write behind what is there. -/
theorem bufferedWrite_inv {W H size : Nat} {port : Port} {c d : Bytes} {s : State} (hH : 0 < H)
    (hHW : H ≤ W) (hs1 : size % W = 0) (hs2 : W ≤ size) (hs3 : size < 4294967296) (hc : H ≤ c.length)
    (hfit : c.length + d.length ≤ size) (h : Inv W H c s) :
    ∃ r s', bufferedWrite W size port s c.length d = some (r, s') ∧
      (r = true → Inv W H (c ++ d) s') ∧
      (r = false → ∃ n, n ≤ (c ++ d).length / W ∧ s'.log = done W (c ++ d) n) ∧
      ((∀ l b, port l b = true) → r = true) := by
  have hWp : 0 < W := by omega
  have hW : W < 4294967296 := by omega
  have hdm : c.length / W * W + c.length % W = c.length := by
    rw [Nat.mul_comm]; exact Nat.div_add_mod _ _
  have hml := Nat.mod_lt c.length hWp
  unfold bufferedWrite
  rw [add32_eq (by omega), if_neg (by omega)]
  simp only
  by_cases hal : c.length / W * W ≠ c.length
  · rw [if_pos hal]
    generalize hn : min (c.length / W * W + W - c.length) d.length = n
    by_cases hd0 : d.length = 0
    · -- nothing to write: the buffer is touched but not changed
      have hd : d = [] := List.length_eq_zero_iff.mp hd0
      subst hd
      have hn0 : n = 0 := by rw [← hn]; simp
      subst hn0
      simp only [List.take_nil, List.drop_nil]
      have hmod : 0 < c.length % W := by omega
      have hmem := memcpy_block (W := W) (c := c) (d := []) (p := c.length / W) (by omega)
        (by simp only [List.length_nil]; omega)
      rw [List.append_nil] at hmem
      have hput : ∃ s', put W port s (c.length / W * W) (c.length - c.length / W * W) [] = some (true, s') ∧
          Inv W H c s' := by
        unfold put
        by_cases hp : c.length / W = 0
        · have hlt : c.length < W := by
            rcases Nat.div_eq_zero_iff.mp hp with h0 | h0
            · omega
            · exact h0
          rw [hp] at hmem ⊢
          rw [Nat.zero_mul, if_pos rfl, h.hdrData]
          rw [Nat.zero_mul] at hmem
          rw [hmem, Option.map_some]
          have hb : add32 s.hdr.bytesWritten ([] : Bytes).length = s.hdr.bytesWritten := by
            rw [add32_eq (by rw [h.hdrBytes, List.length_nil]; omega)]; rfl
          have hdb : s.dat.bytesWritten = 0 := by rw [h.datBytes, if_pos hp]
          unfold tryFlush
          rw [if_neg (by rw [hb, h.hdrBytes]; omega), flushFullDat_not (by simp only [hdb]; omega)]
          exact ⟨_, rfl, ⟨rfl, by rw [hb, h.hdrBytes], h.datData, h.datBytes, h.datOffset, h.datZero, h.log⟩⟩
        · have hpW : c.length / W * W ≠ 0 := Nat.mul_ne_zero hp (by omega)
          have hge : W ≤ c.length := by
            rcases Nat.lt_or_ge c.length W with h1 | h1
            · exact absurd (Nat.div_eq_of_lt h1) hp
            · exact h1
          have hdd : s.dat.data = block W c (c.length / W) := by rw [h.datData, if_neg hp]
          have hdb : s.dat.bytesWritten = c.length % W := by rw [h.datBytes, if_neg hp]
          rw [if_neg hpW, hdd, hmem, Option.map_some]
          have hb : add32 s.dat.bytesWritten ([] : Bytes).length = s.dat.bytesWritten := by
            rw [add32_eq (by rw [hdb, List.length_nil]; omega)]; rfl
          unfold tryFlush
          rw [if_neg (by simp only [h.hdrBytes]; omega), flushFullDat_not (by simp only [hb]; omega)]
          refine ⟨_, rfl, ⟨h.hdrData, h.hdrBytes, ?_, ?_, fun _ => rfl,
            fun hx => by simp only [hb] at hx; omega, h.log⟩⟩
          · simp only [if_neg hp]
          · simp only [hb, if_neg hp]; exact hdb
      obtain ⟨s', e, hI⟩ := hput
      rw [e]
      simp only
      unfold loop
      rw [if_neg (by simp), List.append_nil]
      exact ⟨_, _, rfl, fun _ => hI, fun hx => by simp at hx, fun _ => rfl⟩
    · have hl : (d.take n).length = n := by rw [List.length_take]; omega
      obtain ⟨r, s', e, e1, ef, e2⟩ := put_inv (port := port) (d := d.take n) hH hHW hW hc h
        (by rw [hl]; omega) (by rw [hl]; omega)
      have hidx : c.length - c.length / W * W = c.length % W := by omega
      rw [hidx, e]
      cases r with
      | false =>
        refine ⟨_, _, rfl, fun hx => by simp at hx, fun _ => ?_, fun hall => e2 hall⟩
        rw [ef rfl]; exact done_fail h hWp _
      | true =>
        simp only
        have hcl : (c ++ d.take n).length = c.length + n := by rw [List.length_append, hl]
        have := loop_inv (port := port) (data := d.drop n) (startAddr := c.length + n) hH hHW hW
          (d.length + 1) (c ++ d.take n) s' 0 (by rw [hcl]; omega) (e1 rfl) (by
            intro h0
            rw [List.length_drop] at h0
            have hnW : n = c.length / W * W + W - c.length := by omega
            rw [hcl, show c.length + n = (c.length / W + 1) * W by rw [Nat.succ_mul]; omega]
            exact Nat.mul_mod_left _ _) (by intro _; rw [hcl]; omega)
          (by rw [List.length_drop]; omega)
        rw [List.drop_zero, List.append_assoc, List.take_append_drop] at this
        exact this
  · rw [if_neg hal]
    have hal : c.length / W * W = c.length := by omega
    have := loop_inv (port := port) (data := d) (startAddr := c.length) hH hHW hW
      (d.length + 1) c s 0 hc h (by intro _; omega) (by intro _; omega) (by omega)
    rw [List.drop_zero] at this
    exact this

/-- All pieces. -/
theorem writes_inv {W H size : Nat} {port : Port} (hH : 0 < H) (hHW : H ≤ W) (hs1 : size % W = 0)
    (hs2 : W ≤ size) (hs3 : size < 4294967296) (ds : List Bytes) (rest : List (Nat × Bytes)) (c : Bytes)
    (s : State) (hc : H ≤ c.length) (hfit : c.length + ds.flatten.length ≤ size) (h : Inv W H c s) :
    (∃ s' n, writes W size port s (pieces c.length ds ++ rest) = some (false, s') ∧
        n ≤ (c ++ ds.flatten).length / W ∧ s'.log = done W (c ++ ds.flatten) n ∧
        ¬ ∀ l b, port l b = true) ∨
    ∃ s', writes W size port s (pieces c.length ds ++ rest) = writes W size port s' rest ∧
      Inv W H (c ++ ds.flatten) s' := by
  induction ds generalizing c s with
  | nil =>
    right
    exact ⟨s, rfl, by simpa using h⟩
  | cons d ds ih =>
    simp only [List.flatten_cons, List.length_append] at hfit
    obtain ⟨r, s', e, e1, ef, e2⟩ := bufferedWrite_inv (port := port) (d := d) hH hHW hs1 hs2 hs3 hc
      (by omega) h
    simp only [pieces, List.cons_append, writes, e]
    cases r with
    | false =>
      left
      obtain ⟨n, hn, hlog⟩ := ef rfl
      refine ⟨s', n, rfl, Nat.le_trans hn (Nat.div_le_div_right ?_), ?_,
        fun hall => absurd (e2 hall) (by decide)⟩
      · rw [List.flatten_cons, ← List.append_assoc, List.length_append (as := c ++ d)]; omega
      · rw [hlog, List.flatten_cons, ← List.append_assoc]
        exact (done_append _ (Nat.le_trans (Nat.mul_le_mul_right W hn) (Nat.div_mul_le_self _ _))).symm
    | true =>
      simp only
      have := ih (c ++ d) s' (by rw [List.length_append]; omega) (by rw [List.length_append]; omega)
        (e1 rfl)
      rw [List.length_append, List.append_assoc] at this
      rw [List.flatten_cons]
      exact this

theorem init_inv {W H : Nat} (hH : 0 < H) (hHW : H ≤ W) :
    Inv W H (List.replicate H 0) (init W) := by
  have hl : (List.replicate H (0 : UInt8)).length = H := List.length_replicate
  have hb : ∀ k, block W (List.replicate H 0) k = List.replicate W 0 := by
    intro k
    unfold block
    simp only [List.drop_replicate, List.take_replicate, List.length_replicate,
      List.replicate_append_replicate]
    congr 1; omega
  refine ⟨(hb 0).symm, ?_, ?_, ?_, fun hx => absurd rfl hx, fun _ => rfl, ?_⟩
  · simp only [init, zeroBuf, hl]; omega
  · simp only [init, zeroBuf, hb, ite_self]
  · simp only [init, zeroBuf, hl]
    split
    · rfl
    · next h =>
      have : H = W := by
        rcases Nat.lt_or_ge H W with h1 | h1
        · exact absurd (Nat.div_eq_of_lt h1) h
        · omega
      rw [this, Nat.mod_self]
  · rw [hl]
    have : H / W ≤ 1 := by
      have := Nat.div_le_div_right (c := W) hHW
      rwa [Nat.div_self (by omega)] at this
    simp [init, done, show H / W - 1 = 0 by omega]

theorem done_take (W : Nat) (c : Bytes) {n m : Nat} (h : n ≤ m) :
    done W c n = (done W c m).take (n - 1) := by
  unfold done
  rw [← List.map_take, List.take_range, Nat.min_eq_left (by omega)]

theorem done_length (W : Nat) (c : Bytes) (n : Nat) : (done W c n).length = n - 1 := by
  simp [done]

/-- Exchanging the header changes the first block only. -/
theorem block_header {W : Nat} {a b : Bytes} (h : a.length = b.length) (hW : a.length ≤ W) (d : Bytes)
    {k : Nat} (hk : 1 ≤ k) : block W (a ++ d) k = block W (b ++ d) k := by
  have : W ≤ k * W := Nat.le_mul_of_pos_left W hk
  unfold block
  rw [List.drop_append, List.drop_append, List.drop_eq_nil_of_le (as := a) (by omega),
    List.drop_eq_nil_of_le (as := b) (by omega), h]

theorem done_header {W : Nat} {a b : Bytes} (h : a.length = b.length) (hW : a.length ≤ W) (d : Bytes)
    (n : Nat) : done W (a ++ d) n = done W (b ++ d) n := by
  unfold done
  apply List.map_congr_left
  intro k _
  rw [block_header h hW d (by omega)]

theorem block_zero_header {W : Nat} {a b d : Bytes} (h : a.length = b.length) (hW : b.length ≤ W) :
    memcpyIn (block W (a ++ d) 0) 0 b = some (block W (b ++ d) 0) := by
  unfold memcpyIn
  rw [if_pos (by rw [block_length]; omega), List.take_zero, List.nil_append, Nat.zero_add]
  unfold block
  simp only [Nat.zero_mul, List.drop_zero]
  rw [List.take_append, List.take_append, List.take_of_length_le (l := a) (by omega),
    List.take_of_length_le (l := b) (by omega), h, ← h, List.append_assoc, List.drop_left, h,
    List.append_assoc]
  simp only [List.length_append, h]

/-- `blocks` as the model's invariant has it. -/
theorem blocks_eq {W : Nat} (hW : 0 < W) (dump : Bytes) (hd : W ≤ dump.length) :
    blocks W dump =
      done W dump (dump.length / W) ++
      (if dump.length % W = 0 then [] else [(dump.length / W * W, block W dump (dump.length / W))]) ++
      [(0, block W dump 0)] := by
  have hdm : dump.length / W * W + dump.length % W = dump.length := by
    rw [Nat.mul_comm]; exact Nat.div_add_mod _ _
  have hml := Nat.mod_lt dump.length hW
  have hq : 1 ≤ dump.length / W := (Nat.one_le_div_iff hW).mpr hd
  unfold blocks
  congr 1
  show done W dump (numBlocks W dump) = _
  unfold numBlocks
  split
  · next h =>
    have : (dump.length + W - 1) / W = dump.length / W := by
      rw [Nat.div_eq_iff hW]
      omega
    rw [this, List.append_nil]
  · next h =>
    have : (dump.length + W - 1) / W = dump.length / W + 1 := by
      rw [Nat.div_eq_iff hW, Nat.add_mul, Nat.one_mul]
      omega
    rw [this, done_succ W dump hq]

/-- The header, written last. -/
theorem header_write {W size : Nat} {port : Port} {hdr data : Bytes} {s : State} (hH : 0 < hdr.length)
    (hHW : hdr.length ≤ W) (hs1 : size % W = 0) (hs2 : W ≤ size) (hs3 : size < 4294967296)
    (hbig : W ≤ (hdr ++ data).length) (h : Inv W hdr.length (List.replicate hdr.length 0 ++ data) s) :
    ∃ r s', bufferedWrite W size port s 0 hdr = some (r, s') ∧
      (r = true → s' = { init W with log := blocks W (hdr ++ data) }) ∧
      (r = false → ∃ n, n < (blocks W (hdr ++ data)).length ∧ s'.log = (blocks W (hdr ++ data)).take n) ∧
      ((∀ l b, port l b = true) → r = true) := by
  have hWp : 0 < W := by omega
  have hl : (List.replicate hdr.length (0 : UInt8)).length = hdr.length := List.length_replicate
  have hlc : (List.replicate hdr.length (0 : UInt8) ++ data).length = (hdr ++ data).length := by
    simp only [List.length_append, hl]
  obtain ⟨hD, hB, dD, dB, dO, dZ, hL⟩ := h
  rw [hlc] at hB dD dB dO hL
  have hq : (hdr ++ data).length / W ≠ 0 := by
    have : 1 ≤ (hdr ++ data).length / W := (Nat.one_le_div_iff hWp).mpr hbig
    exact Nat.ne_of_gt this
  rw [if_neg hq] at dD dB
  rw [block_header hl (by omega) data (Nat.pos_of_ne_zero hq)] at dD
  rw [done_header hl (by omega)] at hL
  have hbl := blocks_eq hWp (hdr ++ data) hbig
  generalize hdump : hdr ++ data = dump at *
  unfold bufferedWrite
  rw [add32_eq (by omega), if_neg (by omega)]
  simp only [Nat.zero_div, Nat.zero_mul, ne_eq, not_true_eq_false, if_false]
  unfold loop
  rw [if_pos hH]
  simp only [List.drop_zero, Nat.sub_zero, Nat.zero_add]
  rw [Nat.min_eq_right hHW, List.take_length]
  unfold put
  rw [if_pos rfl, hD, block_zero_header (a := List.replicate hdr.length 0) hl hHW, hdump, Option.map_some]
  have hb : add32 s.hdr.bytesWritten hdr.length = W := by
    rw [add32_eq (by rw [hB]; omega), hB]; omega
  unfold tryFlush
  rw [if_pos (by exact hb)]
  simp only
  -- the loop ends after the header
  have hend : ∀ s', loop W port 0 hdr hdr.length s' W = some (true, s') := by
    intro s'; unfold loop; rw [if_neg (by omega)]
  by_cases hz : s.dat.bytesWritten = 0
  · have hm : dump.length % W = 0 := by rw [← dB]; exact hz
    rw [if_pos hm, List.append_nil] at hbl
    rw [if_neg (by simp only [hz]; decide)]
    simp only
    unfold writeHdr
    simp only
    by_cases hport : port s.log (0, block W dump 0) = true
    · rw [hport]
      simp only [Bool.not_true, Bool.false_eq_true, if_false]
      rw [flushFullDat_not (by simp only [hz]; omega)]
      simp only [hend]
      refine ⟨_, _, rfl, fun _ => ?_, fun hx => by simp at hx, fun _ => rfl⟩
      simp only [init, dZ hz, hL, hbl]
    · rw [Bool.not_eq_true] at hport
      rw [hport]
      simp only [Bool.not_false, if_true]
      refine ⟨_, _, rfl, fun hx => by simp at hx, fun _ => ?_, fun hall => ?_⟩
      · refine ⟨(done W dump (dump.length / W)).length, by rw [hbl, List.length_append]; simp, ?_⟩
        rw [hbl, List.take_left]; exact hL
      · rw [hall] at hport; cases hport
  · have hm : dump.length % W ≠ 0 := by rw [← dB]; exact hz
    rw [if_neg hm] at hbl
    rw [if_pos (by exact hz)]
    unfold writeDat
    simp only [dO hz, dD]
    by_cases hport : port s.log (dump.length / W * W, block W dump (dump.length / W)) = true
    · rw [hport]
      simp only [Bool.not_true, Bool.false_eq_true, if_false]
      unfold writeHdr
      simp only
      by_cases hport2 : port (s.log ++ [(dump.length / W * W, block W dump (dump.length / W))])
          (0, block W dump 0) = true
      · rw [hport2]
        simp only [Bool.not_true, Bool.false_eq_true, if_false]
        rw [flushFullDat_not (by simp only [zeroBuf]; omega)]
        simp only [hend]
        refine ⟨_, _, rfl, fun _ => ?_, fun hx => by simp at hx, fun _ => rfl⟩
        simp only [init, hL, hbl]
      · rw [Bool.not_eq_true] at hport2
        rw [hport2]
        simp only [Bool.not_false, if_true]
        refine ⟨_, _, rfl, fun hx => by simp at hx, fun _ => ?_, fun hall => ?_⟩
        · refine ⟨(done W dump (dump.length / W) ++ [(dump.length / W * W, block W dump (dump.length / W))]).length,
            by rw [hbl, List.length_append (bs := [(0, _)]), List.length_singleton]; exact Nat.lt_succ_self _, ?_⟩
          rw [hbl, List.take_left, hL]
        · rw [hall] at hport2; cases hport2
    · rw [Bool.not_eq_true] at hport
      rw [hport]
      simp only [Bool.not_false, if_true]
      refine ⟨_, _, rfl, fun hx => by simp at hx, fun _ => ?_, fun hall => ?_⟩
      · refine ⟨(done W dump (dump.length / W)).length, by rw [hbl, List.length_append]; simp; omega, ?_⟩
        rw [hbl, List.append_assoc, List.take_left]; exact hL
      · rw [hall] at hport; cases hport

end Mflt.BufferedStorage
