import Verif.Model.Rle
import Verif.Spec.Rle
import Verif.Spec.RleClient
import Verif.Props.Varint

/-! # Invariant of the run-length encoder -/

namespace Mflt.Rle

open Mflt.Props Mflt.Spec.Rle

theorem usub32_eq {a b : Nat} (h : b ≤ a) (ha : a < 2 ^ 32) : usub32 a b = a - b := by
  unfold usub32; rw [show a + 2 ^ 32 - b = (a - b) + 2 ^ 32 by omega, Nat.add_mod_right,
    Nat.mod_eq_of_lt (by omega)]

/-- `w` is a well-formed group that stands for bytes `lo .. hi` of `data`. -/
structure Group (data : Bytes) (w : WriteInfo) (lo hi : Nat) : Prop where
  avail : w.available = true
  inRange : w.writeStartOffset + w.writeLen ≤ data.length
  lohi : lo ≤ hi
  hiLe : hi ≤ data.length
  hdr : 1 ≤ w.header.length ∧ w.header.length ≤ 5
  expands : ∀ fuel rest, expandN (fuel + 1) (w.bytes data ++ rest) =
    (expandN fuel rest).map ((data.drop lo).take (hi - lo) ++ ·)

/-- Header lengths. -/
theorem si32_header (value : BitVec 32) :
    ∃ h, Varint.encodeSi32 value = some h ∧ 1 ≤ h.length ∧ h.length ≤ 5 ∧
      (∀ rest, ∃ n, Spec.Varint.decode (h ++ rest) = some (n, rest) ∧
        Spec.Varint.unzigzag n = value.toInt) := by
  obtain ⟨h, n, h1, h2, h3, h4⟩ := C06_zigzag_roundtrip value []
  refine ⟨h, h1, ?_, h4, fun rest => ?_⟩
  · cases h with
    | nil => simp [Spec.Varint.decode] at h2
    | cons => simp
  · obtain ⟨h', n', g1, g2, g3, -⟩ := C06_zigzag_roundtrip value rest
    rw [h1] at g1; cases g1
    exact ⟨n', g2, g3⟩

theorem toInt_ofNat_small {n : Nat} (h : n < 2 ^ 31) : (BitVec.ofNat 32 n).toInt = n := by
  rw [BitVec.toInt_ofNat', Int.bmod_def]; split <;> omega

theorem toInt_neg_small {n : Nat} (h : n < 2 ^ 31) : (-(BitVec.ofNat 32 n)).toInt = -(n : Int) := by
  rw [BitVec.toInt_neg, toInt_ofNat_small h, Int.bmod_def]; split <;> omega

theorem header_ne_nil {h : Bytes} (hl : 1 ≤ h.length) (rest : Bytes) :
    ∃ a l, h ++ rest = a :: l := by
  cases h with
  | nil => simp at hl
  | cons a l => exact ⟨a, l ++ rest, rfl⟩

/-- Expanding a literal group. -/
theorem expandN_literal {h : Bytes} {k : Nat} (hl : 1 ≤ h.length)
    (hd : ∀ rest, ∃ n, Spec.Varint.decode (h ++ rest) = some (n, rest) ∧
      Spec.Varint.unzigzag n = -(k : Int)) (lit : Bytes) (hk : lit.length = k) (fuel : Nat)
    (rest : Bytes) :
    expandN (fuel + 1) (h ++ lit ++ rest) = (expandN fuel rest).map (lit ++ ·) := by
  obtain ⟨n, h1, h2⟩ := hd (lit ++ rest)
  obtain ⟨a, l, hal⟩ := header_ne_nil hl (lit ++ rest)
  rw [List.append_assoc]
  rw [hal] at h1 ⊢
  conv => lhs; unfold expandN
  simp only [h1, Option.bind_eq_bind, Option.bind_some, h2]
  rw [if_neg (by omega), if_pos (by simp; omega)]
  have : (- -(k : Int)).toNat = k := by omega
  rw [this, List.drop_left' hk, List.take_left' hk]
  cases expandN fuel rest <;> simp

/-- Expanding a repeat group. -/
theorem expandN_repeat {h : Bytes} {k : Nat} (hl : 1 ≤ h.length) (hk : 0 < k)
    (hd : ∀ rest, ∃ n, Spec.Varint.decode (h ++ rest) = some (n, rest) ∧
      Spec.Varint.unzigzag n = (k : Int)) (b : UInt8) (fuel : Nat) (rest : Bytes) :
    expandN (fuel + 1) (h ++ [b] ++ rest) = (expandN fuel rest).map (List.replicate k b ++ ·) := by
  obtain ⟨n, h1, h2⟩ := hd (b :: rest)
  obtain ⟨a, l, hal⟩ := header_ne_nil hl (b :: rest)
  rw [List.append_assoc, List.singleton_append]
  rw [hal] at h1 ⊢
  conv => lhs; unfold expandN
  simp only [h1, Option.bind_eq_bind, Option.bind_some, h2]
  rw [if_pos (by omega)]
  simp only [Int.toNat_natCast]
  cases expandN fuel rest <;> simp

/-- The last `k` bytes of `data` all equal `b`. -/
def RunAt (data : Bytes) (b : UInt8) (k : Nat) : Prop :=
  k ≤ data.length ∧ data.drop (data.length - k) = List.replicate k b

/-- What holds between bytes, after `data` has been fed. -/
structure Inv (data : Bytes) (ctx : Ctx) : Prop where
  curr : ctx.currOffset = data.length
  seq : ctx.seqStartOffset + ctx.seqCount = data.length
  empty : data = [] → ctx.state = .init ∧ ctx.numRepeats = 0
  nonempty : data ≠ [] → ctx.state ≠ .init ∧ ctx.numRepeats + 1 ≤ ctx.seqCount ∧
    RunAt data ctx.lastByte (ctx.numRepeats + 1)
  rep : ctx.state = .repeatSeq → ctx.seqCount = ctx.numRepeats + 1 ∧ 2 ≤ ctx.seqCount
  size : ctx.totalRleSize ≤ ctx.seqStartOffset + ctx.seqStartOffset / 64 +
    (if ctx.state = .repeatSeq ∧ 3 ≤ ctx.seqCount then 1 else 0)

theorem inv_zero : Inv [] Ctx.zero := by
  constructor <;> simp [Ctx.zero]

theorem RunAt.snoc_same {data : Bytes} {b : UInt8} {k : Nat} (h : RunAt data b k) :
    RunAt (data ++ [b]) b (k + 1) := by
  obtain ⟨h1, h2⟩ := h
  refine ⟨by simp; omega, ?_⟩
  rw [List.length_append, List.length_singleton,
    show data.length + 1 - (k + 1) = data.length - k by omega,
    List.drop_append_of_le_length (by omega), h2, List.replicate_succ']

theorem RunAt.one (data : Bytes) (b : UInt8) : RunAt (data ++ [b]) b 1 := by
  refine ⟨by simp, by simp⟩

theorem handle_literal (data : Bytes) (ctx : Ctx) (hs : ctx.state ≠ .repeatSeq)
    (hr : ctx.seqStartOffset + ctx.seqCount ≤ data.length) (hd : data.length < 2 ^ 31) :
    ∃ h, handleChange ctx = some { ctx with
        writeInfo := ⟨true, h, ctx.seqStartOffset, ctx.seqCount⟩
        totalRleSize := ctx.totalRleSize + (h.length + ctx.seqCount)
        seqStartOffset := usub32 ctx.currOffset ctx.numRepeats
        seqCount := ctx.numRepeats } ∧
      Group data ⟨true, h, ctx.seqStartOffset, ctx.seqCount⟩ ctx.seqStartOffset
        (ctx.seqStartOffset + ctx.seqCount) ∧ h.length ≤ 1 + ctx.seqCount / 64 := by
  have hlen := C06_zigzag_length (-(BitVec.ofNat 32 ctx.seqCount))
  obtain ⟨h, h1, h2, h3, h4⟩ := si32_header (-(BitVec.ofNat 32 ctx.seqCount))
  rw [toInt_neg_small (by omega)] at h4 hlen
  refine ⟨h, ?_, ⟨rfl, hr, by omega, hr, ⟨h2, h3⟩, fun fuel rest => ?_⟩, ?_⟩
  · simp [handleChange, hs, h1]
  · rw [WriteInfo.bytes, Nat.add_sub_cancel_left]
    exact expandN_literal h2 h4 _ (by simp; omega) fuel rest
  · have a := hlen h h1 1 (by omega)
    have b := hlen h h1 2 (by omega)
    by_cases c1 : ctx.seqCount ≤ 64
    · have := a.mpr (by omega); omega
    · by_cases c2 : ctx.seqCount ≤ 8192
      · have := b.mpr (by omega); omega
      · omega

theorem handle_repeat (data : Bytes) (ctx : Ctx) (hs : ctx.state = .repeatSeq) (b : UInt8)
    (hr : ctx.seqStartOffset + ctx.seqCount = data.length) (hd : data.length < 2 ^ 31)
    (hrun : data.drop ctx.seqStartOffset = List.replicate ctx.seqCount b) (h2 : 2 ≤ ctx.seqCount) :
    ∃ h, handleChange ctx = some { ctx with
        writeInfo := ⟨true, h, ctx.seqStartOffset, 1⟩
        totalRleSize := ctx.totalRleSize + (h.length + 1)
        seqStartOffset := ctx.currOffset
        seqCount := 0 } ∧
      Group data ⟨true, h, ctx.seqStartOffset, 1⟩ ctx.seqStartOffset data.length ∧
      h.length + 1 + (if 3 ≤ ctx.seqCount then 1 else 0) ≤ ctx.seqCount := by
  have hlen := C06_zigzag_length (BitVec.ofNat 32 ctx.seqCount)
  obtain ⟨h, h1, h2', h3, h4⟩ := si32_header (BitVec.ofNat 32 ctx.seqCount)
  rw [toInt_ofNat_small (by omega)] at h4 hlen
  refine ⟨h, ?_, ⟨rfl, by show ctx.seqStartOffset + 1 ≤ _; omega, by omega, by omega, ⟨h2', h3⟩,
    fun fuel rest => ?_⟩, ?_⟩
  · simp [handleChange, hs, h1]
  · have e1 : (data.drop ctx.seqStartOffset).take 1 = [b] := by
      rw [hrun, List.take_replicate, Nat.min_eq_left (by omega)]; rfl
    have e2 : (data.drop ctx.seqStartOffset).take (data.length - ctx.seqStartOffset) =
        List.replicate ctx.seqCount b := by
      rw [← hrun, List.take_of_length_le (by simp)]
    simp only [WriteInfo.bytes, e1, e2]
    exact expandN_repeat h2' (by omega) h4 b fuel rest
  · have a := hlen h h1 1 (by omega)
    have b := hlen h h1 2 (by omega)
    by_cases c1 : ctx.seqCount ≤ 63
    · have := a.mpr (by omega); split <;> omega
    · by_cases c2 : ctx.seqCount ≤ 8191
      · have := b.mpr (by omega); split <;> omega
      · split <;> omega

theorem Group.extend {data : Bytes} {w : WriteInfo} {lo hi : Nat} (g : Group data w lo hi)
    (more : Bytes) : Group (data ++ more) w lo hi := by
  have h1 := g.inRange
  have h2 := g.hiLe
  have h3 := g.lohi
  refine ⟨g.avail, by simp; omega, g.lohi, by simp; omega, g.hdr, fun fuel rest => ?_⟩
  have e : ∀ a k, a + k ≤ data.length →
      ((data ++ more).drop a).take k = (data.drop a).take k := by
    intro a k hk
    rw [List.drop_append_of_le_length (by omega), List.take_append_of_le_length (by simp; omega)]
  have := g.expands fuel rest
  simp only [WriteInfo.bytes] at this ⊢
  rw [e _ _ h1, e _ _ (by omega)]
  exact this

/-- One byte: either the group in progress grows, or exactly one group is completed. -/
theorem step_spec (data : Bytes) (ctx : Ctx) (b : UInt8) (hi : Inv data ctx)
    (hd : data.length + 1 < 2 ^ 31) (ha : ctx.writeInfo = WriteInfo.zero) :
    ∃ ctx', stepByte ctx b = some ctx' ∧ Inv (data ++ [b]) ctx' ∧
      ((ctx'.writeInfo = WriteInfo.zero ∧ ctx'.seqStartOffset = ctx.seqStartOffset ∧
          ctx'.totalRleSize = ctx.totalRleSize) ∨
       (Group (data ++ [b]) ctx'.writeInfo ctx.seqStartOffset ctx'.seqStartOffset ∧
          ctx'.totalRleSize = ctx.totalRleSize + (ctx'.writeInfo.bytes (data ++ [b])).length)) := by
  obtain ⟨hcurr, hseq, hempty, hne, hrep, hsize⟩ := hi
  have hbl : ∀ {w lo hi'} , Group (data ++ [b]) w lo hi' →
      (w.bytes (data ++ [b])).length = w.header.length + w.writeLen := by
    intro w lo hi' g
    have := g.inRange
    simp only [WriteInfo.bytes, List.length_append, List.length_take, List.length_drop] at this ⊢
    omega
  by_cases hnil : data = []
  · -- first byte
    subst hnil
    obtain ⟨h1, h2⟩ := hempty rfl
    have hs0 : ctx.seqStartOffset = 0 := by simp at hseq; omega
    have hc0 : ctx.seqCount = 0 := by simp at hseq; omega
    simp at hcurr
    refine ⟨{ ctx with numRepeats := 0, state := .nonRepeatSeq, lastByte := b, seqCount := 1,
                       currOffset := 1 }, by simp [stepByte, h1, hcurr, hc0], ?_,
      Or.inl ⟨ha, rfl, rfl⟩⟩
    constructor
    · simp
    · simp [hs0]
    · simp
    · intro _
      exact ⟨by simp, by simp, RunAt.one [] b⟩
    · simp
    · simp [hs0, h1] at hsize ⊢; omega
  · obtain ⟨hst, hnr, hrun⟩ := hne hnil
    have hc0 : ctx.currOffset ≠ 0 := by
      rw [hcurr]; exact fun h => hnil (List.length_eq_zero_iff.mp h)
    by_cases hb : ctx.lastByte = b
    · -- a repeated byte
      have hrun' : RunAt (data ++ [b]) b (ctx.numRepeats + 1 + 1) := by
        rw [hb] at hrun; exact hrun.snoc_same
      cases hstate : ctx.state with
      | init => exact absurd hstate hst
      | repeatSeq =>
        obtain ⟨r1, r2⟩ := hrep hstate
        refine ⟨{ ctx with numRepeats := ctx.numRepeats + 1, state := .repeatSeq, lastByte := b,
                           seqCount := ctx.seqCount + 1, currOffset := ctx.currOffset + 1 },
          by simp [stepByte, hstate, hc0, hb, r1], ?_, Or.inl ⟨ha, rfl, rfl⟩⟩
        constructor
        · simp [hcurr]
        · simp; omega
        · simp
        · intro _
          exact ⟨by simp, by simp; omega, hrun'⟩
        · intro _; simp; omega
        · simp only [hstate] at hsize
          simp at hsize ⊢
          split at hsize <;> split <;> omega
      | nonRepeatSeq =>
        simp only [hstate] at hsize
        simp at hsize
        by_cases h2 : 1 ≤ ctx.numRepeats
        · -- third equal byte: the literal before the run is complete
          have hus : usub32 ctx.seqCount (ctx.numRepeats + 1) = ctx.seqCount - (ctx.numRepeats + 1) :=
            usub32_eq hnr (by omega)
          obtain ⟨h, e1, g, e2⟩ := handle_literal data
            { ctx with numRepeats := ctx.numRepeats + 1
                       seqCount := ctx.seqCount - (ctx.numRepeats + 1)} (by simp [hstate])
            (by simp; omega) (by omega)
          simp only at e1 g e2
          have hcn : usub32 ctx.currOffset (ctx.numRepeats + 1) = data.length - (ctx.numRepeats + 1) := by
            rw [hcurr]; exact usub32_eq (by omega) (by omega)
          rw [hcn] at e1
          have g' := g.extend [b]
          have e3 : ctx.seqStartOffset + (ctx.seqCount - (ctx.numRepeats + 1)) =
              data.length - (ctx.numRepeats + 1) := by omega
          rw [e3] at g'
          refine ⟨{ ctx with
              writeInfo := ⟨true, h, ctx.seqStartOffset, ctx.seqCount - (ctx.numRepeats + 1)⟩
              totalRleSize := ctx.totalRleSize + (h.length + (ctx.seqCount - (ctx.numRepeats + 1)))
              seqStartOffset := data.length - (ctx.numRepeats + 1)
              seqCount := ctx.numRepeats + 2, numRepeats := ctx.numRepeats + 1,
              state := .repeatSeq, lastByte := b, currOffset := ctx.currOffset + 1 }, ?_, ?_,
            Or.inr ⟨g', ?_⟩⟩
          · unfold stepByte
            simp only [hc0, hb, ne_eq, not_false_eq_true, and_self, if_true, hstate, ge_iff_le,
              show 2 ≤ ctx.numRepeats + 1 by omega, hus]
            rw [hstate, hb] at e1
            simp [e1]
          · constructor
            · simp [hcurr]
            · simp; omega
            · simp
            · intro _
              exact ⟨by simp, by simp, hrun'⟩
            · intro _; simp
            · simp only [show 3 ≤ ctx.numRepeats + 2 by omega, and_self, if_true]
              omega
          · rw [hbl g']
        · -- second equal byte
          have hn0 : ctx.numRepeats = 0 := by omega
          rw [hn0] at hrun'
          by_cases hs1 : ctx.seqCount = 1
          · refine ⟨{ ctx with numRepeats := 1, state := .repeatSeq, lastByte := b,
                               seqCount := 2, currOffset := ctx.currOffset + 1 },
              by simp [stepByte, hstate, hc0, hb, hn0, hs1], ?_, Or.inl ⟨ha, rfl, rfl⟩⟩
            constructor
            · simp [hcurr]
            · simp; omega
            · simp
            · intro _
              exact ⟨by simp, by simp, hrun'⟩
            · intro _; simp
            · simp; omega
          · refine ⟨{ ctx with numRepeats := 1, lastByte := b, seqCount := ctx.seqCount + 1,
                               currOffset := ctx.currOffset + 1 },
              by simp [stepByte, hstate, hc0, hb, hn0, hs1], ?_, Or.inl ⟨ha, rfl, rfl⟩⟩
            constructor
            · simp [hcurr]
            · simp; omega
            · simp
            · intro _
              exact ⟨by simp [hstate], by simp; omega, hrun'⟩
            · intro h; simp [hstate] at h
            · simp [hstate]; omega
    · -- a different byte
      cases hstate : ctx.state with
      | init => exact absurd hstate hst
      | repeatSeq =>
        obtain ⟨r1, r2⟩ := hrep hstate
        obtain ⟨_, hrun2⟩ := hrun
        rw [← r1, show data.length - ctx.seqCount = ctx.seqStartOffset by omega] at hrun2
        obtain ⟨h, e1, g, e2⟩ := handle_repeat data { ctx with numRepeats := 0 } (by simp [hstate])
          ctx.lastByte (by simp; omega) (by omega) (by simpa using hrun2) r2
        simp only at e1 g e2
        have g' := g.extend [b]
        refine ⟨{ ctx with
            writeInfo := ⟨true, h, ctx.seqStartOffset, 1⟩
            totalRleSize := ctx.totalRleSize + (h.length + 1)
            seqStartOffset := data.length
            seqCount := 1, numRepeats := 0, state := .nonRepeatSeq, lastByte := b,
            currOffset := ctx.currOffset + 1 }, ?_, ?_, Or.inr ⟨g', ?_⟩⟩
        · unfold stepByte
          rw [hstate] at e1
          simp only [hb, and_false, if_false, hstate, not_false_eq_true, if_true, e1]
          simp [hcurr]
        · constructor
          · simp [hcurr]
          · simp
          · simp
          · intro _
            exact ⟨by simp, by simp, RunAt.one data b⟩
          · intro h; simp at h
          · simp only [hstate, true_and] at hsize
            simp
            split at hsize <;> simp_all <;> omega
        · rw [hbl g']
      | nonRepeatSeq =>
        simp only [hstate] at hsize
        simp at hsize
        refine ⟨{ ctx with numRepeats := 0, lastByte := b, seqCount := ctx.seqCount + 1,
                           currOffset := ctx.currOffset + 1 },
          by simp [stepByte, hstate, hc0, hb], ?_, Or.inl ⟨ha, rfl, rfl⟩⟩
        constructor
        · simp [hcurr]
        · simp; omega
        · simp
        · intro _
          exact ⟨by simp [hstate], by simp, RunAt.one data b⟩
        · intro h; simp [hstate] at h
        · simp [hstate]; omega

/-! ## Whole streams -/

/-- Byte-at-a-time reference run: feed `bs` after `fed`. -/
def runFrom (ctx : Ctx) (fed out : Bytes) : Bytes → Option (Ctx × Bytes)
  | [] => some (ctx, out)
  | b :: bs => do
    let ctx ← stepByte { ctx with writeInfo := WriteInfo.zero } b
    let out ← collect (fed ++ [b]) ctx.writeInfo out
    runFrom ctx (fed ++ [b]) out bs

theorem runFrom_append (ctx : Ctx) (fed out xs ys : Bytes) :
    runFrom ctx fed out (xs ++ ys) =
      (runFrom ctx fed out xs).bind fun p => runFrom p.1 (fed ++ xs) p.2 ys := by
  induction xs generalizing ctx fed out with
  | nil => simp [runFrom]
  | cons b bs ih =>
    simp only [List.cons_append, runFrom, Option.bind_eq_bind, Option.bind_assoc]
    congr 1; funext ctx'
    congr 1; funext out'
    rw [ih]; simp

/-- What holds of the collected output. -/
structure OutInv (data : Bytes) (ctx : Ctx) (out : Bytes) : Prop where
  inv : Inv data ctx
  total : ctx.totalRleSize = out.length
  expands : ∃ g ≤ out.length, ∀ fuel rest, expandN (g + fuel) (out ++ rest) =
    (expandN fuel rest).map (data.take ctx.seqStartOffset ++ ·)

theorem outInv_zero : OutInv [] Ctx.zero [] := by
  refine ⟨inv_zero, rfl, 0, by simp, fun fuel rest => ?_⟩
  cases h : expandN fuel rest <;> simp [h]

theorem collect_group {data out : Bytes} {w : WriteInfo} {lo hi : Nat} (g : Group data w lo hi) :
    collect data w out = some (out ++ w.bytes data) := by
  simp [collect, g.avail, g.inRange]

theorem Inv.reset {data : Bytes} {ctx : Ctx} (h : Inv data ctx) :
    Inv data { ctx with writeInfo := WriteInfo.zero } := by
  obtain ⟨h1, h2, h3, h4, h5, h6⟩ := h
  exact ⟨h1, h2, h3, h4, h5, h6⟩

theorem bytes_pos {data : Bytes} {w : WriteInfo} {lo hi : Nat} (g : Group data w lo hi) :
    1 ≤ (w.bytes data).length := by
  have := g.hdr
  simp only [WriteInfo.bytes, List.length_append]; omega

theorem expands_group {data out : Bytes} {w : WriteInfo} {lo hi n : Nat}
    (hg : Group data w lo hi) (hn : n ≤ out.length)
    (h : ∀ fuel rest, expandN (n + fuel) (out ++ rest) = (expandN fuel rest).map (data.take lo ++ ·)) :
    n + 1 ≤ (out ++ w.bytes data).length ∧
    ∀ fuel rest, expandN (n + 1 + fuel) ((out ++ w.bytes data) ++ rest) =
      (expandN fuel rest).map (data.take hi ++ ·) := by
  constructor
  · have := bytes_pos hg
    rw [List.length_append]; omega
  · intro fuel rest
    rw [List.append_assoc, Nat.add_assoc, h, Nat.add_comm 1 fuel, hg.expands]
    have : data.take lo ++ (data.drop lo).take (hi - lo) = data.take hi := by
      rw [← List.take_add, Nat.add_sub_cancel' hg.lohi]
    cases expandN fuel rest with
    | none => rfl
    | some x => simp only [Option.map_some, ← this, List.append_assoc]

theorem step_out (data : Bytes) (ctx : Ctx) (out : Bytes) (b : UInt8) (h : OutInv data ctx out)
    (hd : data.length + 1 < 2 ^ 31) :
    ∃ ctx' out', stepByte { ctx with writeInfo := WriteInfo.zero } b = some ctx' ∧
      collect (data ++ [b]) ctx'.writeInfo out = some out' ∧ OutInv (data ++ [b]) ctx' out' ∧
      (ctx'.writeInfo.available = false → ctx'.writeInfo = WriteInfo.zero ∧ out' = out) := by
  obtain ⟨ctx', h1, h2, h3⟩ := step_spec data _ b h.inv.reset hd rfl
  have hle : ctx.seqStartOffset ≤ data.length := by have := h.inv.seq; omega
  obtain ⟨n, hn, he⟩ := h.expands
  rcases h3 with ⟨a1, a2, a3⟩ | ⟨g, a3⟩
  · refine ⟨ctx', out, h1, by simp [collect, a1, WriteInfo.zero], ⟨h2, ?_, n, hn, ?_⟩,
      fun _ => ⟨a1, rfl⟩⟩
    · rw [a3]; exact h.total
    · rw [a2]; simp only
      rw [List.take_append_of_le_length hle]; exact he
  · have he' : ∀ fuel rest, expandN (n + fuel) (out ++ rest) =
        (expandN fuel rest).map ((data ++ [b]).take ctx.seqStartOffset ++ ·) := by
      rw [List.take_append_of_le_length hle]; exact he
    obtain ⟨e1, e2⟩ := expands_group g hn he'
    refine ⟨ctx', out ++ ctx'.writeInfo.bytes (data ++ [b]), h1, collect_group g,
      ⟨h2, ?_, n + 1, e1, e2⟩, ?_⟩
    · rw [a3, List.length_append, ← h.total]
    · intro hf; rw [g.avail] at hf; cases hf

theorem runFrom_spec (bs : Bytes) : ∀ (data : Bytes) (ctx : Ctx) (out : Bytes),
    OutInv data ctx out → data.length + bs.length < 2 ^ 31 →
    ∃ ctx' out', runFrom ctx data out bs = some (ctx', out') ∧ OutInv (data ++ bs) ctx' out' := by
  induction bs with
  | nil => intro data ctx out h _; exact ⟨ctx, out, rfl, by simpa using h⟩
  | cons b bs ih =>
    intro data ctx out h hd
    simp only [List.length_cons] at hd
    obtain ⟨c1, o1, h1, h2, h3, -⟩ := step_out data ctx out b h (by omega)
    obtain ⟨c2, o2, h4, h5⟩ := ih (data ++ [b]) c1 o1 h3 (by simp; omega)
    refine ⟨c2, o2, ?_, by simpa using h5⟩
    simp [runFrom, h1, h2, h4]

/-- One call of the encode loop agrees with the byte-at-a-time run over the bytes it consumed. -/
theorem encodeLoop_run (piece : Bytes) : ∀ (data : Bytes) (ctx : Ctx) (out : Bytes),
    OutInv data ctx out → data.length + piece.length < 2 ^ 31 → piece ≠ [] →
    ∃ ctx' out' n, encodeLoop { ctx with writeInfo := WriteInfo.zero } piece = some ctx' ∧
      1 ≤ n ∧ n ≤ piece.length ∧ ctx'.currOffset = data.length + n ∧
      collect (data ++ piece.take n) ctx'.writeInfo out = some out' ∧
      runFrom ctx data out (piece.take n) = some (ctx', out') ∧
      OutInv (data ++ piece.take n) ctx' out' := by
  induction piece with
  | nil => intro _ _ _ _ _ h; exact absurd rfl h
  | cons b bs ih =>
    intro data ctx out h hd _
    simp only [List.length_cons] at hd
    obtain ⟨c1, o1, h1, h2, h3, h4⟩ := step_out data ctx out b h (by omega)
    have hstop : runFrom ctx data out [b] = some (c1, o1) := by simp [runFrom, h1, h2]
    by_cases hav : c1.writeInfo.available = true
    · refine ⟨c1, o1, 1, by simp [encodeLoop, h1, hav], by simp, by simp, ?_, by simpa using h2,
        by simpa using hstop, by simpa using h3⟩
      rw [h3.inv.curr]; simp
    · obtain ⟨hz, ho⟩ := h4 (by simpa using hav)
      subst ho
      by_cases hbs : bs = []
      · subst hbs
        refine ⟨c1, o1, 1, by simp [encodeLoop, h1], by simp, by simp, ?_, by simpa using h2,
          by simpa using hstop, by simpa using h3⟩
        rw [h3.inv.curr]; simp
      · obtain ⟨c2, o2, n, g1, g2, g3, g4, g5, g6, g7⟩ := ih (data ++ [b]) c1 o1 h3
          (by simp; omega) hbs
        have hc1 : ({ c1 with writeInfo := WriteInfo.zero } : Ctx) = c1 := by rw [← hz]
        refine ⟨c2, o2, n + 1, ?_, by omega, by simp; omega, ?_, ?_, ?_, ?_⟩
        · rw [hc1] at g1
          simp [encodeLoop, h1, hav, g1]
        · rw [g4]; simp; omega
        · simpa using g5
        · simp only [List.take_succ_cons, runFrom, h1, h2, Option.bind_eq_bind, Option.bind_some]
          exact g6
        · simpa using g7

theorem encode_run (piece data : Bytes) (ctx : Ctx) (out : Bytes) (h : OutInv data ctx out)
    (hd : data.length + piece.length < 2 ^ 31) (hp : piece ≠ []) :
    ∃ ctx' out' n, encode ctx piece = some (n, ctx') ∧ 1 ≤ n ∧ n ≤ piece.length ∧
      collect (data ++ piece.take n) ctx'.writeInfo out = some out' ∧
      runFrom ctx data out (piece.take n) = some (ctx', out') ∧
      OutInv (data ++ piece.take n) ctx' out' := by
  obtain ⟨c, o, n, h1, h2, h3, h4, h5, h6, h7⟩ := encodeLoop_run piece data ctx out h hd hp
  refine ⟨c, o, n, ?_, h2, h3, h5, h6, h7⟩
  have hlen : piece.length ≠ 0 := fun h => hp (List.length_eq_zero_iff.mp h)
  unfold encode
  rw [if_neg hlen]
  simp only [h1, Option.bind_eq_bind, Option.bind_some]
  rw [h4, h.inv.curr, usub32_eq (by omega) (by omega)]
  simp

/-- Finishing a stream. -/
theorem finalize_spec (data : Bytes) (ctx : Ctx) (out : Bytes) (h : OutInv data ctx out)
    (hd : data.length < 2 ^ 31) :
    ∃ ctx' out', finalize ctx = some ctx' ∧ ctx'.writeInfo.available = true ∧
      collect data ctx'.writeInfo out = some out' ∧ expand out' = some data ∧
      ctx'.totalRleSize = out'.length ∧ out'.length ≤ data.length + data.length / 64 + 1 := by
  obtain ⟨n, hn, he⟩ := h.expands
  have hseq := h.inv.seq
  have hsize := h.inv.size
  have htot := h.total
  have key : ∀ (w : WriteInfo), Group data w ctx.seqStartOffset data.length →
      expand (out ++ w.bytes data) = some data := by
    intro w g
    obtain ⟨e1, e2⟩ := expands_group g hn he
    have e3 := e2 ((out ++ w.bytes data).length - (n + 1)) []
    rw [List.append_nil, Nat.add_sub_cancel' e1] at e3
    rw [expand, e3]
    have : ∀ k, expandN k [] = some [] := by intro k; cases k <;> rfl
    simp [this]
  have hbl : ∀ {w : WriteInfo}, Group data w ctx.seqStartOffset data.length →
      (w.bytes data).length = w.header.length + w.writeLen := by
    intro w g
    have := g.inRange
    simp only [WriteInfo.bytes, List.length_append, List.length_take, List.length_drop]
    omega
  by_cases hs : ctx.state = .repeatSeq
  · have hne : data ≠ [] := by
      intro hnil
      have := (h.inv.empty hnil).1
      rw [hs] at this; cases this
    obtain ⟨r1, r2⟩ := h.inv.rep hs
    obtain ⟨-, -, -, hrun⟩ := h.inv.nonempty hne
    rw [← r1, show data.length - ctx.seqCount = ctx.seqStartOffset by omega] at hrun
    obtain ⟨hh, e1, g, e2⟩ := handle_repeat data ctx hs ctx.lastByte hseq hd hrun r2
    refine ⟨_, _, e1, rfl, collect_group g, key _ g, ?_, ?_⟩
    · simp only [List.length_append, hbl g, htot]
    · rw [List.length_append, hbl g]
      simp only [hs, true_and] at hsize
      simp only
      split at hsize <;> simp_all <;> omega
  · obtain ⟨hh, e1, g, e2⟩ := handle_literal data ctx hs (by omega) hd
    rw [hseq] at g
    refine ⟨_, _, e1, rfl, collect_group g, key _ g, ?_, ?_⟩
    · simp only [List.length_append, hbl g, htot]
    · rw [List.length_append, hbl g]
      simp only [hs, false_and, if_false] at hsize
      simp only
      omega

end Mflt.Rle
