import Verif.Model.Cbor
import Verif.Spec.Cbor

namespace Mflt.Cbor

open Spec.Cbor (head beNat splitBytes Item decodeSeq)

variable {σ : Type}

/-- A piece handed to the sink, or nothing when it is empty. -/
def nz (b : Bytes) : List Bytes := if b = [] then [] else [b]

@[simp] theorem nz_flatten (b : Bytes) : (nz b).flatten = b := by
  unfold nz; split <;> simp_all

theorem nz_ne_nil {b p : Bytes} (h : p ∈ nz b) : p ≠ [] := by
  unfold nz at h; split at h <;> simp_all

/-- The non-empty pieces a call hands to the sink when everything fits. -/
def pieces : Call → List Bytes
  | .unsigned v => [headBytes 0 v]
  | .signed v =>
    [headBytes (v.sshiftRight 31 &&& 1#32).toNat (v.sshiftRight 31 ^^^ v)]
  | .longSigned v =>
    let ui := v.sshiftRight 63 ^^^ v
    let major := (v.sshiftRight 63 &&& 1#64).toNat
    if ui.toInt ≤ 0xFFFFFFFF then [headBytes major (ui.setWidth 32)]
    else [UInt8.ofNat (majorBits major ||| 27) :: uint64Bytes ui]
  | .double v => [UInt8.ofNat (majorBits 7 ||| 27) :: uint64Bytes v]
  | .byteString b => headBytes 2 (BitVec.ofNat 32 b.length) :: nz b
  | .byteStringBegin n => [headBytes 2 (BitVec.ofNat 32 n)]
  | .string s => headBytes 3 (BitVec.ofNat 32 (cstr s).length) :: nz (cstr s)
  | .stringBegin n => [headBytes 3 (BitVec.ofNat 32 n)]
  | .dictionaryBegin n => [headBytes 5 (BitVec.ofNat 32 n)]
  | .arrayBegin n => [headBytes 4 (BitVec.ofNat 32 n)]
  | .null => [[UInt8.ofNat (majorBits 7 ||| 22)]]
  | .join b => nz b

theorem headBytes_ne_nil (m : Nat) (v : BitVec 32) : headBytes m v ≠ [] := by
  unfold headBytes
  simp only
  split
  · simp
  · split
    · simp
    · split <;> simp

theorem pieces_ne_nil {c : Call} {p : Bytes} (h : p ∈ pieces c) : p ≠ [] := by
  cases c <;> simp only [pieces, List.mem_cons, List.not_mem_nil, or_false] at h
  all_goals first
    | (subst h; exact headBytes_ne_nil _ _)
    | (rcases h with h | h
       · subst h; exact headBytes_ne_nil _ _
       · exact nz_ne_nil h)
    | (split at h <;> simp only [List.mem_singleton] at h <;> subst h
       · exact headBytes_ne_nil _ _
       · simp)
    | (subst h; simp)
    | exact nz_ne_nil h

/-- What a call emits when everything fits. -/
def emit (c : Call) : Bytes := (pieces c).flatten

/-- What a sequence of calls emits when everything fits. -/
def emitAll (cs : List Call) : Bytes := cs.flatMap emit

/-- Hand pieces to a sink at consecutive offsets. -/
def feedWrites (cb : σ → Nat → Bytes → σ) : Nat → List Bytes → σ → σ
  | _, [], ctx => ctx
  | off, p :: ps, ctx => feedWrites cb (off + p.length) ps (cb ctx off p)

theorem feedWrites_append (cb : σ → Nat → Bytes → σ) (off : Nat) (a b : List Bytes) (ctx : σ) :
    feedWrites cb off (a ++ b) ctx =
      feedWrites cb (off + a.flatten.length) b (feedWrites cb off a ctx) := by
  induction a generalizing off ctx with
  | nil => simp [feedWrites]
  | cons p ps ih => simp [feedWrites, ih, Nat.add_assoc]

/-- Adding pieces one by one, stopping at the first failure. -/
def addAll (e : Encoder σ) : List Bytes → Bool × Encoder σ
  | [] => (true, e)
  | p :: ps =>
    match addToResult e p with
    | (true, e) => addAll e ps
    | (false, e) => (false, e)

theorem addAll_append (e : Encoder σ) (a b : List Bytes) :
    addAll e (a ++ b) = match addAll e a with
      | (true, e) => addAll e b
      | (false, e) => (false, e) := by
  induction a generalizing e with
  | nil => rfl
  | cons p ps ih =>
    simp only [List.cons_append, addAll]
    rcases addToResult e p with ⟨_ | _, e'⟩
    · rfl
    · exact ih e'

theorem addAll_single (e : Encoder σ) (p : Bytes) : addAll e [p] = addToResult e p := by
  simp only [addAll]
  rcases addToResult e p with ⟨_ | _, e'⟩ <;> rfl

theorem addAll_nz (e : Encoder σ) (p : Bytes) : addAll e (nz p) = addToResult e p := by
  unfold nz
  split
  · next h => subst h; simp [addAll, addToResult]
  · exact addAll_single e p

theorem call_eq_addAll (e : Encoder σ) (c : Call) : call e c = addAll e (pieces c) := by
  cases c with
  | longSigned v =>
    simp only [call, pieces, encodeLongSigned, encodeHead]
    split <;> rw [addAll_single]
  | byteString b =>
    simp only [call, pieces, encodeByteString, encodeHead, addAll]
    rcases addToResult e _ with ⟨_ | _, e'⟩
    · rfl
    · exact (addAll_nz _ _).symm
  | string b =>
    simp only [call, pieces, encodeString, encodeHead, addAll]
    rcases addToResult e _ with ⟨_ | _, e'⟩
    · rfl
    · exact (addAll_nz _ _).symm
  | join b => exact (addAll_nz _ _).symm
  | double v => simp only [call, pieces, encodeDouble, addAll_single]
  | null => simp only [call, pieces, encodeNull, addAll_single]
  | _ => exact (addAll_single _ _).symm

theorem callAll_eq_addAll (e : Encoder σ) (cs : List Call) :
    callAll e cs = addAll e (cs.flatMap pieces) := by
  induction cs generalizing e with
  | nil => rfl
  | cons c cs ih =>
    rw [List.flatMap_cons, addAll_append, callAll, call_eq_addAll]
    rcases addAll e (pieces c) with ⟨_ | _, e'⟩
    · rfl
    · exact ih e'

theorem emitAll_eq (cs : List Call) : emitAll cs = (cs.flatMap pieces).flatten := by
  induction cs with
  | nil => rfl
  | cons c cs ih => simp [emitAll, emit, List.flatMap_cons] at ih ⊢; exact ih

/-- Size-only encoders count and never fail. -/
theorem addAll_sizeOnly (e : Encoder σ) (h : e.writeCb = none) (ps : List Bytes) :
    addAll e ps = (true, { e with encodedSize := e.encodedSize + ps.flatten.length }) := by
  induction ps generalizing e with
  | nil => rfl
  | cons p ps ih =>
    by_cases hp : p.length = 0
    · have hp' : p = [] := List.eq_nil_of_length_eq_zero hp
      subst hp'
      simp only [addAll, addToResult, if_true, List.length_nil]
      rw [ih e h]; simp
    · simp only [addAll, addToResult, hp, if_false, h]
      rw [ih _ (by simp)]
      simp [Nat.add_assoc]

/-- A bounded encoder hands a prefix of the pieces to the sink, everything if it fits. -/
theorem addAll_bounded (e : Encoder σ) (cb : σ → Nat → Bytes → σ) (h : e.writeCb = some cb)
    (hfit : e.encodedSize ≤ e.bufLen) (ps : List Bytes) (hne : ∀ p ∈ ps, p ≠ []) :
    ∃ ws, ws <+: ps ∧
      (addAll e ps).2 = { e with ctx := feedWrites cb e.encodedSize ws e.ctx,
                                 encodedSize := e.encodedSize + ws.flatten.length } ∧
      e.encodedSize + ws.flatten.length ≤ e.bufLen ∧
      ((addAll e ps).1 = true ↔ e.encodedSize + ps.flatten.length ≤ e.bufLen) ∧
      ((addAll e ps).1 = true → ws = ps) := by
  induction ps generalizing e with
  | nil => exact ⟨[], List.prefix_refl _, by simp [addAll, feedWrites], by simpa using hfit,
      by simp [addAll]; exact hfit, by simp⟩
  | cons p ps ih =>
    have hp : p ≠ [] := hne p (by simp)
    have hp0 : ¬ p.length = 0 := fun h => hp (List.eq_nil_of_length_eq_zero h)
    by_cases hf : e.encodedSize + p.length > e.bufLen
    · refine ⟨[], List.nil_prefix, ?_, by simpa using hfit, ?_, ?_⟩
      · simp only [addAll, addToResult, hp0, h, hf, feedWrites, if_true, if_false, List.flatten_nil,
          List.length_nil, Nat.add_zero]
        cases e; simp_all
      · simp only [addAll, addToResult, hp0, h, hf, if_true, if_false, List.flatten_cons,
          List.length_append]
        simp; omega
      · simp [addAll, addToResult, hp, h, hf]
    · obtain ⟨ws, h1, h2, h3, h4, h5⟩ := ih
        { e with ctx := cb e.ctx e.encodedSize p, encodedSize := e.encodedSize + p.length }
        h (by simp; omega) (fun q hq => hne q (by simp [hq]))
      have hstep : addAll e (p :: ps) = addAll
          { e with ctx := cb e.ctx e.encodedSize p, encodedSize := e.encodedSize + p.length } ps := by
        simp [addAll, addToResult, hp, h, hf]
      rw [hstep]
      refine ⟨p :: ws, by simpa using h1, ?_, ?_, ?_, fun ht => by rw [h5 ht]⟩
      · rw [h2]; simp [feedWrites, Nat.add_assoc]
      · simp at h3 ⊢; omega
      · rw [h4]; simp [Nat.add_assoc]

/-! ### Heads as the reader sees them -/

theorem byte_eq (x k : Nat) : (UInt8.ofNat ((x >>> k) &&& 0xff)).toNat = x / 2 ^ k % 256 := by
  have h7 : ∀ y, y &&& 0xff = y % 256 := fun y => Nat.and_two_pow_sub_one_eq_mod y 8
  rw [h7, Nat.shiftRight_eq_div_pow, UInt8.toNat_ofNat']; omega

theorem byte_eq0 (x : Nat) : (UInt8.ofNat (x &&& 0xff)).toNat = x % 256 := by
  have := byte_eq x 0; simpa using this

theorem splitBytes_append {n : Nat} {a : Bytes} (h : a.length = n) (rest : Bytes) :
    splitBytes n (a ++ rest) = some (a, rest) := by
  subst h; simp [splitBytes]

theorem beNat1 (a : UInt8) : beNat [a] = a.toNat := by simp [beNat]

theorem beNat2 (a b : UInt8) : beNat [a, b] = a.toNat * 256 + b.toNat := by simp [beNat]

theorem beNat4 (a b c d : UInt8) : beNat [a, b, c, d] =
    ((a.toNat * 256 + b.toNat) * 256 + c.toNat) * 256 + d.toNat := by simp [beNat]

theorem majorBits_eq : ∀ m : Fin 8, majorBits m.val = 32 * m.val := by decide

/-- Additional information that goes with an argument in shortest form. -/
def infoOf (n : Nat) : Nat :=
  if n < 24 then n else if n ≤ 0xff then 24 else if n ≤ 0xffff then 25 else 26

theorem head_headBytes (m : Nat) (hm : m < 8) (v : BitVec 32) (rest : Bytes) :
    head (headBytes m v ++ rest) = some (m, infoOf v.toNat, v.toNat, rest) := by
  have hmb := majorBits_eq ⟨m, hm⟩
  simp only at hmb
  have hv := v.isLt
  unfold headBytes infoOf
  simp only [hmb]
  generalize v.toNat = n at hv
  by_cases h1 : n < 24
  · simp only [h1, if_true, List.cons_append, List.nil_append, head, UInt8.toNat_ofNat']
    rw [if_pos (by omega)]
    simp; omega
  · by_cases h2 : n ≤ 0xff
    · simp only [h1, h2, if_true, if_false, List.cons_append, List.nil_append, head,
        UInt8.toNat_ofNat' (n := _ + 24)]
      rw [if_neg (by omega), if_pos (by omega)]
      have := splitBytes_append (n := 1) (a := [UInt8.ofNat (n &&& 0xff)]) rfl rest
      simp only [List.cons_append, List.nil_append] at this
      rw [this]
      simp only [Option.map_some, beNat1, byte_eq0]
      congr 2; · omega
      congr 2 <;> omega
    · by_cases h3 : n ≤ 0xffff
      · simp only [h1, h2, h3, if_true, if_false, List.cons_append, List.nil_append, head,
          UInt8.toNat_ofNat' (n := _ + 25)]
        rw [if_neg (by omega), if_neg (by omega), if_pos (by omega)]
        have := splitBytes_append (n := 2)
          (a := [UInt8.ofNat ((n >>> 8) &&& 0xff), UInt8.ofNat (n &&& 0xff)]) rfl rest
        simp only [List.cons_append, List.nil_append] at this
        rw [this]
        simp only [Option.map_some, beNat2, byte_eq0, byte_eq]
        congr 2; · omega
        congr 2 <;> omega
      · simp only [h1, h2, h3, if_false, List.cons_append, List.nil_append, head,
          UInt8.toNat_ofNat' (n := _ + 26)]
        rw [if_neg (by omega), if_neg (by omega), if_neg (by omega), if_pos (by omega)]
        have := splitBytes_append (n := 4)
          (a := [UInt8.ofNat ((n >>> 24) &&& 0xff), UInt8.ofNat ((n >>> 16) &&& 0xff),
            UInt8.ofNat ((n >>> 8) &&& 0xff), UInt8.ofNat (n &&& 0xff)]) rfl rest
        simp only [List.cons_append, List.nil_append] at this
        rw [this]
        simp only [Option.map_some, beNat4, byte_eq0, byte_eq]
        congr 2; · omega
        congr 2 <;> omega

theorem uint64Bytes_length (v : BitVec 64) : (uint64Bytes v).length = 8 := rfl

theorem beNat_uint64Bytes (v : BitVec 64) : beNat (uint64Bytes v) = v.toNat := by
  have hv := v.isLt
  unfold uint64Bytes beNat
  generalize v.toNat = n at hv
  simp only [List.map_cons, List.map_nil, List.foldl_cons, List.foldl_nil, byte_eq]
  omega

theorem major27 : ∀ m : Fin 8, (UInt8.ofNat (majorBits m.val ||| 27)).toNat = 32 * m.val + 27 := by
  decide

theorem head_uint64 (m : Nat) (hm : m < 8) (v : BitVec 64) (rest : Bytes) :
    head (UInt8.ofNat (majorBits m ||| 27) :: uint64Bytes v ++ rest) =
      some (m, 27, v.toNat, rest) := by
  have h := major27 ⟨m, hm⟩
  simp only at h
  simp only [List.cons_append, head, h]
  rw [if_neg (by omega), if_neg (by omega), if_neg (by omega), if_neg (by omega), if_pos (by omega)]
  rw [splitBytes_append (uint64Bytes_length v)]
  simp only [Option.map_some, beNat_uint64Bytes]
  congr 2; · omega
  congr 2; omega

/-- Sign handling shared by the two signed encoders. -/
theorem sign_split {w : Nat} (hw : 0 < w) (v : BitVec w) :
    (v.sshiftRight (w - 1) &&& 1#w).toNat = (if v.toInt < 0 then 1 else 0) ∧
    (v.sshiftRight (w - 1) ^^^ v).toNat = (if v.toInt < 0 then (-1 - v.toInt).toNat else v.toInt.toNat) ∧
    (v.sshiftRight (w - 1) ^^^ v).msb = false := by
  have hs : v.sshiftRight (w - 1) = if v.msb then BitVec.allOnes w else 0#w := by
    apply BitVec.eq_of_getLsbD_eq
    intro i hi
    rw [BitVec.getLsbD_sshiftRight]
    cases hm : v.msb
    · simp only [Bool.false_eq_true, if_false, BitVec.getLsbD_zero]
      rw [BitVec.msb_eq_getLsbD_last] at hm
      by_cases h0 : i = 0
      · subst h0; simp [hm]
      · simp [show ¬ (w - 1 + i < w) by omega]
    · simp only [if_true, BitVec.getLsbD_allOnes, hi, decide_true]
      rw [BitVec.msb_eq_getLsbD_last] at hm
      by_cases h0 : i = 0
      · subst h0; simp [hm]; omega
      · simp [show ¬ (w - 1 + i < w) by omega]; omega
  rw [hs]
  have hlt := v.isLt
  have hp : 2 ^ w = 2 * 2 ^ (w - 1) := by
    obtain ⟨k, rfl⟩ : ∃ k, w = k + 1 := ⟨w - 1, by omega⟩
    simp [Nat.pow_succ, Nat.mul_comm]
  have hm := BitVec.msb_eq_decide v
  have hint := BitVec.toInt_eq_msb_cond v
  have hpos : 0 < 2 ^ (w - 1) := Nat.pow_pos (by decide)
  cases h : v.msb
  · rw [h] at hm hint
    simp at hm
    simp only [Bool.false_eq_true, if_false] at hint ⊢
    rw [hint]
    simp [h]
    omega
  · rw [h] at hm hint
    simp at hm
    simp only [if_true] at hint ⊢
    have hneg : v.toInt < 0 := by rw [hint]; omega
    rw [if_pos hneg, if_pos hneg]
    refine ⟨?_, ?_, ?_⟩
    · have : (1#w).toNat = 1 := by
        simp [BitVec.toNat_ofNat, Nat.mod_eq_of_lt (show 1 < 2 ^ w by omega)]
      simp [this]
    · rw [BitVec.allOnes_xor, BitVec.toNat_not, hint]; omega
    · rw [BitVec.allOnes_xor, BitVec.msb_not]; simp [h]

end Mflt.Cbor
