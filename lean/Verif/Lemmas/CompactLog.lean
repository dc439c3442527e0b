import Verif.Spec.CompactLog
import Verif.Lemmas.Event
import Verif.Props.Cbor

/-! # Lemmas about compact logs -/

namespace Mflt.Props

open Mflt.SerializerHelper Mflt.Cbor Mflt.Spec.Cbor Mflt.CompactLog Mflt.Spec.CompactLog

theorem promotionType_lt (a : Arg) : promotionType a < 4 := by cases a <;> simp [promotionType]

theorem fmtBits_lt (args : List Arg) : fmtBits args < 4 ^ args.length := by
  induction args with
  | nil => decide
  | cons a as ih =>
    have := promotionType_lt a
    rw [fmtBits, List.length_cons]
    have e : 4 ^ (as.length + 1) = 2 ^ (2 * (as.length + 1)) := by
      rw [Nat.pow_mul]
    have e2 : 4 ^ as.length = 2 ^ (2 * as.length) := by
      rw [Nat.pow_mul]
    rw [e]
    apply Nat.or_lt_two_pow
    · rw [Nat.shiftLeft_eq, Nat.mul_add, Nat.pow_add, Nat.mul_comm]
      exact Nat.mul_lt_mul_of_pos_left this (Nat.two_pow_pos _)
    · rw [e2] at ih
      exact Nat.lt_of_lt_of_le ih (Nat.pow_le_pow_right (by decide) (by omega))

theorem four_pow (n : Nat) : 4 ^ n = 2 ^ (2 * n) := by rw [Nat.pow_mul]

theorem fmtBits_cons (a : Arg) (as : List Arg) :
    fmtBits (a :: as) = promotionType a * 4 ^ as.length + fmtBits as := by
  have := fmtBits_lt as
  rw [four_pow] at this
  rw [fmtBits, ← Nat.shiftLeft_add_eq_or_of_lt this, Nat.shiftLeft_eq, four_pow]

theorem compressedFmt_eq (args : List Arg) :
    compressedFmt args = 4 ^ args.length + fmtBits args := by
  have := fmtBits_lt args
  rw [four_pow] at this
  rw [compressedFmt, Nat.or_comm, ← Nat.shiftLeft_add_eq_or_of_lt this, Nat.shiftLeft_eq, four_pow,
    Nat.one_mul]

theorem numArgs_compressedFmt (args : List Arg) (h : args.length ≤ 15) :
    numArgs (compressedFmt args) = args.length := by
  have hb := fmtBits_lt args
  have hp : 0 < 4 ^ args.length := Nat.pow_pos (by decide)
  have hl : Nat.log2 (compressedFmt args) = 2 * args.length := by
    rw [compressedFmt_eq]
    rw [Nat.log2_eq_iff (by omega)]
    rw [four_pow] at *
    constructor
    · omega
    · rw [Nat.pow_succ]; omega
  have h0 : compressedFmt args ≠ 0 := by rw [compressedFmt_eq]; omega
  rw [numArgs, clz, if_neg h0, hl]
  omega

theorem fmt_digit (hi : Nat) (a : Arg) (as : List Arg) :
    ((hi * 4 ^ (as.length + 1) + fmtBits (a :: as)) >>> (as.length * 2)) &&& 3 = promotionType a := by
  have hb := fmtBits_lt as
  have hp : 0 < 4 ^ as.length := Nat.pow_pos (by decide)
  have ht := promotionType_lt a
  rw [show (3 : Nat) = 2 ^ 2 - 1 from rfl, Nat.and_two_pow_sub_one_eq_mod, Nat.shiftRight_eq_div_pow,
    Nat.mul_comm as.length 2, ← four_pow, fmtBits_cons, Nat.pow_succ]
  have : hi * (4 ^ as.length * 4) + (promotionType a * 4 ^ as.length + fmtBits as) =
      fmtBits as + 4 ^ as.length * (4 * hi + promotionType a) := by
    rw [Nat.mul_add, Nat.mul_comm (promotionType a), Nat.mul_left_comm hi, Nat.mul_comm hi 4]
    omega
  rw [this, Nat.add_mul_div_left _ _ hp, Nat.div_eq_of_lt hb]
  omega

/-- The value written for an argument. -/
def argVal : Arg → CborVal
  | .int32 v => .i32 v
  | .int64 v => .array [.i64 v]
  | .double b => .double b
  | .str none => .text nullText
  | .str (some s) => .text s

theorem callAll_one {σ : Type} (e : Encoder σ) (c : Call) : callAll e [c] = call e c := by
  rw [callAll]
  generalize call e c = r
  obtain ⟨_ | _, e'⟩ := r <;> rfl

theorem callAll_two {σ : Type} (e : Encoder σ) (c d : Call) :
    callAll e [c, d] = match call e c with
      | (true, e) => call e d
      | (false, e) => (false, e) := by
  rw [callAll]
  generalize call e c = r
  obtain ⟨_ | _, e'⟩ := r
  · rfl
  · exact callAll_one e' d

theorem encodeArg_eq {σ : Type} (e : Encoder σ) (a : Arg) :
    encodeArg e (promotionType a) a = some (callAll e (argVal a).calls) := by
  cases a with
  | int32 v => rw [argVal, CborVal.calls, callAll_one]; rfl
  | int64 v =>
    rw [argVal, CborVal.calls, CborVal.callsList, CborVal.calls, CborVal.callsList,
      List.append_nil, callAll_two, List.length_singleton, call, promotionType, encodeArg]
    generalize encodeArrayBegin e 1 = r
    obtain ⟨_ | _, e'⟩ := r <;> simp only [call]
  | double v => rw [argVal, CborVal.calls, callAll_one]; rfl
  | str s =>
    cases s with
    | none => rw [argVal, CborVal.calls, callAll_one, call, promotionType, encodeArg, nullText]
    | some s => rw [argVal, CborVal.calls, callAll_one]; rfl

theorem argLoop_calls {σ : Type} (args : List Arg) (hi : Nat) (e : Encoder σ) :
    CompactLog.argLoop args.length e (hi * 4 ^ args.length + fmtBits args) args =
      some (callAll e (CborVal.callsList (args.map argVal))) := by
  induction args generalizing hi e with
  | nil => rfl
  | cons a as ih =>
    rw [List.length_cons, CompactLog.argLoop, fmt_digit, encodeArg_eq, List.map_cons, CborVal.callsList, callAll_append]
    unfold andThen
    simp only
    generalize callAll e (argVal a).calls = r
    obtain ⟨_ | _, e'⟩ := r
    · rfl
    · simp only
      rw [← ih (hi * 4 + promotionType a) e', fmtBits_cons]
      congr 1
      rw [Nat.pow_succ, Nat.add_mul, Nat.mul_assoc hi, Nat.mul_comm 4, Nat.add_assoc]

/-- The value a compact log consists of. -/
def logVal (off : BitVec 32) (args : List Arg) : CborVal := .array (.u32 off :: args.map argVal)

theorem serialize_calls {σ : Type} (start : BitVec 32) (e : Encoder σ) (logId : BitVec 32)
    (args : List Arg) (h : args.length ≤ 15) :
    CompactLog.serialize start e logId (compressedFmt args) args =
      some (callAll e (logVal (logId - start) args).calls) := by
  rw [CompactLog.serialize, numArgs_compressedFmt args h, compressedFmt_eq]
  have := argLoop_calls args 1 (σ := σ)
  rw [Nat.one_mul] at this
  simp only [logVal, CborVal.calls, CborVal.callsList, List.length_cons, List.length_map,
    List.singleton_append, callAll, call, Nat.add_comm args.length 1]
  generalize encodeArrayBegin e (1 + args.length) = r
  obtain ⟨_ | _, e'⟩ := r
  · rfl
  · simp only
    generalize encodeUnsigned e' (logId - start) = r
    obtain ⟨_ | _, e''⟩ := r
    · rfl
    · exact this e''

theorem readValue_int (i : Int) : readValue (.int i) = some (.int32 i) := by
  unfold Item.int
  split
  · simp only [readValue]; congr 2; omega
  · simp only [readValue]; congr 2; omega

theorem readInt_int (i : Int) : readInt (.int i) = some i := by
  unfold Item.int
  split
  · simp only [readInt]; congr 1; omega
  · simp only [readInt]; congr 1; omega

theorem readValue_arg (a : Arg) : readValue (argVal a).item = some (value a) := by
  cases a with
  | int32 v => exact readValue_int _
  | int64 v => simp only [argVal, CborVal.item, CborVal.items, readValue, readInt_int, Option.map_some, value]
  | double v => rfl
  | str s => cases s <;> rfl

theorem readValues_args (args : List Arg) :
    readValues (CborVal.items (args.map argVal)) = some (args.map value) := by
  induction args with
  | nil => rfl
  | cons a as ih =>
    simp only [List.map_cons, CborVal.items, readValues, readValue_arg, ih, Option.bind_some,
      Option.map_some]

theorem argVal_ok (a : Arg) (h : ArgOk a) : (argVal a).ok := by
  cases a with
  | int64 v => exact ⟨by simp, trivial, trivial⟩
  | str s =>
    cases s with
    | none => exact ⟨by decide, by decide⟩
    | some s => exact h
  | _ => trivial

theorem logVal_ok (off : BitVec 32) (args : List Arg) (hn : args.length ≤ 15)
    (h : ∀ a ∈ args, ArgOk a) : (logVal off args).ok := by
  refine ⟨by simp; omega, trivial, ?_⟩
  clear hn
  induction args with
  | nil => trivial
  | cons a as ih =>
    exact ⟨argVal_ok a (h a (List.mem_cons_self ..)), ih fun b hb => h b (List.mem_cons_of_mem _ hb)⟩

theorem readLog_emit (off : BitVec 32) (args : List Arg) (hn : args.length ≤ 15)
    (h : ∀ a ∈ args, ArgOk a) :
    readLog (emitAll (logVal off args).calls) = some (off.toNat, args.map value) := by
  rw [readLog, decode_emit _ (logVal_ok off args hn h)]
  simp only [logVal, CborVal.item, CborVal.items, readValues_args, Option.map_some]

/-- What any list of calls leaves in a plain buffer. -/
theorem callAll_memcpy (cs : List Call) (buf : Bytes) (L : Nat) (hb : buf.length = L) :
    ∃ out : Bytes, out.length ≤ L ∧
      callAll (Encoder.init memcpyWrite (some buf) L) cs =
        (decide ((emitAll cs).length ≤ L),
          { Encoder.init memcpyWrite (some (out ++ buf.drop out.length)) L with
            encodedSize := out.length }) ∧
      ((emitAll cs).length ≤ L → out = emitAll cs) := by
  have hne : ∀ p ∈ cs.flatMap pieces, p ≠ [] := by
    intro p hp
    obtain ⟨c, -, hc⟩ := List.mem_flatMap.mp hp
    exact pieces_ne_nil hc
  obtain ⟨ws, h1, h2, h3, h4, h5⟩ := addAll_bounded (Encoder.init memcpyWrite (some buf) L)
    memcpyWrite rfl (by simp [Encoder.init]) (cs.flatMap pieces) hne
  simp only [Encoder.init, Nat.zero_add] at h2 h3 h4 h5
  rw [← emitAll_eq] at h4
  refine ⟨ws.flatten, h3, ?_, ?_⟩
  · rw [callAll_eq_addAll]
    refine Prod.ext ?_ ?_
    · simp only [Encoder.init]
      rw [Bool.eq_iff_iff, h4, decide_eq_true_iff]
    · simp only [Encoder.init]
      rw [h2, feedWrites_memcpy _ _ _ (by omega)]
      simp
  · intro h
    rw [h5 (h4.mpr h), ← emitAll_eq]

theorem callAll_record (cs : List Call) (L : Nat) :
    ∃ e, callAll (Encoder.init record [] L) cs = (decide ((emitAll cs).length ≤ L), e) ∧
      ((emitAll cs).length ≤ L → e.ctx = emitAll cs ∧ e.encodedSize = (emitAll cs).length) := by
  have hne : ∀ p ∈ cs.flatMap pieces, p ≠ [] := by
    intro p hp
    obtain ⟨c, -, hc⟩ := List.mem_flatMap.mp hp
    exact pieces_ne_nil hc
  obtain ⟨ws, h1, h2, h3, h4, h5⟩ := addAll_bounded (Encoder.init record [] L)
    record rfl (by simp [Encoder.init]) (cs.flatMap pieces) hne
  simp only [Encoder.init, Nat.zero_add] at h2 h3 h4 h5
  rw [← emitAll_eq] at h4
  refine ⟨_, Prod.ext ?_ rfl, ?_⟩
  · rw [callAll_eq_addAll]
    simp only [Encoder.init]
    rw [Bool.eq_iff_iff, h4, decide_eq_true_iff]
  · intro h
    rw [callAll_eq_addAll]
    rw [h5 (h4.mpr h), feedWrites_record] at h2
    simp only [List.nil_append] at h2
    rw [← emitAll_eq] at h2
    exact ⟨congrArg Encoder.ctx h2, congrArg Encoder.encodedSize h2⟩

end Mflt.Props
