import Verif.Lemmas.CompactLog
import Verif.Spec.Log

/-! # C63: compact logs carry the arguments of the call -/

namespace Mflt.Props

open Mflt.Cbor Mflt.Spec.Cbor Mflt.CompactLog Mflt.Spec.CompactLog

/-- **C63.** Every log call with up to 15 arguments (the most the macro supports) has an encoding
which a receiver reads back as the position of the format string and exactly the arguments: type and
value of each, in order. The serializer produces it, whole, if and only if it fits. -/
theorem C63_compact_log_decodes (start logId : BitVec 32) (args : List Arg) (hn : args.length ≤ 15)
    (hok : ∀ a ∈ args, ArgOk a) :
    ∃ bytes : Bytes, readLog bytes = some ((logId - start).toNat, args.map value) ∧
      ∀ bufLen, ∃ e, serialize start (Encoder.init record [] bufLen) logId (compressedFmt args) args =
          some (decide (bytes.length ≤ bufLen), e) ∧
        (bytes.length ≤ bufLen → e.ctx = bytes ∧ e.encodedSize = bytes.length) := by
  refine ⟨_, readLog_emit (logId - start) args hn hok, fun bufLen => ?_⟩
  obtain ⟨e, h1, h2⟩ := callAll_record (logVal (logId - start) args).calls bufLen
  refine ⟨e, ?_, h2⟩
  rw [serialize_calls start _ logId args hn, h1]

/-- A call with every kind of argument. -/
example : (∀ a ∈ [Arg.int32 5#32, .int64 5#64, .double 0x4014000000000000#64, .str (some [104, 105]),
      .str none], ArgOk a) ∧
    compressedFmt [Arg.int32 5#32, .int64 5#64, .double 0x4014000000000000#64, .str (some [104, 105]),
      .str none] = 0b10001101111 ∧
    (serialize 0x1000#32 (Encoder.init record [] 64) 0x1010#32 0b10001101111
      [.int32 5#32, .int64 5#64, .double 0x4014000000000000#64, .str (some [104, 105]),
        .str none]).map (fun r => (r.1, r.2.ctx)) =
    some (true, [0x86, 0x10, 0x05, 0x81, 0x05, 0xfb, 0x40, 0x14, 0, 0, 0, 0, 0, 0, 0x62, 104, 105,
      0x66, 40, 110, 117, 108, 108, 41]) := by
  refine ⟨?_, by decide +kernel, by decide +kernel⟩
  intro a ha
  simp only [List.mem_cons, List.not_mem_nil, or_false] at ha
  rcases ha with rfl | rfl | rfl | rfl | rfl <;> simp [ArgOk]

/-- **C63 (nothing is confused).** Two calls that do not pass null pointers and have the same encoding
come from the same format string and pass the same arguments. -/
theorem C63_compact_log_distinct (start logId logId' : BitVec 32) (args args' : List Arg)
    (hnull : Arg.str none ∉ args) (hnull' : Arg.str none ∉ args') (bytes : Bytes)
    (h : readLog bytes = some ((logId - start).toNat, args.map value))
    (h' : readLog bytes = some ((logId' - start).toNat, args'.map value)) :
    logId = logId' ∧ args = args' := by
  rw [h] at h'
  simp only [Option.some.injEq, Prod.mk.injEq] at h'
  obtain ⟨h1, h2⟩ := h'
  constructor
  · have := BitVec.eq_of_toNat_eq h1
    have h3 := congrArg (· + start) this
    simpa using h3
  · clear h h1
    induction args generalizing args' with
    | nil => cases args' <;> simp_all
    | cons a as ih =>
      cases args' with
      | nil => simp at h2
      | cons b bs =>
        simp only [List.map_cons, List.cons.injEq] at h2
        simp only [List.mem_cons, not_or] at hnull hnull'
        have hab : a = b := by
          have h0 := h2.1
          rcases a with a | a | a | _ | a <;> rcases b with b | b | b | _ | b <;>
            simp only [value, Value.int32.injEq, Value.int64.injEq, Value.double.injEq,
              Value.str.injEq, reduceCtorEq] at h0 <;> simp_all [BitVec.toInt_inj, BitVec.toNat_inj]
        rw [hab, ih bs hnull.2 hnull'.2 h2.2]

/-- **C63 (saved logs).** A compact log goes into the log buffer as one line of type "compact": whole
when its encoding fits a line, and not at all when it is longer than the working buffer. Missing:
encodings in between, which are cut short, see `C63_false_cut_lines`. -/
theorem C63_compact_save_partial (cfg : Log.Config) (start : BitVec 32) (logBuf : Bytes)
    (hb : logBuf.length = cfg.maxLine + 1) (s : Log.State) (level : Nat) (logId : BitVec 32)
    (args : List Arg) (now : Option Nat) (hn : args.length ≤ 15) (hok : ∀ a ∈ args, ArgOk a) :
    ∃ bytes : Bytes, readLog bytes = some ((logId - start).toNat, args.map value) ∧
      (bytes.length ≤ cfg.maxLine - (if cfg.timestamps ∧ now.isSome then 4 else 0) →
        compactSave cfg start logBuf s level logId (compressedFmt args) args now =
          Log.save cfg s level 1 bytes now ∧
        (Spec.Log.lineOf cfg level 1 bytes now).text = bytes) ∧
      (cfg.maxLine + 1 < bytes.length →
        compactSave cfg start logBuf s level logId (compressedFmt args) args now = some s) := by
  refine ⟨_, readLog_emit (logId - start) args hn hok, ?_, ?_⟩
  · intro h
    have hle : (emitAll (logVal (logId - start) args).calls).length ≤ cfg.maxLine + 1 := by
      split at h <;> omega
    constructor
    · obtain ⟨out, -, h2, h3⟩ := callAll_memcpy (logVal (logId - start) args).calls logBuf
        (cfg.maxLine + 1) hb
      rw [compactSave, serialize_calls start _ logId args hn, h2, decide_eq_true hle, ← h3 hle]
      simp only [Option.bind_some, if_pos, Encoder.init, List.take_left]
    · unfold Spec.Log.lineOf
      split
      · rename_i hc
        rw [if_pos hc] at h
        exact List.take_of_length_le h
      · rename_i hc
        rw [if_neg hc] at h
        exact List.take_of_length_le h
  · intro h
    obtain ⟨out, -, h2, -⟩ := callAll_memcpy (logVal (logId - start) args).calls logBuf
      (cfg.maxLine + 1) hb
    rw [compactSave, serialize_calls start _ logId args hn, h2, decide_eq_false (by omega)]
    simp only [Option.bind_some, Bool.false_eq_true, if_false]

/-- A compact log in the buffer, and read back. -/
example : (((Log.boot 0 64).bind fun s =>
      compactSave ⟨128, false, true⟩ 0x1000#32 (List.replicate 129 0) s 2 0x1010#32
        (compressedFmt [Arg.int32 5#32]) [.int32 5#32] none).bind
        (Log.read ⟨128, false, true⟩)).map Prod.fst = some (.log ⟨2, 1, 0, [0x82, 0x10, 0x05]⟩) := by decide +kernel

/-- C63 is false for encodings of 129 bytes: the working buffer of `memfault_compact_log_save` has one
byte more than a line. With the default line length a string of 125 characters is accepted, but the
line is cut and the receiver cannot read it. -/
theorem C63_false_cut_lines :
    ∃ (text : Bytes) (s : Log.State) (r : Log.Record),
      text.length = 125 ∧
      ((Log.boot 0 200).bind fun s =>
        compactSave ⟨128, false, true⟩ 0x1000#32 (List.replicate 129 0) s 2 0x1010#32
          (compressedFmt [Arg.str (some text)]) [.str (some text)] none) = some s ∧
      (Log.read ⟨128, false, true⟩ s).map Prod.fst = some (.log r) ∧
      r.type = 1 ∧ readLog r.msg = none := by
  refine ⟨List.replicate 125 97, _, ⟨2, 1, 0, 0x82 :: 0x10 :: 0x78 :: 0x7d :: List.replicate 124 97⟩,
    List.length_replicate, (Option.some_get (show Option.isSome _ from ?_)).symm, ?_, rfl, ?_⟩
  · decide +kernel
  · decide +kernel
  · decide +kernel

/-- The same with a timestamp, which takes four bytes of the line: a string of 121 characters. -/
theorem C63_false_cut_lines_timestamp :
    ∃ (text : Bytes) (s : Log.State) (r : Log.Record),
      text.length = 121 ∧
      ((Log.boot 0 200).bind fun s =>
        compactSave ⟨128, true, true⟩ 0x1000#32 (List.replicate 129 0) s 2 0x1010#32
          (compressedFmt [Arg.str (some text)]) [.str (some text)] (some 1700000000)) = some s ∧
      (Log.read ⟨128, true, true⟩ s).map Prod.fst = some (.log r) ∧
      r.type = 1 ∧ r.timestamp = 1700000000 ∧ readLog r.msg = none := by
  refine ⟨List.replicate 121 97, _,
    ⟨2, 1, 1700000000, 0x82 :: 0x10 :: 0x78 :: 0x79 :: List.replicate 120 97⟩,
    List.length_replicate, (Option.some_get (show Option.isSome _ from ?_)).symm, ?_, rfl, rfl, ?_⟩
  · decide +kernel
  · decide +kernel
  · decide +kernel

end Mflt.Props
