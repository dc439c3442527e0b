import Verif.Model.CdrExample

/-!
# C119: the example of a source of recordings
-/

namespace Mflt.Props

open Spec.CdrExample Mflt.CdrExample

namespace CdrExampleAux

/-- What holds if no message is given up or staged anew after bytes of its recording were taken. -/
structure Good (desc : Bytes) (s : St) : Prop where
  sent : ∀ m ∈ s.sent, m = desc ++ hello
  cur : ∀ g, s.cur = some g → g = (desc ++ hello).take g.length ∧ g.length < desc.length + 10 ∧
    s.offset = g.length - desc.length
  idle : s.cur = none → s.offset = 0

theorem payload_eq : payload = hello ++ [0] := rfl
theorem dataSize_eq : dataSize = 10 := rfl
theorem hello_length : hello.length = 10 := rfl
theorem payload_length : payload.length = 11 := rfl

theorem readData_eq {off : Nat} {buf : Bytes} {s : St} (ho : off = s.offset) (h : off + buf.length ≤ 10) :
    readData off buf s = some (some ((hello.drop off).take buf.length), { s with offset := s.offset + buf.length }) := by
  unfold readData
  rw [if_neg (by omega), if_neg (by rw [payload_length]; omega), payload_length,
    show min buf.length (11 - off) = buf.length by omega]
  simp only [List.drop_length, List.append_nil, Option.some.injEq, Prod.mk.injEq, and_true]
  rw [payload_eq, List.drop_append_of_le_length (by rw [hello_length]; omega),
    List.take_append_of_le_length (by rw [List.length_drop, hello_length]; omega)]

theorem reader_eq {desc g buf : Bytes} {s : St} (hs : s.offset = g.length - desc.length)
    (h : g.length + buf.length ≤ desc.length + 10) :
    reader desc g.length buf s = some (((desc ++ hello).drop g.length).take buf.length,
      { s with offset := g.length + buf.length - desc.length }) := by
  unfold reader cdrRead
  rw [dataSize_eq, if_neg (by omega)]
  by_cases hd : g.length < desc.length
  · rw [if_pos hd]
    dsimp only
    by_cases hb : buf.length - min buf.length (desc.length - g.length) = 0
    · rw [if_pos hb]
      simp only [Option.map_some, Option.getD_some, Option.some.injEq, Prod.mk.injEq]
      constructor
      · rw [show min buf.length (desc.length - g.length) = buf.length by omega,
          List.drop_append_of_le_length (by omega), List.take_append_of_le_length (by rw [List.length_drop]; omega)]
      · rw [show g.length + buf.length - desc.length = s.offset by omega]
    · rw [if_neg hb]
      have hm : min buf.length (desc.length - g.length) = desc.length - g.length := by omega
      rw [hm, readData_eq (by omega) (by rw [List.length_drop]; omega)]
      simp only [Option.map_some, Option.getD_some, Option.some.injEq, Prod.mk.injEq, List.length_drop]
      constructor
      · rw [List.drop_append_of_le_length (by omega), List.take_append, List.length_drop,
          List.take_of_length_le (by rw [List.length_drop]; omega),
          List.take_of_length_le (l := List.drop g.length desc) (by rw [List.length_drop]; omega), List.drop_zero]
      · rw [show g.length + buf.length - desc.length = s.offset + (buf.length - (desc.length - g.length)) by omega]
  · rw [if_neg hd, readData_eq (by omega) (by omega)]
    simp only [Option.map_some, Option.getD_some, Option.some.injEq, Prod.mk.injEq]
    constructor
    · rw [List.drop_append, List.drop_eq_nil_of_le (as := desc) (by omega), List.nil_append]
    · rw [show g.length + buf.length - desc.length = s.offset + buf.length by omega]

theorem take_add_drop {l : Bytes} (n k : Nat) (h : n ≤ l.length) :
    l.take n ++ (l.drop n).take k = l.take (n + k) := by
  rw [List.take_add]

end CdrExampleAux

open CdrExampleAux

/-- No message is given up, and nothing is staged, while bytes of the recording were taken: up to then at most the
description was. `none`: the run goes wrong otherwise (see `C119_memory`). -/
def CdrCalm (desc : Bytes) : St → List Op → Prop
  | _, [] => True
  | s, o :: os =>
    ((o = .abort ∨ o = .stage) → ∀ g, s.cur = some g → g.length ≤ desc.length) ∧
      ∀ t, step desc s o = some t → CdrCalm desc t os

namespace CdrExampleAux

theorem good_step {desc : Bytes} {s t : St} {o : Op} (h : Good desc s)
    (hc : (o = .abort ∨ o = .stage) → ∀ g, s.cur = some g → g.length ≤ desc.length)
    (hs : step desc s o = some t) : Good desc t := by
  cases o with
  | stage =>
    cases hs
    refine ⟨h.sent, fun g hg => ?_, fun _ => rfl⟩
    obtain ⟨a, b, _⟩ := h.cur g hg
    refine ⟨a, b, ?_⟩
    have := hc (.inr rfl) g hg
    show 0 = _
    omega
  | begin =>
    simp only [step, Option.some.injEq] at hs
    subst hs
    by_cases hb : (s.ready && s.cur.isNone) = true
    · rw [if_pos hb]
      simp only [Bool.and_eq_true, Option.isNone_iff_eq_none] at hb
      refine ⟨h.sent, fun g hg => ?_, fun hn => (by cases hn)⟩
      cases hg
      exact ⟨by simp, by simp, by simpa using h.idle hb.2⟩
    · rw [if_neg hb]; exact h
  | abort =>
    cases hs
    refine ⟨h.sent, fun g hg => (by cases hg), fun _ => ?_⟩
    show s.offset = 0
    cases hcur : s.cur with
    | none => exact h.idle hcur
    | some g =>
      have := hc (.inl rfl) g hcur
      have := (h.cur g hcur).2.2
      omega
  | take buf =>
    cases hcur : s.cur with
    | none => simp only [step, hcur, Option.some.injEq] at hs; subst hs; exact h
    | some g =>
      obtain ⟨h1, h2, h3⟩ := h.cur g hcur
      simp only [step, hcur, dataSize_eq] at hs
      have hlen : (buf.take (desc.length + 10 - g.length)).length ≤ desc.length + 10 - g.length := by simp; omega
      revert hs hlen
      generalize buf.take (desc.length + 10 - g.length) = bf
      intro hs hlen
      unfold takePiece at hs
      by_cases hb : bf.length = 0
      · rw [if_pos hb] at hs; cases hs; exact h
      · rw [if_neg hb, reader_eq h3 (by omega)] at hs
        simp only [Option.map_some, Option.some.injEq] at hs
        have hpos : 0 < bf.length := Nat.pos_of_ne_zero hb
        have hg : g ++ ((desc ++ hello).drop g.length).take bf.length = (desc ++ hello).take (g.length + bf.length) := by
          rw [List.take_add]; congr 1
        have hl : (g ++ ((desc ++ hello).drop g.length).take bf.length).length = g.length + bf.length := by
          rw [hg, List.length_take, List.length_append, hello_length]; omega
        subst hs
        split
        · rename_i he
          rw [dataSize_eq] at he
          refine ⟨fun m hm => ?_, fun g hg => (by cases hg), fun _ => rfl⟩
          rcases List.mem_append.1 hm with hm | hm
          · exact h.sent m hm
          · rw [List.mem_singleton] at hm
            rw [hm, hg, List.take_of_length_le (by rw [List.length_append, hello_length]; omega)]
        · rename_i he
          rw [dataSize_eq] at he
          refine ⟨h.sent, fun g' hg' => ?_, fun hn => (by cases hn)⟩
          cases hg'
          refine ⟨?_, by omega, ?_⟩
          · rw [hl]; exact hg
          · rw [hl]

theorem good_run {desc : Bytes} : ∀ (ops : List Op) {s t : St}, Good desc s → CdrCalm desc s ops →
    run desc s ops = some t → Good desc t
  | [], _, _, h, _, hr => by cases hr; exact h
  | o :: os, s, t, h, hc, hr => by
    obtain ⟨u, hu, hr⟩ := Option.bind_eq_some_iff.1 hr
    exact good_run os (good_step h hc.1 hu) (hc.2 u hu) hr

end CdrExampleAux

/-- C119 (the recording): in every history in which no message is given up, and nothing is staged, after bytes of a
recording were taken, in whatever pieces it is taken, each message is the description and the recording. Missing (false
of the code): `C119_false_abort`, `C119_false_stage`. -/
theorem C119_recording_partial (desc : Bytes) (ops : List Op) (s : St) (hc : CdrCalm desc fresh ops)
    (hr : run desc fresh ops = some s) : ∀ m ∈ s.sent, m = desc ++ hello :=
  (CdrExampleAux.good_run ops ⟨by simp [fresh], by simp [fresh], fun _ => rfl⟩ hc hr).sent

/-- Beside `C119_recording_partial`: a message is given up after its description, then taken in three pieces. -/
example :
    let ops : List Op := [.stage, .begin, .take [9, 9], .abort, .begin, .take [9, 9, 9, 9], .take [9],
      .take (List.replicate 20 9)]
    (run [1, 2] fresh ops).map (·.sent) = some [[1, 2] ++ hello] ∧ CdrCalm [1, 2] fresh ops := by
  refine ⟨by decide, ?_⟩
  simp only [CdrCalm]
  refine ⟨by simp [fresh], fun t ht => ?_⟩
  cases ht
  refine ⟨by simp, fun t ht => ?_⟩
  cases ht
  refine ⟨by simp, fun t ht => ?_⟩
  cases ht
  refine ⟨fun _ g hg => by cases hg; decide, fun t ht => ?_⟩
  cases ht
  refine ⟨by simp, fun t ht => ?_⟩
  cases ht
  refine ⟨by simp, fun t ht => ?_⟩
  cases ht
  refine ⟨by simp, fun t ht => ?_⟩
  cases ht
  exact ⟨by simp, fun t ht => trivial⟩

/-- C119 (memory): in every history, nothing is read behind the recording. -/
theorem C119_memory (desc : Bytes) (ops : List Op) : ∃ s, run desc fresh ops = some s := by
  suffices h : ∀ (ops : List Op) (s : St), s.offset ≤ 11 → ∃ t, run desc s ops = some t from h ops fresh (by decide)
  have rd : ∀ off buf (s : St), s.offset ≤ 11 → ∃ r t, readData off buf s = some (r, t) ∧ t.offset ≤ 11 := by
    intro off buf s hs
    unfold readData
    by_cases ho : off ≠ s.offset
    · rw [if_pos ho]; exact ⟨_, _, rfl, Nat.zero_le _⟩
    · rw [if_neg ho, if_neg (by rw [payload_length]; omega), payload_length]
      refine ⟨_, _, rfl, ?_⟩
      show s.offset + _ ≤ 11
      omega
  intro ops
  induction ops with
  | nil => exact fun s _ => ⟨s, rfl⟩
  | cons o os ih =>
    intro s hs
    suffices h : ∃ t, step desc s o = some t ∧ t.offset ≤ 11 by
      obtain ⟨t, ht, hb⟩ := h
      obtain ⟨u, hu⟩ := ih t hb
      exact ⟨u, by simp only [run, ht]; exact hu⟩
    cases o with
    | stage => exact ⟨_, rfl, Nat.zero_le _⟩
    | begin =>
      refine ⟨_, rfl, ?_⟩
      split <;> exact hs
    | abort => exact ⟨_, rfl, hs⟩
    | take buf =>
      simp only [step]
      split
      · exact ⟨_, rfl, hs⟩
      · rename_i g hcur
        generalize buf.take (desc.length + dataSize - g.length) = bf
        unfold takePiece
        split
        · exact ⟨_, rfl, hs⟩
        · have : ∃ b t, reader desc g.length bf s = some (b, t) ∧ t.offset ≤ 11 := by
            unfold reader cdrRead
            split
            · exact ⟨_, _, rfl, hs⟩
            · split
              · dsimp only
                split
                · exact ⟨_, _, rfl, hs⟩
                · obtain ⟨r, t, h1, h2⟩ := rd 0 (bf.drop (min bf.length (desc.length - g.length))) s hs
                  rw [h1]
                  exact ⟨_, _, rfl, h2⟩
              · obtain ⟨r, t, h1, h2⟩ := rd (g.length - desc.length) bf s hs
                rw [h1]
                exact ⟨_, _, rfl, h2⟩
          obtain ⟨b, t, h1, h2⟩ := this
          rw [h1]
          refine ⟨_, rfl, ?_⟩
          dsimp only
          split
          · exact Nat.zero_le _
          · exact h2

/-- C119 (false after giving a message up): after bytes of the recording were taken, the packetizer gives the message up
and begins again. The message it gets then is not the recording, and the recording is no longer staged. -/
theorem C119_false_abort :
    ∃ (desc : Bytes) (ops : List Op) (s : St), run desc fresh (.stage :: .begin :: .take [0, 0, 0] :: .abort :: ops) = some s ∧
      (∀ o ∈ ops, o ≠ .abort ∧ o ≠ .stage) ∧ s.ready = false ∧
      s.sent = [[0xef, 0xef, 0xef, 0xef, 0xef, 0xef, 0xef, 0xef, 0xef, 0xef, 0xef, 0xef]] :=
  ⟨[1, 2], [.begin, .take (List.replicate 12 0)], ⟨false, 0, none, [List.replicate 12 0xef]⟩, by decide, by decide, rfl, rfl⟩

/-- C119 (false when staged anew): the recording is staged again while it is being taken: the message is damaged and
the second recording is lost. -/
theorem C119_false_stage :
    ∃ (desc : Bytes) (s : St),
      run desc fresh [.stage, .begin, .take [0, 0, 0], .stage, .take (List.replicate 12 0)] = some s ∧
      s.ready = false ∧ s.sent.length = 1 ∧ ∀ m ∈ s.sent, m ≠ desc ++ hello :=
  ⟨[1, 2], ⟨false, 0, none, [[1, 2, 0x68] ++ List.replicate 9 0xef]⟩, by decide, rfl, rfl, by decide⟩

end Mflt.Props
