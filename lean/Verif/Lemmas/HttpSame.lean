import Verif.Lemmas.HttpResponse

/-!
# What is left in the line buffer does not influence the parser
-/

namespace Mflt.Http

/-- Contexts with the same results so far. -/
structure Agree (a b : Ctx) : Prop where
  err : a.err = b.err
  status : a.status = b.status
  body : a.body = b.body
  contentLength : a.contentLength = b.contentLength
  phase : a.phase = b.phase
  received : a.received = b.received

/-- Contexts which also have the same part of a line. -/
structure Same (a b : Ctx) : Prop extends Agree a b where
  len : a.lineLen = b.lineLen
  text : a.line.take a.lineLen = b.line.take b.lineLen
  wfa : Wf a
  wfb : Wf b

theorem lineEnd_same {a b a' : Ctx} (h : Agree a b) {t x y : Bytes} {d : Bool} (hx : x.length = 128)
    (hy : y.length = 128) (he : lineEnd a t x = some (a', d)) :
    ∃ b', lineEnd b t y = some (b', d) ∧ Same a' b' := by
  obtain ⟨h1, h2, h3, h4, h5, h6⟩ := h
  obtain ⟨a1, a2, a3, a4, a5, a6, a7, a8, a9⟩ := a
  obtain ⟨b1, b2, b3, b4, b5, b6, b7, b8, b9⟩ := b
  dsimp only at h1 h2 h3 h4 h5 h6
  subst h1 h2 h3 h4 h5 h6
  obtain ⟨_, _, hw, hwa⟩ := lineEnd_wf (ctx := ⟨a1, a2, a3, a4, a5, a6, a7, a8, a9⟩) (t := t) hx
  obtain ⟨bb, dd, hw', hwb⟩ := lineEnd_wf (ctx := ⟨a1, a2, a3, b4, a5, a6, a7, b8, b9⟩) (t := t) hy
  rw [he] at hw
  cases hw
  refine ⟨bb, ?_⟩
  rw [hw']
  unfold lineEnd at he hw'
  cases a6 with
  | status =>
    dsimp only at he hw'
    cases hp : parseStatusLine (t ++ [0]) t.length with
    | none => rw [hp] at he; cases he
    | some o =>
      rw [hp] at he hw'
      cases o with
      | none => cases he; cases hw'; exact ⟨rfl, ⟨rfl, rfl, rfl, rfl, rfl, rfl⟩, rfl, rfl, hwa, hwb⟩
      | some v => cases he; cases hw'; exact ⟨rfl, ⟨rfl, rfl, rfl, rfl, rfl, rfl⟩, rfl, rfl, hwa, hwb⟩
  | header =>
    dsimp only at he hw'
    cases hp : parseHeader (t ++ [0]) t.length a5 with
    | none => rw [hp] at he; cases he
    | some o =>
      rw [hp] at he hw'
      cases o with
      | none => cases he; cases hw'; exact ⟨rfl, ⟨rfl, rfl, rfl, rfl, rfl, rfl⟩, rfl, rfl, hwa, hwb⟩
      | some v =>
        dsimp only [Option.map_some] at he hw'
        by_cases h1 : t.length ≠ 0
        · rw [if_pos h1] at he hw'
          cases he; cases hw'; exact ⟨rfl, ⟨rfl, rfl, rfl, rfl, rfl, rfl⟩, rfl, rfl, hwa, hwb⟩
        · rw [if_neg h1] at he hw'
          by_cases h2 : v = 0
          · rw [if_pos h2] at he hw'
            cases he; cases hw'; exact ⟨rfl, ⟨rfl, rfl, rfl, rfl, rfl, rfl⟩, rfl, rfl, hwa, hwb⟩
          · rw [if_neg h2] at he hw'
            cases he; cases hw'; exact ⟨rfl, ⟨rfl, rfl, rfl, rfl, rfl, rfl⟩, rfl, rfl, hwa, hwb⟩
  | body => cases he; cases hw'; exact ⟨rfl, ⟨rfl, rfl, rfl, rfl, rfl, rfl⟩, rfl, rfl, hwa, hwb⟩

/-- One byte of a line which is not full, in terms of the text of the line. -/
theorem step_text {ctx : Ctx} (ho : Bool) (c : UInt8) (hw : Wf ctx) (hp : ctx.phase ≠ .body)
    (hlt : ctx.lineLen < 128) :
    ∃ buf, buf.length = 128 ∧ step ho ctx c =
      if 1 ≤ ctx.lineLen ∧ (ctx.line.take ctx.lineLen)[ctx.lineLen - 1]? = some 13 ∧ c = 10 then
        lineEnd ctx ((ctx.line.take ctx.lineLen).take (ctx.lineLen - 1)) buf
      else some ({ ctx with line := ctx.line.set ctx.lineLen c, lineLen := ctx.lineLen + 1,
                            processed := ctx.processed + 1 }, false) := by
  have hl := hw.line
  refine ⟨(ctx.line.set ctx.lineLen c).set (ctx.lineLen - 1) 0, by simp [hl], ?_⟩
  by_cases hc : c = 10
  · subst hc
    unfold step storeChar
    rw [if_neg hp, if_neg (by omega), memcpyIn_set 10 (by omega)]
    dsimp only [Option.map_some]
    by_cases h1 : ctx.lineLen + 1 < 2
    · rw [if_pos h1, if_neg (by omega)]
    · rw [if_neg h1]
      rw [show ctx.lineLen + 1 - 2 = ctx.lineLen - 1 by omega,
        show ctx.lineLen - 1 + 1 = ctx.lineLen by omega]
      have g2 : (ctx.line.set ctx.lineLen 10)[ctx.lineLen]? = some 10 := List.getElem?_set_self (by omega)
      have g1 : (ctx.line.set ctx.lineLen 10)[ctx.lineLen - 1]? = (ctx.line.take ctx.lineLen)[ctx.lineLen - 1]? := by
        rw [List.getElem?_set_ne (by omega), List.getElem?_take_of_lt (by omega)]
      have g0 : (ctx.line.take ctx.lineLen)[ctx.lineLen - 1]? = some (ctx.line[ctx.lineLen - 1]'(by omega)) := by
        rw [List.getElem?_take_of_lt (by omega), List.getElem?_eq_getElem]
      rw [g1, g2, g0]
      dsimp only
      by_cases h13 : ctx.line[ctx.lineLen - 1]'(by omega) = 13
      · rw [if_pos ⟨h13, rfl⟩, if_pos ⟨by omega, by rw [h13], rfl⟩, endOfLine_eq _ _ (by show _ < List.length _; simp; omega)]
        dsimp only
        rw [List.take_set_of_le (by omega), List.take_take, Nat.min_eq_left (by omega)]
        rfl
      · rw [if_neg (fun h => h13 h.1), if_neg (fun h => h13 (by simpa using h.2.1))]
  · rw [step_char ho hp hl hlt hc, if_neg (fun h => hc h.2.2)]

theorem step_same {a b a' : Ctx} (h : Same a b) (ho : Bool) (c : UInt8) {d : Bool}
    (hs : step ho a c = some (a', d)) : ∃ b', step ho b c = some (b', d) ∧ Same a' b' := by
  have hla := h.wfa.line
  have hlb := h.wfb.line
  have hlen := h.len
  obtain ⟨a2, d2, q1, hwa'⟩ := step_wf h.wfa ho c
  rw [hs] at q1
  cases q1
  obtain ⟨b', d2, hb', hwb'⟩ := step_wf h.wfb ho c
  by_cases hp : a.phase = .body
  · have hpb : b.phase = .body := h.phase ▸ hp
    have hba := h.wfa.body hp
    unfold step at hs hb' ⊢
    rw [if_pos hp] at hs
    rw [if_pos hpb] at hb' ⊢
    cases ho with
    | true => cases hs; exact ⟨b, rfl, h⟩
    | false =>
      refine ⟨b', ?_⟩
      have hs' : stepBody a c = some (a', d) := hs
      have hb2 : stepBody b c = some (b', d2) := hb'
      have hgoal : d = d2 ∧ Same a' b' → (stepBody b c = some (b', d) ∧ Same a' b') := by
        rintro ⟨rfl, hx⟩; exact ⟨hb2, hx⟩
      refine hgoal ?_
      unfold stepBody bodyLen at hs' hb2
      rw [← hlen, ← h.received, ← h.contentLength] at hb2
      by_cases h1 : a.lineLen < 127
      · rw [if_pos h1, if_pos h1, memcpyIn_set c (by omega)] at hs' hb2
        dsimp only at hs' hb2
        have htk : (a.line.set a.lineLen c).take (a.lineLen + 1) = (b.line.set a.lineLen c).take (a.lineLen + 1) := by
          rw [take_set_succ c (by omega), take_set_succ c (by omega), h.text, hlen]
        by_cases h2 : a.received + 1 = a.contentLength
        · rw [if_pos h2, memcpyIn_set 0 (by rw [List.length_set]; omega)] at hs' hb2
          dsimp only at hs' hb2
          cases hs'; cases hb2
          refine ⟨rfl, ⟨h.err, h.status, ?_, rfl, h.phase, rfl⟩, rfl, ?_, hwa', hwb'⟩
          · dsimp only
            rw [List.take_set_of_le (Nat.le_refl _), List.take_set_of_le (Nat.le_refl _), htk]
          · dsimp only
            rw [List.take_set_of_le (Nat.le_refl _), List.take_set_of_le (Nat.le_refl _), htk]
        · rw [if_neg h2] at hs' hb2
          cases hs'; cases hb2
          exact ⟨rfl, ⟨h.err, h.status, h.body, rfl, h.phase, rfl⟩, rfl, htk, hwa', hwb'⟩
      · rw [if_neg h1, if_neg h1] at hs' hb2
        dsimp only at hs' hb2
        have htk : a.line.take a.lineLen = b.line.take a.lineLen := by rw [h.text, hlen]
        by_cases h2 : a.received + 1 = a.contentLength
        · rw [if_pos h2, memcpyIn_set 0 (by omega)] at hs' hb2
          dsimp only at hs' hb2
          cases hs'; cases hb2
          refine ⟨rfl, ⟨h.err, h.status, ?_, rfl, h.phase, rfl⟩, rfl, ?_, hwa', hwb'⟩
          · dsimp only
            rw [List.take_set_of_le (Nat.le_refl _), List.take_set_of_le (Nat.le_refl _), htk]
          · dsimp only
            rw [List.take_set_of_le (Nat.le_refl _), List.take_set_of_le (Nat.le_refl _), htk]
        · rw [if_neg h2] at hs' hb2
          cases hs'; cases hb2
          exact ⟨rfl, ⟨h.err, h.status, h.body, rfl, h.phase, rfl⟩, rfl, htk, hwa', hwb'⟩
  · have hpb : b.phase ≠ .body := h.phase ▸ hp
    by_cases hlt : a.lineLen < 128
    · obtain ⟨x, x1, x2⟩ := step_text ho c h.wfa hp hlt
      obtain ⟨y, y1, y2⟩ := step_text ho c h.wfb hpb (by omega)
      rw [hs] at x2
      rw [← h.text, ← hlen] at y2
      by_cases hcond : 1 ≤ a.lineLen ∧ (a.line.take a.lineLen)[a.lineLen - 1]? = some 13 ∧ c = 10
      · rw [if_pos hcond] at x2 y2
        rw [y2]
        exact lineEnd_same h.toAgree x1 y1 x2.symm
      · rw [if_neg hcond] at x2 y2
        cases x2
        rw [hb'] at y2
        cases y2
        refine ⟨_, hb', ⟨h.err, h.status, h.body, h.contentLength, h.phase, h.received⟩, rfl, ?_, hwa', hwb'⟩
        dsimp only
        rw [take_set_succ c (by omega), take_set_succ c (by omega), h.text, hlen]
    · -- the lines are the same
      have ha : a.lineLen = 128 := by have := h.wfa.len; omega
      have hlines : a.line = b.line := by
        have := h.text
        rwa [List.take_of_length_le (by omega), List.take_of_length_le (by omega)] at this
      have ea : a = ({ a with processed := 0 } : Ctx).plus a.processed := by simp [Ctx.plus]
      have eb : b = ({ a with processed := 0 } : Ctx).plus b.processed := by
        obtain ⟨h1, h2, h3, h4, h5, h6⟩ := h.toAgree
        obtain ⟨a1, a2, a3, a4, a5, a6, a7, a8, a9⟩ := a
        obtain ⟨b1, b2, b3, b4, b5, b6, b7, b8, b9⟩ := b
        simp only [Ctx.plus] at *
        subst h1 h2 h3 h4 h5 h6 hlen hlines
        simp
      rw [ea, step_plus] at hs
      rw [eb, step_plus] at hb' ⊢
      cases hz : step ho ({ a with processed := 0 } : Ctx) c with
      | none => rw [hz] at hs; cases hs
      | some p =>
        obtain ⟨z, dz⟩ := p
        rw [hz] at hs hb'
        cases hs; cases hb'
        exact ⟨_, rfl, ⟨rfl, rfl, rfl, rfl, rfl, rfl⟩, rfl, rfl, hwa', hwb'⟩

theorem steps_same (ho : Bool) : ∀ (data : Bytes) (a b a' : Ctx) (d : Bool), Same a b →
    steps ho a data = some (a', d) → ∃ b', steps ho b data = some (b', d) ∧ Same a' b'
  | [], a, b, a', d, h, hs => by cases hs; exact ⟨b, rfl, h⟩
  | c :: cs, a, b, a', d, h, hs => by
    obtain ⟨x, dx, hx, _⟩ := step_wf h.wfa ho c
    obtain ⟨y, hy1, hy2⟩ := step_same h ho c hx
    rw [steps_cons_eq, hx] at hs
    rw [steps_cons_eq, hy1]
    cases dx with
    | false => exact steps_same ho cs x y a' d hy2 hs
    | true => cases hs; exact ⟨y, rfl, hy2⟩

end Mflt.Http
