import Verif.Lemmas.HttpLine

/-!
# Lemmas about the byte loop of the HTTP response parser
-/

namespace Mflt.Http

open Mflt.Spec.Http (NoBreak)

theorem memcpyIn_set {m : Bytes} {i : Nat} (c : UInt8) (h : i < m.length) :
    memcpyIn m i [c] = some (m.set i c) := by
  unfold memcpyIn
  simp only [List.length_singleton]
  rw [if_pos (by omega)]
  congr 1
  rw [List.set_eq_take_append_cons_drop, if_pos h]
  simp

theorem take_set_succ {m : Bytes} {i : Nat} (c : UInt8) (h : i < m.length) :
    (m.set i c).take (i + 1) = m.take i ++ [c] := by
  rw [List.set_eq_take_append_cons_drop, if_pos h, List.take_append, List.take_of_length_le (by simp)]
  simp only [List.length_take]
  rw [show i + 1 - min i m.length = 1 by omega]
  rfl

/-- What the end of a line with text `t` does; `buf` is the line buffer afterwards. -/
def lineEnd (ctx : Ctx) (t buf : Bytes) : Option (Ctx × Bool) :=
  match ctx.phase with
  | .status =>
    (parseStatusLine (t ++ [0]) t.length).map fun
      | none => ({ ctx with line := buf, lineLen := 0, err := .statusLine }, true)
      | some v => ({ ctx with line := buf, lineLen := 0, status := v, phase := .header,
                              processed := ctx.processed + 1 }, false)
  | .header =>
    (parseHeader (t ++ [0]) t.length ctx.contentLength).map fun
      | none => ({ ctx with line := buf, lineLen := 0, err := .header }, true)
      | some v =>
        if t.length ≠ 0 then
          ({ ctx with line := buf, lineLen := 0, contentLength := v, processed := ctx.processed + 1 }, false)
        else if v = 0 then ({ ctx with line := buf, lineLen := 0, contentLength := v }, true)
        else ({ ctx with line := buf, lineLen := 0, contentLength := v, phase := .body,
                         processed := ctx.processed + 1 }, false)
  | .body => some ({ ctx with line := buf, lineLen := 0, processed := ctx.processed + 1 }, false)

theorem endOfLine_eq (ctx : Ctx) (len : Nat) (h : len < ctx.line.length) :
    endOfLine ctx len = lineEnd ctx (ctx.line.take len) (ctx.line.set len 0) := by
  unfold endOfLine lineEnd
  have hl : (ctx.line.take len).length = len := by rw [List.length_take]; omega
  rw [memcpyIn_set 0 h, hl]
  simp only [Option.bind_eq_bind, Option.bind_some, take_set_succ 0 h]
  cases ctx.phase with
  | status =>
    dsimp only
    cases parseStatusLine (ctx.line.take len ++ [0]) len with
    | none => rfl
    | some o => cases o <;> rfl
  | header =>
    dsimp only
    cases parseHeader (ctx.line.take len ++ [0]) len ctx.contentLength with
    | none => rfl
    | some o =>
      cases o with
      | none => rfl
      | some v =>
        dsimp only [Option.bind_some, Option.map_some]
        split
        · rfl
        · split <;> rfl
  | body => rfl

/-! ## The parser stays in its buffer -/

/-- The line buffer is there and its use is inside. -/
structure Wf (ctx : Ctx) : Prop where
  line : ctx.line.length = 128
  len : ctx.lineLen ≤ 128
  body : ctx.phase = .body → ctx.lineLen ≤ 127

theorem lineEnd_wf {ctx : Ctx} {t buf : Bytes} (hb : buf.length = 128) :
    ∃ ctx' d, lineEnd ctx t buf = some (ctx', d) ∧ Wf ctx' := by
  unfold lineEnd
  cases ctx.phase with
  | status =>
    obtain ⟨o, ho⟩ := parseStatusLine_total t
    dsimp only
    rw [ho]
    cases o with
    | none => exact ⟨_, _, rfl, hb, Nat.zero_le _, fun _ => Nat.zero_le _⟩
    | some v => exact ⟨_, _, rfl, hb, Nat.zero_le _, fun _ => Nat.zero_le _⟩
  | header =>
    obtain ⟨o, ho⟩ := parseHeader_total t ctx.contentLength
    dsimp only
    rw [ho]
    cases o with
    | none => exact ⟨_, _, rfl, hb, Nat.zero_le _, fun _ => Nat.zero_le _⟩
    | some v =>
      dsimp only [Option.map_some]
      split
      · exact ⟨_, _, rfl, hb, Nat.zero_le _, fun _ => Nat.zero_le _⟩
      · split
        · exact ⟨_, _, rfl, hb, Nat.zero_le _, fun _ => Nat.zero_le _⟩
        · exact ⟨_, _, rfl, hb, Nat.zero_le _, fun _ => Nat.zero_le _⟩
  | body => exact ⟨_, _, rfl, hb, Nat.zero_le _, fun _ => Nat.zero_le _⟩

theorem stepBody_wf {ctx : Ctx} (h : Wf ctx) (hp : ctx.phase = .body) (c : UInt8) :
    ∃ ctx' d, stepBody ctx c = some (ctx', d) ∧ Wf ctx' := by
  have hl := h.line
  have hlen := h.body hp
  unfold stepBody bodyLen
  by_cases h1 : ctx.lineLen < 127
  · rw [if_pos h1, if_pos h1, memcpyIn_set c (by omega)]
    dsimp only
    split
    · rw [memcpyIn_set 0 (by rw [List.length_set]; omega)]
      exact ⟨_, _, rfl, by simp [hl], by show ctx.lineLen + 1 ≤ 128; omega,
        fun _ => by show ctx.lineLen + 1 ≤ 127; omega⟩
    · exact ⟨_, _, rfl, by simp [hl], by show ctx.lineLen + 1 ≤ 128; omega,
        fun _ => by show ctx.lineLen + 1 ≤ 127; omega⟩
  · rw [if_neg h1, if_neg h1]
    dsimp only
    split
    · rw [memcpyIn_set 0 (by omega)]
      exact ⟨_, _, rfl, by simp [hl], h.len, fun _ => hlen⟩
    · exact ⟨_, _, rfl, hl, h.len, fun _ => hlen⟩

theorem storeChar_wf {ctx : Ctx} (h : Wf ctx) (c : UInt8) :
    ∃ o, storeChar ctx c = some o ∧ ∀ ctx' ∈ o, ctx'.line.length = 128 ∧ ctx'.lineLen ≤ 128 ∧
      ctx'.phase = ctx.phase := by
  have hl := h.line
  unfold storeChar
  split
  · split
    · split
      · rw [memcpyIn_set c (by omega)]
        refine ⟨_, rfl, ?_⟩
        rintro _ ⟨⟩
        exact ⟨by simp [hl], h.len, rfl⟩
      · split
        · rw [memcpyIn_set c (by omega)]
          refine ⟨_, rfl, ?_⟩
          rintro _ ⟨⟩
          exact ⟨by simp [hl], h.len, rfl⟩
        · refine ⟨_, rfl, ?_⟩
          rintro _ ⟨⟩
          exact ⟨hl, h.len, rfl⟩
    · exact ⟨_, rfl, by rintro _ ⟨⟩⟩
  · rw [memcpyIn_set c (by omega)]
    refine ⟨_, rfl, ?_⟩
    rintro _ ⟨⟩
    exact ⟨by simp [hl], by show ctx.lineLen + 1 ≤ 128; omega, rfl⟩

theorem step_wf {ctx : Ctx} (h : Wf ctx) (ho : Bool) (c : UInt8) :
    ∃ ctx' d, step ho ctx c = some (ctx', d) ∧ Wf ctx' := by
  unfold step
  by_cases hp : ctx.phase = .body
  · rw [if_pos hp]
    cases ho with
    | true => exact ⟨_, _, rfl, h⟩
    | false => exact stepBody_wf h hp c
  · rw [if_neg hp]
    obtain ⟨o, h1, h2⟩ := storeChar_wf h c
    rw [h1]
    cases o with
    | none => exact ⟨_, _, rfl, h.line, h.len, h.body⟩
    | some ctx' =>
      obtain ⟨l1, l2, l3⟩ := h2 ctx' rfl
      have hb : ctx'.phase = .body → ctx'.lineLen ≤ 127 := fun hx => absurd (l3 ▸ hx) hp
      dsimp only
      split
      · exact ⟨_, _, rfl, l1, l2, hb⟩
      · rw [List.getElem?_eq_getElem (by omega), List.getElem?_eq_getElem (by omega)]
        dsimp only
        split
        · rw [endOfLine_eq _ _ (by omega)]
          exact lineEnd_wf (by simp [l1])
        · exact ⟨_, _, rfl, l1, l2, hb⟩

theorem steps_wf (ho : Bool) : ∀ (data : Bytes) (ctx : Ctx), Wf ctx →
    ∃ ctx' d, steps ho ctx data = some (ctx', d) ∧ Wf ctx'
  | [], ctx, h => ⟨ctx, false, rfl, h⟩
  | c :: cs, ctx, h => by
    obtain ⟨ctx', d, h1, h2⟩ := step_wf h ho c
    unfold steps
    rw [h1]
    cases d with
    | false => exact steps_wf ho cs ctx' h2
    | true => exact ⟨_, _, rfl, h2⟩

theorem init_wf : Wf Ctx.init := ⟨List.length_replicate .., Nat.zero_le _, fun _ => Nat.zero_le _⟩

theorem Wf.processed {ctx : Ctx} (h : Wf ctx) (n : Nat) : Wf { ctx with processed := n } :=
  ⟨h.line, h.len, h.body⟩

/-! ## Feeding a line -/

theorem steps_cons_eq (ho : Bool) (ctx : Ctx) (c : UInt8) (cs : Bytes) :
    steps ho ctx (c :: cs) = match step ho ctx c with
      | some (ctx, false) => steps ho ctx cs
      | r => r := rfl

theorem steps_append (ho : Bool) : ∀ (a b : Bytes) (ctx : Ctx),
    steps ho ctx (a ++ b) = match steps ho ctx a with
      | some (ctx', false) => steps ho ctx' b
      | r => r
  | [], b, ctx => rfl
  | c :: a, b, ctx => by
    rw [List.cons_append, steps_cons_eq, steps_cons_eq]
    cases hs : step ho ctx c with
    | none => rfl
    | some p =>
      obtain ⟨ctx', d⟩ := p
      cases d with
      | false => dsimp only; exact steps_append ho a b ctx'
      | true => rfl

theorem steps_cons {ho : Bool} {ctx ctx' : Ctx} {c : UInt8} (h : step ho ctx c = some (ctx', false))
    (cs : Bytes) : steps ho ctx (c :: cs) = steps ho ctx' cs := by
  conv => lhs; unfold steps
  rw [h]

/-- A character that does not end the line and fits. -/
theorem step_char {ctx : Ctx} (ho : Bool) {c : UInt8} (hp : ctx.phase ≠ .body) (hl : ctx.line.length = 128)
    (hlt : ctx.lineLen < 128) (hc : c ≠ 10) :
    step ho ctx c = some ({ ctx with line := ctx.line.set ctx.lineLen c, lineLen := ctx.lineLen + 1,
                                     processed := ctx.processed + 1 }, false) := by
  unfold step storeChar
  rw [if_neg hp, if_neg (by omega), memcpyIn_set c (by omega)]
  simp only [Option.map_some]
  split
  · rfl
  · rename_i h2
    rw [show ctx.lineLen + 1 - 2 + 1 = ctx.lineLen by omega]
    rw [List.getElem?_eq_getElem (by rw [List.length_set]; omega),
      List.getElem?_eq_getElem (by rw [List.length_set]; omega)]
    dsimp only
    rw [List.getElem_set_self, if_neg (fun h => hc h.2)]

/-- A character that does not end the line and is dropped. -/
theorem step_full {ctx : Ctx} (ho : Bool) {c : UInt8} (hp : ctx.phase = .header) (hl : ctx.line.length = 128)
    (heq : ctx.lineLen = 128) (hc : c ≠ 10) (hc' : c ≠ 13) (h127 : ctx.line[127]? ≠ some 10) :
    step ho ctx c = some ({ ctx with processed := ctx.processed + 1 }, false) := by
  unfold step storeChar
  rw [if_neg (by rw [hp]; decide), if_pos (by omega), if_pos hp, if_neg hc', if_neg hc]
  dsimp only
  rw [if_neg (by omega), heq]
  rw [List.getElem?_eq_getElem (by omega)] at h127
  rw [List.getElem?_eq_getElem (by omega), List.getElem?_eq_getElem (by omega)]
  dsimp only
  rw [if_neg (fun h => h127 (by rw [← h.2]))]

theorem NoBreak.tail {c : UInt8} {s : Bytes} (h : NoBreak (c :: s)) : NoBreak s :=
  fun x hx => h x (List.mem_cons_of_mem _ hx)

/-- Feeding text without line breaks. -/
theorem feed (ho : Bool) (rest : Bytes) : ∀ (L : Bytes) (ctx : Ctx), ctx.phase ≠ .body →
    ctx.line.length = 128 → ctx.lineLen ≤ 128 → NoBreak (ctx.line.take ctx.lineLen) → NoBreak L →
    (ctx.lineLen + L.length ≤ 128 ∨ ctx.phase = .header) →
    ∃ buf, buf.length = 128 ∧
      buf.take (min (ctx.lineLen + L.length) 128) = (ctx.line.take ctx.lineLen ++ L).take 128 ∧
      steps ho ctx (L ++ rest) =
        steps ho { ctx with line := buf, lineLen := min (ctx.lineLen + L.length) 128,
                            processed := ctx.processed + L.length } rest
  | [], ctx, _, hl, hle, _, _, _ => by
    refine ⟨ctx.line, hl, ?_, ?_⟩
    · rw [List.length_nil, Nat.add_zero, Nat.min_eq_left hle, List.append_nil, List.take_take, Nat.min_eq_right hle]
    · have e : min (ctx.lineLen + ([] : Bytes).length) 128 = ctx.lineLen := by
        rw [List.length_nil, Nat.add_zero, Nat.min_eq_left hle]
      rw [e]
      rfl
  | c :: L, ctx, hp, hl, hle, hnb, hL, hfit => by
    obtain ⟨c13, c10⟩ := hL c (List.mem_cons_self ..)
    rw [List.cons_append]
    by_cases hlt : ctx.lineLen < 128
    · rw [steps_cons (step_char ho hp hl hlt c10)]
      have htk := take_set_succ c (show ctx.lineLen < ctx.line.length by omega)
      obtain ⟨buf, b1, b2, b3⟩ := feed ho rest L
        { ctx with line := ctx.line.set ctx.lineLen c, lineLen := ctx.lineLen + 1, processed := ctx.processed + 1 }
        hp (by simp [hl]) hlt
        (by show NoBreak ((ctx.line.set ctx.lineLen c).take (ctx.lineLen + 1))
            rw [htk]
            intro x hx
            rcases List.mem_append.1 hx with hx | hx
            · exact hnb x hx
            · rw [List.mem_singleton.1 hx]; exact ⟨c13, c10⟩)
        (NoBreak.tail hL)
        (hfit.imp (fun h => by show ctx.lineLen + 1 + L.length ≤ 128; rw [List.length_cons] at h; omega) id)
      have e1 : ctx.lineLen + (c :: L).length = ctx.lineLen + 1 + L.length := by rw [List.length_cons]; omega
      have e2 : ctx.processed + (c :: L).length = ctx.processed + 1 + L.length := by rw [List.length_cons]; omega
      refine ⟨buf, b1, ?_, ?_⟩
      · rw [e1, b2]
        show ((ctx.line.set ctx.lineLen c).take (ctx.lineLen + 1) ++ L).take 128 = _
        rw [htk]
        congr 1
        rw [List.append_assoc]; rfl
      · rw [e1, e2, b3]
    · have heq : ctx.lineLen = 128 := by omega
      have hhead : ctx.phase = .header := by
        rcases hfit with h | h
        · rw [List.length_cons] at h; omega
        · exact h
      have h127 : ctx.line[127]? ≠ some 10 := by
        intro h
        have hmem : (10 : UInt8) ∈ ctx.line := List.mem_of_getElem? h
        rw [heq, List.take_of_length_le (by omega)] at hnb
        exact (hnb 10 hmem).2 rfl
      rw [steps_cons (step_full ho hhead hl heq c10 c13 h127)]
      obtain ⟨buf, b1, b2, b3⟩ := feed ho rest L { ctx with processed := ctx.processed + 1 } hp hl hle hnb
        (NoBreak.tail hL) (.inr hhead)
      refine ⟨buf, b1, ?_, ?_⟩
      · have m1 : min (ctx.lineLen + L.length) 128 = 128 := by omega
        have m2 : min (ctx.lineLen + (c :: L).length) 128 = 128 := by omega
        have b2' : buf.take (min (ctx.lineLen + L.length) 128) = (ctx.line.take ctx.lineLen ++ L).take 128 := b2
        rw [m1] at b2'
        rw [m2, b2']
        rw [List.take_append_of_le_length (by rw [List.length_take]; omega),
          List.take_append_of_le_length (by rw [List.length_take]; omega)]
      · rw [b3]
        have m1 : min (ctx.lineLen + L.length) 128 = 128 := by omega
        have m2 : min (ctx.lineLen + (c :: L).length) 128 = 128 := by omega
        have e2 : ctx.processed + (c :: L).length = ctx.processed + 1 + L.length := by rw [List.length_cons]; omega
        rw [m2, e2]
        dsimp only
        rw [m1]

/-- CR LF behind a line that fits. -/
theorem step_lf {ctx : Ctx} (ho : Bool) (hp : ctx.phase ≠ .body) (hl : ctx.line.length = 128)
    (hlt : ctx.lineLen + 1 < 128) :
    ∃ buf, buf.length = 128 ∧
      step ho { ctx with line := ctx.line.set ctx.lineLen 13, lineLen := ctx.lineLen + 1,
                         processed := ctx.processed + 1 } 10 =
        lineEnd { ctx with processed := ctx.processed + 1 } (ctx.line.take ctx.lineLen) buf := by
  refine ⟨(((ctx.line.set ctx.lineLen 13).set (ctx.lineLen + 1) 10).set ctx.lineLen 0), by simp [hl], ?_⟩
  unfold step storeChar
  rw [if_neg hp, if_neg (by show ¬128 ≤ ctx.lineLen + 1; omega),
    memcpyIn_set 10 (by show ctx.lineLen + 1 < (ctx.line.set ctx.lineLen 13).length; rw [List.length_set]; omega)]
  dsimp only [Option.map_some]
  rw [if_neg (by omega), show ctx.lineLen + 1 + 1 - 2 = ctx.lineLen by omega]
  have g1 : ((ctx.line.set ctx.lineLen 13).set (ctx.lineLen + 1) 10)[ctx.lineLen]? = some 13 := by
    rw [List.getElem?_set_ne (by omega), List.getElem?_set_self (by omega)]
  have g2 : ((ctx.line.set ctx.lineLen 13).set (ctx.lineLen + 1) 10)[ctx.lineLen + 1]? = some 10 := by
    rw [List.getElem?_set_self (by rw [List.length_set]; omega)]
  rw [g1, g2]
  dsimp only
  rw [if_pos ⟨rfl, rfl⟩, endOfLine_eq _ _ (by show ctx.lineLen < List.length _; simp; omega)]
  dsimp only
  have htk : ((ctx.line.set ctx.lineLen 13).set (ctx.lineLen + 1) 10).take ctx.lineLen = ctx.line.take ctx.lineLen := by
    rw [List.take_set_of_le (by omega), List.take_set_of_le (by omega)]
  rw [htk]
  rfl

/-- CR LF behind a header line that does not fit. -/
theorem step_crlf_full {ctx : Ctx} (ho : Bool) (hp : ctx.phase = .header) (hl : ctx.line.length = 128)
    (heq : ctx.lineLen = 128) (h127 : ctx.line[127]? ≠ some 10) :
    ∃ buf, buf.length = 128 ∧ ∀ rest,
      steps ho ctx (13 :: 10 :: rest) =
        match lineEnd { ctx with processed := ctx.processed + 1 } (ctx.line.take 126) buf with
        | some (c, false) => steps ho c rest
        | r => r := by
  have h1 : step ho ctx 13 = some ({ ctx with line := ctx.line.set 126 13, processed := ctx.processed + 1 }, false) := by
    unfold step storeChar
    rw [if_neg (by rw [hp]; decide), if_pos (by omega), if_pos hp, if_pos rfl, memcpyIn_set 13 (by omega)]
    dsimp only [Option.map_some]
    rw [if_neg (by omega), heq]
    have g1 : (ctx.line.set 126 13)[126]? = some 13 := by rw [List.getElem?_set_self (by omega)]
    have g2 : (ctx.line.set 126 13)[127]? = ctx.line[127]? := by rw [List.getElem?_set_ne (by omega)]
    rw [List.getElem?_eq_getElem (l := ctx.line) (by omega)] at g2 h127
    show (match (ctx.line.set 126 13)[126]?, (ctx.line.set 126 13)[127]? with
      | some a, some b => _ | _, _ => none) = _
    rw [g1, g2]
    dsimp only
    rw [if_neg (fun h => h127 (by rw [← h.2]))]
  refine ⟨((ctx.line.set 126 13).set 127 10).set 126 0, by simp [hl], fun rest => ?_⟩
  rw [steps_cons h1]
  have h2 : step ho { ctx with line := ctx.line.set 126 13, processed := ctx.processed + 1 } 10 =
      lineEnd { ctx with processed := ctx.processed + 1 } (ctx.line.take 126)
        (((ctx.line.set 126 13).set 127 10).set 126 0) := by
    unfold step storeChar
    rw [if_neg (by show ctx.phase ≠ _; rw [hp]; decide), if_pos (by show 128 ≤ ctx.lineLen; omega),
      if_pos hp, if_neg (by decide), if_pos rfl,
      memcpyIn_set 10 (by show 127 < (ctx.line.set 126 13).length; rw [List.length_set]; omega)]
    dsimp only [Option.map_some]
    rw [if_neg (by omega), heq]
    have g1 : ((ctx.line.set 126 13).set 127 10)[126]? = some 13 := by
      rw [List.getElem?_set_ne (by omega), List.getElem?_set_self (by omega)]
    have g2 : ((ctx.line.set 126 13).set 127 10)[127]? = some 10 := by
      rw [List.getElem?_set_self (by rw [List.length_set]; omega)]
    show (match ((ctx.line.set 126 13).set 127 10)[126]?, ((ctx.line.set 126 13).set 127 10)[127]? with
      | some a, some b => _ | _, _ => none) = _
    rw [g1, g2]
    dsimp only
    rw [if_pos ⟨rfl, rfl⟩, endOfLine_eq _ _ (by show 126 < List.length _; simp; omega)]
    dsimp only
    have htk : ((ctx.line.set 126 13).set 127 10).take 126 = ctx.line.take 126 := by
      rw [List.take_set_of_le (by omega), List.take_set_of_le (by omega)]
    rw [show 128 - 2 = 126 by rfl, htk]
    rfl
  conv => lhs; unfold steps
  rw [h2]
  rfl

/-- Feeding a whole line. -/
theorem feed_line (ho : Bool) {ctx : Ctx} (hp : ctx.phase ≠ .body) (hl : ctx.line.length = 128)
    (h0 : ctx.lineLen = 0) {L : Bytes} (hL : NoBreak L)
    (hfit : L.length ≤ 126 ∨ (ctx.phase = .header ∧ L.length ≠ 127)) (rest : Bytes) :
    ∃ buf, buf.length = 128 ∧
      steps ho ctx (L ++ 13 :: 10 :: rest) =
        match lineEnd { ctx with processed := ctx.processed + L.length + 1 } (L.take 126) buf with
        | some (c, false) => steps ho c rest
        | r => r := by
  obtain ⟨buf, b1, b2, b3⟩ := feed ho (13 :: 10 :: rest) L ctx hp hl (by omega) (by rw [h0]; intro x hx; simp at hx) hL
    (by rcases hfit with h | h
        · left; omega
        · exact .inr h.1)
  rw [h0, List.take_zero, List.nil_append, Nat.zero_add] at b2
  rw [h0, Nat.zero_add] at b3
  rw [b3]
  by_cases hs : L.length ≤ 126
  · rw [Nat.min_eq_left (by omega), List.take_of_length_le (show L.length ≤ 128 by omega)] at b2
    rw [Nat.min_eq_left (by omega)]
    have hstep := step_char (c := 13) (ctx := { ctx with line := buf, lineLen := L.length, processed := ctx.processed + L.length })
      ho hp b1 (by show L.length < 128; omega) (by decide)
    rw [steps_cons hstep]
    obtain ⟨buf', c1, c2⟩ := step_lf (ctx := { ctx with line := buf, lineLen := L.length, processed := ctx.processed + L.length })
      ho hp b1 (by show L.length + 1 < 128; omega)
    refine ⟨buf', c1, ?_⟩
    conv => lhs; unfold steps
    rw [c2]
    dsimp only
    rw [b2, List.take_of_length_le hs]
    rfl
  · have hhead : ctx.phase = .header ∧ L.length ≠ 127 := by
      rcases hfit with h | h
      · exact absurd h hs
      · exact h
    rw [Nat.min_eq_right (by omega)] at b2
    rw [Nat.min_eq_right (by omega)]
    rw [List.take_of_length_le (by omega)] at b2
    obtain ⟨buf', c1, c2⟩ := step_crlf_full (ctx := { ctx with line := buf, lineLen := 128, processed := ctx.processed + L.length })
      ho hhead.1 b1 rfl (by
        show buf[127]? ≠ some 10
        rw [b2]
        intro h
        exact (hL 10 (List.mem_of_mem_take (List.mem_of_getElem? h))).2 rfl)
    refine ⟨buf', c1, ?_⟩
    rw [c2 rest]
    dsimp only
    rw [b2, List.take_take]
    rfl

end Mflt.Http
