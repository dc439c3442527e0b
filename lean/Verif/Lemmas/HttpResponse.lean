import Verif.Lemmas.HttpStep

/-!
# Lemmas about whole HTTP responses
-/

namespace Mflt.Http

open Mflt.Spec.Http (NoBreak Header Response decimal announced headerText crlf)

/-! ## The count of processed bytes does not influence anything -/

/-- A context with `n` more bytes processed. -/
def Ctx.plus (ctx : Ctx) (n : Nat) : Ctx := { ctx with processed := ctx.processed + n }

/-- A result with `n` more bytes processed. -/
def plusR (n : Nat) (r : Ctx × Bool) : Ctx × Bool := (r.1.plus n, r.2)

theorem plus_add (a n : Nat) : a + n + 1 = a + 1 + n := by omega

theorem endOfLine_plus (ctx : Ctx) (n len : Nat) :
    endOfLine (ctx.plus n) len = (endOfLine ctx len).map (plusR n) := by
  obtain ⟨e, st, bo, pr, cl, ph, re, ll, li⟩ := ctx
  unfold endOfLine Ctx.plus
  dsimp only
  cases memcpyIn li len [0] with
  | none => rfl
  | some buf =>
    simp only [Option.bind_eq_bind, Option.bind_some]
    cases ph with
    | status =>
      dsimp only
      cases parseStatusLine (buf.take (len + 1)) len with
      | none => rfl
      | some o =>
        cases o with
        | none => simp [plusR, Ctx.plus]
        | some v => simp [plusR, Ctx.plus, plus_add]
    | header =>
      dsimp only
      cases parseHeader (buf.take (len + 1)) len cl with
      | none => rfl
      | some o =>
        cases o with
        | none => simp [plusR, Ctx.plus]
        | some v =>
          dsimp only [Option.bind_some]
          split
          · simp [plusR, Ctx.plus, plus_add]
          · split <;> simp [plusR, Ctx.plus, plus_add]
    | body => simp [plusR, Ctx.plus, plus_add]

theorem stepBody_plus (ctx : Ctx) (n : Nat) (c : UInt8) :
    stepBody (ctx.plus n) c = (stepBody ctx c).map (plusR n) := by
  obtain ⟨e, st, bo, pr, cl, ph, re, ll, li⟩ := ctx
  unfold stepBody Ctx.plus bodyLen
  dsimp only
  cases (if ll < 127 then memcpyIn li ll [c] else some li) with
  | none => rfl
  | some line =>
    dsimp only
    split
    · cases memcpyIn line (if ll < 127 then ll + 1 else ll) [0] with
      | none => rfl
      | some line => simp [plusR, Ctx.plus, plus_add]
    · simp [plusR, Ctx.plus, plus_add]

theorem storeChar_plus (ctx : Ctx) (n : Nat) (c : UInt8) :
    storeChar (ctx.plus n) c = (storeChar ctx c).map fun o => o.map fun x => x.plus n := by
  unfold storeChar
  show (if 128 ≤ ctx.lineLen then (if ctx.phase = .header then
    (if c = 13 then (memcpyIn ctx.line 126 [c]).map _ else if c = 10 then (memcpyIn ctx.line 127 [c]).map _ else _)
    else _) else (memcpyIn ctx.line ctx.lineLen [c]).map _) = _
  split
  · split
    · split
      · cases memcpyIn ctx.line 126 [c] <;> rfl
      · split
        · cases memcpyIn ctx.line 127 [c] <;> rfl
        · rfl
    · rfl
  · cases memcpyIn ctx.line ctx.lineLen [c] <;> rfl

theorem step_plus (ho : Bool) (ctx : Ctx) (n : Nat) (c : UInt8) :
    step ho (ctx.plus n) c = (step ho ctx c).map (plusR n) := by
  unfold step
  have hp : (ctx.plus n).phase = ctx.phase := rfl
  rw [hp, storeChar_plus, stepBody_plus]
  by_cases h : ctx.phase = .body
  · rw [if_pos h, if_pos h]
    cases ho <;> rfl
  · rw [if_neg h, if_neg h]
    cases storeChar ctx c with
    | none => rfl
    | some o =>
      cases o with
      | none => rfl
      | some x =>
        dsimp only [Option.map_some]
        show (if x.lineLen < 2 then _ else _) = _
        split
        · simp [plusR, Ctx.plus, plus_add]
        · show (match x.line[x.lineLen - 2]?, x.line[x.lineLen - 2 + 1]? with | some a, some b => _ | _, _ => none) = _
          cases x.line[x.lineLen - 2]? with
          | none => rfl
          | some a =>
            cases x.line[x.lineLen - 2 + 1]? with
            | none => rfl
            | some b =>
              dsimp only
              split
              · exact endOfLine_plus x n (x.lineLen - 2)
              · simp [plusR, Ctx.plus, plus_add]

theorem steps_plus (ho : Bool) (n : Nat) : ∀ (data : Bytes) (ctx : Ctx),
    steps ho (ctx.plus n) data = (steps ho ctx data).map (plusR n)
  | [], ctx => rfl
  | c :: cs, ctx => by
    rw [steps_cons_eq, steps_cons_eq, step_plus]
    cases step ho ctx c with
    | none => rfl
    | some p =>
      obtain ⟨x, d⟩ := p
      cases d with
      | false => exact steps_plus ho n cs x
      | true => rfl

/-! ## At most the bytes given are processed -/

theorem lineEnd_processed {ctx ctx' : Ctx} {t buf : Bytes} {d : Bool} (h : lineEnd ctx t buf = some (ctx', d)) :
    ctx'.processed ≤ ctx.processed + 1 ∧ (d = true → ctx'.processed = ctx.processed) := by
  unfold lineEnd at h
  cases hph : ctx.phase with
  | status =>
    rw [hph] at h
    dsimp only at h
    cases hp : parseStatusLine (t ++ [0]) t.length with
    | none => rw [hp] at h; cases h
    | some o =>
      rw [hp] at h
      cases o with
      | none => cases h; exact ⟨Nat.le_succ _, fun _ => rfl⟩
      | some v => cases h; exact ⟨Nat.le_refl _, fun hx => (nomatch hx)⟩
  | header =>
    rw [hph] at h
    dsimp only at h
    cases hp : parseHeader (t ++ [0]) t.length ctx.contentLength with
    | none => rw [hp] at h; cases h
    | some o =>
      rw [hp] at h
      cases o with
      | none => cases h; exact ⟨Nat.le_succ _, fun _ => rfl⟩
      | some v =>
        dsimp only [Option.map_some] at h
        split at h
        · cases h; exact ⟨Nat.le_refl _, fun hx => (nomatch hx)⟩
        · split at h
          · cases h; exact ⟨Nat.le_succ _, fun _ => rfl⟩
          · cases h; exact ⟨Nat.le_refl _, fun hx => (nomatch hx)⟩
  | body =>
    rw [hph] at h
    cases h
    exact ⟨Nat.le_refl _, fun hx => (nomatch hx)⟩

/-- Inside a line only complete responses without body and errors end the parsing, and their last byte is
not counted. -/
theorem step_processed {ho : Bool} {ctx ctx' : Ctx} {c : UInt8} {d : Bool} (hw : Wf ctx)
    (h : step ho ctx c = some (ctx', d)) :
    ctx'.processed ≤ ctx.processed + 1 ∧ (d = true → ctx'.phase ≠ .body → ctx'.processed = ctx.processed) := by
  unfold step at h
  by_cases hp : ctx.phase = .body
  · rw [if_pos hp] at h
    cases ho with
    | true =>
      cases h
      exact ⟨Nat.le_succ _, fun _ _ => rfl⟩
    | false =>
      have h' : stepBody ctx c = some (ctx', d) := h
      unfold stepBody at h'
      cases hm : (if ctx.lineLen < 127 then memcpyIn ctx.line ctx.lineLen [c] else some ctx.line) with
      | none => rw [hm] at h'; cases h'
      | some line =>
        rw [hm] at h'
        dsimp only at h'
        split at h'
        · cases hm2 : memcpyIn line (bodyLen ctx) [0] with
          | none => rw [hm2] at h'; cases h'
          | some line2 =>
            rw [hm2] at h'
            cases h'
            exact ⟨Nat.le_refl _, fun _ hx => absurd hp hx⟩
        · cases h'
          exact ⟨Nat.le_refl _, fun hx => (nomatch hx)⟩
  · rw [if_neg hp] at h
    obtain ⟨o, ho1, ho2⟩ := storeChar_wf hw c
    have hproc : ∀ x ∈ o, x.processed = ctx.processed := by
      unfold storeChar at ho1
      intro x hx
      cases hx
      split at ho1
      · split at ho1
        · split at ho1
          · cases hm : memcpyIn ctx.line 126 [c] with
            | none => rw [hm] at ho1; cases ho1
            | some l => rw [hm] at ho1; cases ho1; rfl
          · split at ho1
            · cases hm : memcpyIn ctx.line 127 [c] with
              | none => rw [hm] at ho1; cases ho1
              | some l => rw [hm] at ho1; cases ho1; rfl
            · cases ho1; rfl
        · cases ho1
      · cases hm : memcpyIn ctx.line ctx.lineLen [c] with
        | none => rw [hm] at ho1; cases ho1
        | some l => rw [hm] at ho1; cases ho1; rfl
    rw [ho1] at h
    cases o with
    | none => cases h; exact ⟨Nat.le_succ _, fun _ _ => rfl⟩
    | some x =>
      obtain ⟨l1, l2, l3⟩ := ho2 x rfl
      have hx := hproc x rfl
      dsimp only at h
      split at h
      · cases h
        exact ⟨by show x.processed + 1 ≤ _; omega, fun hx => (nomatch hx)⟩
      · rw [List.getElem?_eq_getElem (by omega), List.getElem?_eq_getElem (by omega)] at h
        dsimp only at h
        split at h
        · rw [endOfLine_eq _ _ (by omega)] at h
          obtain ⟨e1, e2⟩ := lineEnd_processed h
          exact ⟨by omega, fun hd _ => by rw [e2 hd, hx]⟩
        · cases h
          exact ⟨by show x.processed + 1 ≤ _; omega, fun hx => (nomatch hx)⟩

theorem steps_processed (ho : Bool) : ∀ (data : Bytes) (ctx ctx' : Ctx) (d : Bool), Wf ctx →
    steps ho ctx data = some (ctx', d) →
    ctx'.processed ≤ ctx.processed + data.length ∧
      (d = true → ctx'.phase ≠ .body → ctx'.processed < ctx.processed + data.length)
  | [], ctx, ctx', d, _, h => by
    cases h
    exact ⟨Nat.le_refl _, fun hx => (nomatch hx)⟩
  | c :: cs, ctx, ctx', d, hw, h => by
    obtain ⟨x, dx, h1, h2⟩ := step_wf hw ho c
    obtain ⟨p1, p2⟩ := step_processed hw h1
    rw [steps_cons_eq, h1] at h
    rw [List.length_cons]
    cases dx with
    | false =>
      obtain ⟨q1, q2⟩ := steps_processed ho cs x ctx' d h2 h
      exact ⟨by omega, fun hd hb => by have := q2 hd hb; omega⟩
    | true =>
      cases h
      exact ⟨by omega, fun hd hb => by rw [p2 rfl hb]; omega⟩

/-! ## Bodies -/

theorem feed_body (rest : Bytes) : ∀ (bs : Bytes) (ctx : Ctx), ctx.phase = .body → ctx.line.length = 128 →
    ctx.lineLen ≤ 127 → (ctx.lineLen < 127 ∨ bs = [] ∨ ctx.lineLen = 127) → bs ≠ [] →
    ctx.received + bs.length = ctx.contentLength →
    ∃ buf n, steps false ctx (bs ++ rest) =
      some ({ ctx with received := ctx.contentLength, line := buf, lineLen := n,
                       body := some ((ctx.line.take ctx.lineLen ++ bs).take 127),
                       processed := ctx.processed + bs.length }, true)
  | [], _, _, _, _, _, h, _ => absurd rfl h
  | b :: bs, ctx, hp, hl, hle, _, _, hr => by
    have hstep : step false ctx b = stepBody ctx b := by
      unfold step
      rw [if_pos hp]
      rfl
    rw [List.cons_append, steps_cons_eq, hstep]
    rw [List.length_cons] at hr
    -- the buffer with the byte
    obtain ⟨buf, n, hb1, hb2, hb3, hb4⟩ : ∃ buf n,
        (if ctx.lineLen < 127 then memcpyIn ctx.line ctx.lineLen [b] else some ctx.line) = some buf ∧
        (if ctx.lineLen < 127 then ctx.lineLen + 1 else ctx.lineLen) = n ∧ buf.length = 128 ∧
        (n ≤ 127 ∧ buf.take n = (ctx.line.take ctx.lineLen ++ [b]).take 127) := by
      by_cases h : ctx.lineLen < 127
      · rw [if_pos h, if_pos h, memcpyIn_set b (by omega)]
        refine ⟨_, _, rfl, rfl, by simp [hl], by omega, ?_⟩
        rw [take_set_succ b (by omega),
          List.take_of_length_le (l := ctx.line.take ctx.lineLen ++ [b]) (by simp; omega)]
      · rw [if_neg h, if_neg h]
        refine ⟨_, _, rfl, rfl, hl, hle, ?_⟩
        have : ctx.lineLen = 127 := by omega
        have h7 : (ctx.line.take ctx.lineLen).length = 127 := by simp; omega
        rw [List.take_left' h7]
    unfold stepBody bodyLen
    rw [hb1, hb2]
    dsimp only
    cases bs with
    | nil =>
      rw [if_pos (by simpa using hr), memcpyIn_set 0 (by omega)]
      refine ⟨buf.set n 0, n, ?_⟩
      dsimp only
      rw [List.take_set_of_le (Nat.le_refl _), hb4.2]
      have hr' : ctx.received + 1 = ctx.contentLength := by simpa using hr
      rw [hr']
      rfl
    | cons b2 bs2 =>
      rw [if_neg (by rw [List.length_cons] at hr; push_cast at hr; omega)]
      obtain ⟨buf', n', ih⟩ := feed_body rest (b2 :: bs2)
        { ctx with received := ctx.received + 1, line := buf, lineLen := n, processed := ctx.processed + 1 }
        hp hb3 hb4.1 (by show n < 127 ∨ _ ∨ n = 127; omega) (by simp)
        (by show ctx.received + 1 + ((b2 :: bs2).length : Int) = ctx.contentLength
            rw [List.length_cons] at hr ⊢; push_cast at hr ⊢; omega)
      refine ⟨buf', n', ?_⟩
      dsimp only
      rw [ih]
      dsimp only
      rw [hb4.2]
      have e1 : ctx.processed + 1 + (b2 :: bs2).length = ctx.processed + (b :: b2 :: bs2).length := by
        simp only [List.length_cons]; omega
      have e2 : ((ctx.line.take ctx.lineLen ++ [b]).take 127 ++ b2 :: bs2).take 127 =
          (ctx.line.take ctx.lineLen ++ b :: b2 :: bs2).take 127 := by
        by_cases h : ctx.lineLen < 127
        · rw [List.take_of_length_le (show (ctx.line.take ctx.lineLen ++ [b]).length ≤ 127 by simp; omega),
            List.append_assoc]
          rfl
        · have h7 : (ctx.line.take ctx.lineLen).length = 127 := by simp; omega
          rw [List.take_left' h7, List.take_left' h7, List.take_left' h7]
      rw [e1, e2]

/-! ## Headers -/

/-- What is left of the number of headers, from the number so far on. -/
def announcedFrom (n : Nat) (hs : List Header) : Nat :=
  hs.foldl (fun n h => match h with
    | .length _ _ _ digits => decimal digits
    | .other _ => n) n

theorem length_text_noBreak {name : Bytes} {before behind : Nat} {digits : Bytes}
    (h : (Header.length name before behind digits).Ok) : NoBreak (Header.length name before behind digits).text := by
  obtain ⟨h1, _, h3, _, _⟩ := h
  intro c hc
  unfold Header.text at hc
  have key : ∀ c ∈ name, c ≠ 13 ∧ c ≠ 10 := by
    intro c hc
    have hm : Spec.Http.toLower c ∈ Spec.Http.contentLengthName := by rw [← h1]; exact List.mem_map_of_mem hc
    constructor
    · rintro rfl; revert hm; decide
    · rintro rfl; revert hm; decide
  simp only [List.mem_append, List.mem_replicate, List.mem_singleton] at hc
  rcases hc with (((hc | hc) | hc) | hc) | hc
  · exact key c hc
  · rw [hc.2]; decide
  · rw [hc]; decide
  · rw [hc.2]; decide
  · have := h3 c hc
    unfold Spec.Http.IsDigit at this
    constructor
    · rintro rfl; exact absurd this.1 (by decide)
    · rintro rfl; exact absurd this.1 (by decide)

/-- A header line only changes the content length. -/
theorem feed_header (ho : Bool) {h : Header} (hok : h.Ok) {ctx : Ctx} (hp : ctx.phase = .header)
    (hl : ctx.line.length = 128) (h0 : ctx.lineLen = 0) (n : Nat) (hn : ctx.contentLength = n) (rest : Bytes) :
    ∃ buf, buf.length = 128 ∧ steps ho ctx (h.text ++ crlf ++ rest) =
      steps ho { ctx with line := buf, contentLength := announcedFrom n [h],
                          processed := ctx.processed + h.text.length + 2 } rest := by
  have hne : ctx.phase ≠ .body := by rw [hp]; decide
  have happ : h.text ++ crlf ++ rest = h.text ++ 13 :: 10 :: rest := by
    rw [List.append_assoc]; rfl
  rw [happ]
  cases h with
  | other text =>
    obtain ⟨t1, t2, t3, t4⟩ := hok
    obtain ⟨buf, b1, b2⟩ := feed_line ho hne hl h0 (L := text) t2 (.inr ⟨hp, t3⟩) rest
    refine ⟨buf, b1, ?_⟩
    rw [show (Header.other text).text = text by rfl, b2]
    have hlast : parseHeader (text.take 126 ++ [0]) (text.take 126).length (n : Int) = some (some (n : Int)) :=
      parseHeader_other (t := text.take 126) (by
        unfold Spec.Http.NotLength at t4 ⊢
        rw [List.take_take]
        exact t4) n
    have hlen : (text.take 126).length ≠ 0 := by
      cases text with
      | nil => exact absurd rfl t1
      | cons => simp
    unfold lineEnd
    dsimp only
    rw [hp, hn]
    dsimp only
    rw [hlast]
    dsimp only [Option.map_some]
    rw [if_pos hlen]
    dsimp only
    rw [h0]
    rfl
  | length name before behind digits =>
    obtain ⟨buf, b1, b2⟩ := feed_line ho hne hl h0 (length_text_noBreak hok) (.inl hok.2.2.2.2) rest
    refine ⟨buf, b1, ?_⟩
    rw [b2, List.take_of_length_le hok.2.2.2.2]
    have hlast := parseHeader_length hok (n : Int)
    have hlen : (Header.length name before behind digits).text.length ≠ 0 := by
      simp [Header.text]
    unfold lineEnd
    dsimp only
    rw [hp, hn]
    dsimp only
    rw [hlast]
    dsimp only [Option.map_some]
    rw [if_pos hlen]
    dsimp only
    rw [h0]
    rfl

theorem feed_headers (ho : Bool) (rest : Bytes) : ∀ (hs : List Header) (ctx : Ctx), (∀ h ∈ hs, h.Ok) →
    ctx.phase = .header → ctx.line.length = 128 → ctx.lineLen = 0 → ∀ n : Nat, ctx.contentLength = n →
    ∃ buf, buf.length = 128 ∧ steps ho ctx (headerText hs ++ rest) =
      steps ho { ctx with line := buf, contentLength := announcedFrom n hs,
                          processed := ctx.processed + (headerText hs).length } rest
  | [], ctx, _, _, hl, _, n, hn => by
    refine ⟨ctx.line, hl, ?_⟩
    have : ((announcedFrom n [] : Nat) : Int) = ctx.contentLength := hn.symm
    rw [this]
    rfl
  | h :: hs, ctx, hok, hp, hl, h0, n, hn => by
    obtain ⟨buf, b1, b2⟩ := feed_header ho (hok h (List.mem_cons_self ..)) hp hl h0 n hn (headerText hs ++ rest)
    have e : headerText (h :: hs) ++ rest = h.text ++ crlf ++ (headerText hs ++ rest) := by
      simp [headerText]
    rw [e, b2]
    obtain ⟨buf', c1, c2⟩ := feed_headers ho rest hs
      { ctx with line := buf, contentLength := announcedFrom n [h], processed := ctx.processed + h.text.length + 2 }
      (fun x hx => hok x (List.mem_cons_of_mem _ hx)) hp b1 h0 (announcedFrom n [h]) rfl
    refine ⟨buf', c1, ?_⟩
    rw [c2]
    dsimp only
    have e1 : announcedFrom (announcedFrom n [h]) hs = announcedFrom n (h :: hs) := rfl
    have e2 : ctx.processed + h.text.length + 2 + (headerText hs).length =
        ctx.processed + (headerText (h :: hs)).length := by
      simp [headerText, crlf]; omega
    rw [e1, e2]

/-- The context behind the headers. -/
def headed (r : Response) (buf : Bytes) : Ctx :=
  { Ctx.init with status := decimal r.code, phase := .header, line := buf,
                  contentLength := announced r.headers, processed := r.head.length }

/-- Status line and headers. -/
theorem feed_headed (ho : Bool) {r : Response} (hr : r.HeadOk) (rest : Bytes) :
    ∃ buf, buf.length = 128 ∧ steps ho Ctx.init (r.head ++ rest) = steps ho (headed r buf) rest := by
  have hnb : NoBreak r.statusLine := by
    intro c hc
    have hdig : ∀ c, Spec.Http.IsDigit c → c ≠ 13 ∧ c ≠ 10 := by
      intro c h
      unfold Spec.Http.IsDigit at h
      constructor
      · rintro rfl; exact absurd h.1 (by decide)
      · rintro rfl; exact absurd h.1 (by decide)
    unfold Response.statusLine at hc
    simp only [List.mem_append, List.mem_replicate, List.mem_singleton] at hc
    rcases hc with ((((hc | hc) | hc) | hc) | hc) | hc
    · have : ∀ c ∈ Spec.Http.versionPrefix, c ≠ 13 ∧ c ≠ 10 := by decide
      exact this c hc
    · rw [hc]; exact hdig _ hr.minor
    · rw [hc.2]; decide
    · exact hdig _ (hr.digits c hc)
    · rw [hc]; decide
    · exact hr.reason c hc
  have happ : r.head ++ rest = r.statusLine ++ 13 :: 10 :: (headerText r.headers ++ rest) := by
    simp [crlf, Response.head]
  have hil : Ctx.init.line.length = 128 := List.length_replicate ..
  obtain ⟨buf, b1, b2⟩ := feed_line ho (ctx := Ctx.init) (by decide) hil rfl hnb (.inl hr.short)
    (headerText r.headers ++ rest)
  rw [happ, b2, List.take_of_length_le hr.short]
  have hst : parseStatusLine (r.statusLine ++ [0]) r.statusLine.length = some (some ((decimal r.code : Nat) : Int)) :=
    parseStatusLine_ok hr.minor hr.code hr.digits
  unfold lineEnd
  rw [show Ctx.init.phase = .status from rfl]
  dsimp only
  rw [hst]
  dsimp only [Option.map_some]
  obtain ⟨buf2, c1, c2⟩ := feed_headers ho rest r.headers
    { Ctx.init with processed := Ctx.init.processed + r.statusLine.length + 1 + 1, line := buf, lineLen := 0,
                    status := decimal r.code, phase := .header } hr.headers rfl b1 rfl 0 rfl
  refine ⟨buf2, c1, ?_⟩
  rw [c2]
  have hproc : Ctx.init.processed + r.statusLine.length + 1 + 1 + (headerText r.headers).length = r.head.length := by
    show 0 + r.statusLine.length + 1 + 1 + (headerText r.headers).length = _
    simp [Response.head, crlf]; omega
  dsimp only
  rw [hproc]
  rfl

/-- Everything up to the empty line. -/
theorem feed_head (ho : Bool) {r : Response} (hr : r.HeadOk) (rest : Bytes) :
    ∃ buf, buf.length = 128 ∧
      steps ho Ctx.init (r.head ++ crlf ++ rest) =
        if announced r.headers = 0 then
          some ({ Ctx.init with status := decimal r.code, phase := .header, line := buf,
                                processed := r.head.length + 1 }, true)
        else
          steps ho { Ctx.init with status := decimal r.code, phase := .body, line := buf,
                                   contentLength := announced r.headers,
                                   processed := r.head.length + 2 } rest := by
  rw [List.append_assoc]
  obtain ⟨buf2, c1, c2⟩ := feed_headed ho hr (crlf ++ rest)
  rw [c2]
  have hcl : crlf ++ rest = [] ++ 13 :: 10 :: rest := rfl
  rw [hcl]
  obtain ⟨buf3, d1, d2⟩ := feed_line ho (L := []) (ctx := headed r buf2)
    (by intro h; cases h) c1 rfl (by intro c hc; cases hc) (.inl (Nat.zero_le _)) rest
  refine ⟨buf3, d1, ?_⟩
  rw [d2]
  unfold lineEnd
  have hph : (headed r buf2).phase = .header := rfl
  have hemp : ∀ (t : Bytes) (x : Int), parseHeader t (([] : Bytes).take 126).length x = some (some x) := by
    intro t x
    unfold parseHeader
    rw [if_pos (by decide)]
  dsimp only
  rw [hph, hemp]
  dsimp only [Option.map_some]
  rw [if_neg (by simp)]
  have hcl : (headed r buf2).contentLength = announced r.headers := rfl
  rw [hcl]
  by_cases hz : announced r.headers = 0
  · rw [if_pos (by rw [hz]; rfl), if_pos hz, hz]
    rfl
  · rw [if_neg (by simpa using hz), if_neg hz]
    rfl

end Mflt.Http
