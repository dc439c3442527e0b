import Verif.Lemmas.HttpSame
import Verif.Lemmas.HttpUrl
import Verif.Lemmas.HttpUri

/-!
# HTTP responses, URIs and URL encoding: C44–C49, C60
-/

namespace Mflt.Props

open Mflt.Http
open Mflt.Spec.Http (Response Header NoBreak NotLength decimal announced crlf word IsDigit RollsOver Uri
  toLower schemeName percentDecode encodedLength Unreserved)

/-! ## C44: splitting a response does not matter -/

/-- Feeding the pieces of a response one after the other, until the parser is done: the last context, whether
it is done, and the bytes processed by all calls. -/
def feedAll (headerOnly : Bool) : Ctx → List Bytes → Option (Ctx × Bool × Nat)
  | ctx, [] => some (ctx, false, 0)
  | ctx, p :: ps =>
    match parse headerOnly ctx p with
    | none => none
    | some (c, true) => some (c, true, c.processed)
    | some (c, false) => (feedAll headerOnly c ps).map fun r => (r.1, r.2.1, c.processed + r.2.2)

/-- C44: for all contexts, all byte streams and all ways to split them, feeding the pieces gives what feeding
the whole gives: status, content length, body, error, completion, the rest of the context, and in total the
same number of processed bytes. -/
theorem C44_split (headerOnly : Bool) : ∀ (pieces : List Bytes) (ctx : Ctx),
    (feedAll headerOnly ctx pieces).map (fun r => ({ r.1 with processed := r.2.2 }, r.2.1)) =
      parse headerOnly ctx pieces.flatten
  | [], ctx => rfl
  | p :: ps, ctx => by
    unfold feedAll
    have hp : parse headerOnly ctx (p :: ps).flatten = match parse headerOnly ctx p with
        | some (c, false) => steps headerOnly c ps.flatten
        | r => r := by
      unfold parse
      rw [List.flatten_cons, steps_append]
      cases steps headerOnly { ctx with processed := 0 } p with
      | none => rfl
      | some x => obtain ⟨c, d⟩ := x; cases d <;> rfl
    rw [hp]
    cases hc : parse headerOnly ctx p with
    | none => rfl
    | some x =>
      obtain ⟨c, d⟩ := x
      cases d with
      | true => rfl
      | false =>
        dsimp only
        have ih := C44_split headerOnly ps c
        have hpl : c = ({ c with processed := 0 } : Ctx).plus c.processed := by
          simp [Ctx.plus]
        have hps : steps headerOnly c ps.flatten = (parse headerOnly c ps.flatten).map (plusR c.processed) := by
          conv => lhs; rw [hpl]
          exact steps_plus headerOnly c.processed ps.flatten _
        rw [hps, ← ih]
        cases feedAll headerOnly c ps with
        | none => rfl
        | some r =>
          dsimp only [Option.map_some, plusR, Ctx.plus]
          rw [Nat.add_comm r.2.2]

/-! ### Well-formed responses -/

theorem bytes_feed {r : Response} (hr : r.Ok) (extra : Bytes) :
    ∃ ctx, parse false Ctx.init (r.bytes ++ extra) = some (ctx, true) ∧ ctx.err = .ok ∧
      ctx.status = decimal r.code ∧ ctx.contentLength = r.body.length ∧
      ctx.body = (if r.body = [] then none else some (r.body.take 127)) ∧
      (if r.body = [] then ctx.processed + 1 = r.bytes.length ∧ ctx.phase = .header
       else ctx.processed = r.bytes.length) := by
  have happ : r.bytes ++ extra = r.head ++ crlf ++ (r.body ++ extra) := by
    simp [Response.bytes]
  have hlen : r.bytes.length = r.head.length + 2 + r.body.length := by
    simp [Response.bytes, crlf]
    omega
  have hparse : parse false Ctx.init (r.bytes ++ extra) = steps false Ctx.init (r.bytes ++ extra) := rfl
  rw [hparse, happ]
  obtain ⟨buf, b1, b2⟩ := feed_head false hr.toHeadOk (r.body ++ extra)
  rw [b2, ← hr.body]
  by_cases hb : r.body = []
  · rw [if_pos (by rw [hb]; rfl)]
    refine ⟨_, rfl, rfl, rfl, by rw [hb]; rfl, by rw [if_pos hb]; rfl, ?_⟩
    rw [if_pos hb]
    refine ⟨?_, rfl⟩
    show r.head.length + 1 + 1 = _
    rw [hlen, hb]; rfl
  · have hne : r.body.length ≠ 0 := fun h => hb (List.length_eq_zero_iff.1 h)
    rw [if_neg hne]
    obtain ⟨buf', n, c2⟩ := feed_body extra r.body
      { Ctx.init with status := decimal r.code, phase := .body, line := buf,
                      contentLength := r.body.length, processed := r.head.length + 2 }
      rfl b1 (Nat.zero_le _) (.inl (by show 0 < 127; decide)) hb
      (by show (0 : Int) + (r.body.length : Int) = (r.body.length : Int); omega)
    rw [c2]
    refine ⟨_, rfl, rfl, rfl, rfl, ?_, ?_⟩
    · rw [if_neg hb]
      rfl
    · rw [if_neg hb, hlen]

/-- C44: a well-formed response (HTTP/1.x, status line of at most 126 characters, headers in any order, any
case and any spacing, lengths below 2147483560) fed in any pieces, and with anything behind it, is recognised
as complete without error with its status code, its content length and (the first 127 bytes of) its body. -/
theorem C44_response {r : Response} (hr : r.Ok) (extra : Bytes) (pieces : List Bytes)
    (hpieces : pieces.flatten = r.bytes ++ extra) :
    ∃ ctx n, feedAll false Ctx.init pieces = some (ctx, true, n) ∧ ctx.err = .ok ∧
      ctx.status = decimal r.code ∧ ctx.contentLength = r.body.length ∧
      ctx.body = (if r.body = [] then none else some (r.body.take 127)) := by
  obtain ⟨ctx, h1, h2, h3, h4, h5, _⟩ := bytes_feed hr extra
  have hs := C44_split false pieces Ctx.init
  rw [hpieces, h1] at hs
  cases hf : feedAll false Ctx.init pieces with
  | none => rw [hf] at hs; cases hs
  | some x =>
    obtain ⟨c, d, n⟩ := x
    rw [hf] at hs
    simp only [Option.map_some, Option.some.injEq, Prod.mk.injEq] at hs
    obtain ⟨rfl, rfl⟩ := hs
    exact ⟨c, n, rfl, h2, h3, h4, h5⟩

/-- C44: it is complete with its last byte and not before: after any proper prefix, in any pieces, the parser
asks for more. -/
theorem C44_needs_all {r : Response} (hr : r.Ok) (k : Nat) (hk : k < r.bytes.length) (pieces : List Bytes)
    (hpieces : pieces.flatten = r.bytes.take k) :
    ∃ ctx n, feedAll false Ctx.init pieces = some (ctx, false, n) := by
  have hs := C44_split false pieces Ctx.init
  rw [hpieces] at hs
  have hparse : parse false Ctx.init (r.bytes.take k) = steps false Ctx.init (r.bytes.take k) := rfl
  obtain ⟨c, d, h1, _⟩ := steps_wf false (r.bytes.take k) Ctx.init init_wf
  have hd : d = false := by
    cases d with
    | false => rfl
    | true =>
      exfalso
      obtain ⟨ctx, g1, _, _, _, _, g5⟩ := bytes_feed hr []
      have hall : steps false Ctx.init (r.bytes.take k ++ r.bytes.drop k) = some (ctx, true) := by
        rw [List.take_append_drop]
        rw [List.append_nil] at g1
        exact g1
      rw [steps_append, h1] at hall
      cases hall
      obtain ⟨p1, p2⟩ := steps_processed false (r.bytes.take k) Ctx.init c true init_wf h1
      have hlt : (r.bytes.take k).length = k := by rw [List.length_take]; omega
      rw [hlt] at p1 p2
      have h0 : Ctx.init.processed = 0 := rfl
      rw [h0] at p1 p2
      split at g5
      · have := p2 rfl (by rw [g5.2]; decide)
        omega
      · omega
  rw [hparse, h1, hd] at hs
  cases hf : feedAll false Ctx.init pieces with
  | none => rw [hf] at hs; cases hs
  | some x =>
    obtain ⟨c', d', n⟩ := x
    rw [hf] at hs
    simp only [Option.map_some, Option.some.injEq, Prod.mk.injEq] at hs
    exact ⟨c', n, by rw [hs.2]⟩

/-- "HTTP/1.1 200 OK", a header, "CONTENT-length : 2", "ok". -/
def exResponse : Response where
  minor := 49
  spaces := 0
  code := [50, 48, 48]
  reason := [79, 75]
  headers := [.other [88, 58, 32, 49],
    .length [67, 79, 78, 84, 69, 78, 84, 45, 108, 101, 110, 103, 116, 104] 1 1 [50]]
  body := [111, 107]

theorem exResponse_ok : exResponse.Ok where
  minor := by constructor <;> decide
  code := rfl
  digits := by
    intro c hc
    simp only [exResponse, List.mem_cons, List.not_mem_nil, or_false] at hc
    rcases hc with rfl | rfl | rfl <;> constructor <;> decide
  reason := by
    intro c hc
    simp only [exResponse, List.mem_cons, List.not_mem_nil, or_false] at hc
    rcases hc with rfl | rfl <;> decide
  short := by decide +kernel
  headers := by
    intro h hh
    simp only [exResponse, List.mem_cons, List.not_mem_nil, or_false] at hh
    rcases hh with rfl | rfl
    · refine ⟨by decide, ?_, by decide, by unfold NotLength; decide⟩
      intro c hc
      simp only [List.mem_cons, List.not_mem_nil, or_false] at hc
      rcases hc with rfl | rfl | rfl | rfl <;> decide
    · refine ⟨by decide, by decide, ?_, by decide, by decide⟩
      intro c hc
      rw [List.mem_singleton.1 hc]
      constructor <;> decide
  body := by decide

/-- The hypotheses are met, and by a response in three pieces. -/
example : exResponse.Ok ∧ (feedAll false Ctx.init
      [exResponse.bytes.take 5, (exResponse.bytes.drop 5).take 30, exResponse.bytes.drop 35]).map
        (fun r => ((r.1.err, r.1.status, r.1.contentLength), r.1.body, r.2.1, r.2.2)) =
      some ((Err.ok, 200, 2), some [111, 107], true, 47) :=
  ⟨exResponse_ok, by decide +kernel⟩

/-! ## C45: bounds -/

/-- Any calls of the two parsing functions with any data, on one context. -/
def calls : Ctx → List (Bool × Bytes) → Option Ctx
  | ctx, [] => some ctx
  | ctx, (headerOnly, data) :: cs =>
    match parse headerOnly ctx data with
    | none => none
    | some (ctx, _) => calls ctx cs

/-- C45: whatever is fed, in however many calls, also after completion or an error, nothing is read or written
outside the line buffer, and no line is read behind its terminator (`none` stands for both). -/
theorem C45_bounds (cs : List (Bool × Bytes)) : ∃ ctx, calls Ctx.init cs = some ctx := by
  have key : ∀ (cs : List (Bool × Bytes)) (ctx : Ctx), Wf ctx → ∃ ctx', calls ctx cs = some ctx' := by
    intro cs
    induction cs with
    | nil => intro ctx _; exact ⟨ctx, rfl⟩
    | cons x cs ih =>
      intro ctx h
      obtain ⟨ho, data⟩ := x
      obtain ⟨c, d, h1, h2⟩ := steps_wf ho data { ctx with processed := 0 } (h.processed 0)
      have hparse : parse ho ctx data = some (c, d) := h1
      unfold calls
      rw [hparse]
      exact ih c h2
  exact key cs Ctx.init init_wf

example : (calls Ctx.init [(false, List.replicate 300 72), (true, [13, 10]), (false, [10, 13, 10])]).isSome = true := by
  decide +kernel

/-! ## C46: other headers do not matter -/

/-- C46: behind any status line and headers, a header line of any length but 127 characters which is not a
Content-Length changes nothing: whatever follows, error, status, content length, body and completion are the
same with and without it. Missing: lines of exactly 127 characters (`C46_false_127`). -/
theorem C46_skipped_partial (headerOnly : Bool) {r : Response} (hr : r.HeadOk) {text : Bytes} (hne : text ≠ [])
    (hnb : NoBreak text) (hlen : text.length ≠ 127) (hnl : NotLength text) (rest : Bytes) :
    ∃ a b d, parse headerOnly Ctx.init (r.head ++ rest) = some (a, d) ∧
      parse headerOnly Ctx.init (r.head ++ (text ++ crlf) ++ rest) = some (b, d) ∧
      a.err = b.err ∧ a.status = b.status ∧ a.contentLength = b.contentLength ∧ a.body = b.body := by
  have hp : ∀ data, parse headerOnly Ctx.init data = steps headerOnly Ctx.init data := fun _ => rfl
  rw [hp, hp, List.append_assoc r.head]
  obtain ⟨buf, b1, b2⟩ := feed_headed headerOnly hr rest
  obtain ⟨buf', c1, c2⟩ := feed_headed headerOnly hr (text ++ crlf ++ rest)
  rw [b2, c2]
  obtain ⟨buf2, d1, d2⟩ := feed_header headerOnly (h := .other text) ⟨hne, hnb, hlen, hnl⟩
    (ctx := headed r buf') rfl c1 rfl (announced r.headers) rfl rest
  have d2' : steps headerOnly (headed r buf') (text ++ crlf ++ rest) = _ := d2
  rw [d2']
  have hw1 : Wf (headed r buf) := ⟨b1, Nat.zero_le _, fun _ => Nat.zero_le _⟩
  obtain ⟨a, d, h1, _⟩ := steps_wf headerOnly rest (headed r buf) hw1
  have hsame : Same (headed r buf)
      { headed r buf' with line := buf2, contentLength := announcedFrom (announced r.headers) [.other text],
                           processed := (headed r buf').processed + (Header.other text).text.length + 2 } :=
    ⟨⟨rfl, rfl, rfl, rfl, rfl, rfl⟩, rfl, rfl, hw1, ⟨d1, Nat.zero_le _, fun _ => Nat.zero_le _⟩⟩
  obtain ⟨b, h2, h3⟩ := steps_same headerOnly rest _ _ a d hsame h1
  exact ⟨a, b, d, h1, h2, h3.err, h3.status, h3.contentLength, h3.body⟩

/-- "HTTP/1.1 200 OK", CR LF. -/
def exHead : Bytes := [72, 84, 84, 80, 47, 49, 46, 49, 32, 50, 48, 48, 32, 79, 75, 13, 10]

/-- "Content-Length: 2", CR LF, CR LF, "ok". -/
def exTail : Bytes :=
  [67, 111, 110, 116, 101, 110, 116, 45, 76, 101, 110, 103, 116, 104, 58, 32, 50, 13, 10, 13, 10, 111, 107]

/-- C46 is false as stated: with a header line of 127 characters in front of the Content-Length the response is
never complete, and its content length is not seen; with 126 or 128 characters it is. -/
theorem C46_false_127 :
    (parse false Ctx.init (exHead ++ (List.replicate 127 97 ++ [13, 10]) ++ exTail)).map
      (fun r => (r.1.contentLength, r.1.body, r.2)) = some (0, none, false) ∧
    (parse false Ctx.init (exHead ++ (List.replicate 126 97 ++ [13, 10]) ++ exTail)).map
      (fun r => (r.1.contentLength, r.1.body, r.2)) = some (2, some [111, 107], true) ∧
    (parse false Ctx.init (exHead ++ (List.replicate 128 97 ++ [13, 10]) ++ exTail)).map
      (fun r => (r.1.contentLength, r.1.body, r.2)) = some (2, some [111, 107], true) := by
  decide +kernel

/-- The hypotheses of `C46_skipped_partial` are met by a line of 300 characters. -/
example : exResponse.HeadOk ∧ (List.replicate 300 97 : Bytes) ≠ [] ∧ NoBreak (List.replicate 300 97) ∧
    (List.replicate 300 97 : Bytes).length ≠ 127 ∧ NotLength (List.replicate 300 97) := by
  have hl : (List.replicate 300 97 : Bytes).length = 300 := List.length_replicate ..
  refine ⟨exResponse_ok.toHeadOk, fun h => ?_, ?_, by rw [hl]; decide, ?_⟩
  · rw [h] at hl; cases hl
  · intro c hc
    rw [(List.mem_replicate.1 hc).2]
    decide
  · unfold NotLength
    decide

/-! ## C47: decimal numbers -/

/-- C47: when a number of a line is accepted, everything up to the space or the end is a digit, the value is
the number these digits write, and all of them are counted. Missing: digits which go through 2147483640 and on
with 8 or 9 (`C47_false_wraps`). -/
theorem C47_exact_partial {line : Bytes} {start len : Nat} {v : Int} {n : Nat}
    (h : strToDec line start len = some (some (v, n)))
    (hro : ¬RollsOver (word ((line.drop start).take len))) :
    (∀ c ∈ word ((line.drop start).take len), IsDigit c) ∧ v = decimal (word ((line.drop start).take len)) ∧
      n = (word ((line.drop start).take len)).length := by
  rw [strToDec_eq] at h
  obtain ⟨h1, h2, h3, _⟩ := decL_sound (line.drop start) len 0 [] v n (by decide) (by decide) rfl hro h
  exact ⟨h1, h2, by omega⟩

/-- C47: digits which write a number below 2147483560 are accepted with this value, when they end with the part
to parse or in front of a space. -/
theorem C47_accepts {before digits behind : Bytes} {len : Nat} (hd : ∀ c ∈ digits, IsDigit c)
    (hv : decimal digits < 2147483560)
    (hend : len = digits.length ∨ (digits.length < len ∧ behind.head? = some 32)) :
    strToDec (before ++ digits ++ behind) before.length len = some (some (((decimal digits : Nat) : Int), digits.length)) := by
  rw [strToDec_eq, List.append_assoc, List.drop_left' rfl]
  have := decL_complete digits len 0 [] hd hv behind hend
  rw [Nat.zero_add] at this
  exact this

/-- C47: something that is no digit in front of the first space is refused. -/
theorem C47_refuses {line : Bytes} {start len : Nat} (hin : start + len ≤ line.length)
    (hro : ¬RollsOver (word ((line.drop start).take len)))
    (hbad : ∃ c ∈ word ((line.drop start).take len), ¬IsDigit c) : strToDec line start len = some none := by
  have ht := strToDec_eq line start len
  obtain ⟨o, ho⟩ := decL_total (line.drop start) len 0 0 (.inl (by rw [List.length_drop]; omega))
  rw [ho] at ht
  rw [ht]
  cases o with
  | none => rfl
  | some p =>
    obtain ⟨v, n⟩ := p
    obtain ⟨c, hc, hcd⟩ := hbad
    exact absurd ((C47_exact_partial ht hro).1 c hc) hcd

/-- C47 is false as stated: "21474836408" is accepted as -72; as content length of a response it makes the
parser wait for a body of -72 bytes. -/
theorem C47_false_wraps :
    strToDec [50, 49, 52, 55, 52, 56, 51, 54, 52, 48, 56] 0 11 = some (some (-72, 11)) ∧
    (parse false Ctx.init (exHead ++ [67, 111, 110, 116, 101, 110, 116, 45, 76, 101, 110, 103, 116, 104, 58,
      50, 49, 52, 55, 52, 56, 51, 54, 52, 48, 56, 13, 10, 13, 10])).map
      (fun r => (r.1.contentLength, r.1.phase, r.2)) = some (-72, .body, false) := by
  decide +kernel

example : strToDec [49, 50, 51, 32] 0 4 = some (some (123, 3)) ∧ ¬RollsOver (word [49, 50, 51, 32]) := by
  refine ⟨by decide +kernel, ?_⟩
  rintro ⟨pre, post, d, h, hv, hd⟩
  have hw : word [49, 50, 51, 32] = [49, 50, 51] := by decide
  rw [hw] at h
  have hle := decimal_prefix pre (d :: post)
  rw [← h, hv] at hle
  exact absurd hle (by decide)

/-! ## C48: URIs -/

/-- C48: for all http and https URIs (scheme in any case) made of an optional user info, a host name, IPv4
address or IP literal, an optional port and an optional path, parsing gives exactly the scheme, the host, the
port (443 or 80 when there is none) and the path. -/
theorem C48_components {u : Uri} (h : u.Ok) :
    parseUri u.bytes = some (some ⟨u.https, u.host, u.portNumber, u.path⟩) := parseUri_ok h

/-- C48: parsing any string reads inside the string. Missing: the strings `http://` and `https://`
(`C48_false_in_bounds`). -/
theorem C48_in_bounds_partial (uri : Bytes) (h : ∀ b, uri.map toLower ≠ schemeName b ++ [58, 47, 47]) :
    ∃ o, parseUri uri = some o := parseUri_total uri h

/-- C48 is false as stated: for `http://` and `https://` the byte behind the string is read. -/
theorem C48_false_in_bounds (b : Bool) : parseUri (schemeName b ++ [58, 47, 47]) = none := by
  cases b <;> decide +kernel

/-- HTTPS, user "u:p", "[::1]", port 8080, path "/a". -/
def exUri : Uri where
  https := true
  schemeText := [72, 116, 116, 112, 115]
  user := some [117, 58, 112]
  host := [91, 58, 58, 49, 93]
  port := some [56, 48, 56, 48]
  path := some [47, 97]

example : exUri.Ok ∧ parseUri exUri.bytes = some (some ⟨true, [91, 58, 58, 49, 93], 8080, some [47, 97]⟩) := by
  refine ⟨⟨by decide, ?_, .inr ⟨[58, 58, 49], rfl, ?_⟩, ?_, ?_⟩, by decide +kernel⟩
  · rintro s ⟨⟩ c hc
    simp only [List.mem_cons, List.not_mem_nil, or_false] at hc
    rcases hc with rfl | rfl | rfl <;> decide
  · intro c hc
    simp only [List.mem_cons, List.not_mem_nil, or_false] at hc
    rcases hc with rfl | rfl | rfl <;> decide
  · rintro s ⟨⟩
    refine ⟨by decide, ?_, by decide⟩
    intro c hc
    simp only [List.mem_cons, List.not_mem_nil, or_false] at hc
    rcases hc with rfl | rfl | rfl | rfl <;> constructor <;> decide
  · rintro s ⟨⟩
    rfl

/-! ## C49: URL encoding -/

/-- C49: a string that is not empty and whose encoding fits with its terminator is encoded: the buffer begins
with a string of unreserved characters and escapes which decodes to the input, and a NUL; the rest of the
buffer is as before. Nothing is written outside. Missing: the empty string (`C49_false_empty`). -/
theorem C49_encodes_partial {inp out : Bytes} (hne : inp ≠ []) (hfit : encodedLength inp + 1 ≤ out.length) :
    ∃ e, percentDecode e = some inp ∧ e.length = encodedLength inp ∧
      urlencode inp out = some (0, e ++ [0] ++ out.drop (e.length + 1)) := by
  have h := urlencodeLoop_eq inp [] out (by omega)
  rw [if_pos hfit] at h
  obtain ⟨e, _, e1, e2, e3⟩ := h
  refine ⟨e, e2, e1, ?_⟩
  unfold urlencode
  have h0 : inp.length ≠ 0 := fun hx => hne (List.length_eq_zero_iff.1 hx)
  rw [if_neg (by simp only [Bool.or_eq_true, decide_eq_true_eq]; omega)]
  exact e3

/-- C49: when it does not fit it is refused, and nothing is written outside the buffer. -/
theorem C49_refuses {inp out : Bytes} (hfit : out.length < encodedLength inp + 1) :
    ∃ out', urlencode inp out = some (-1, out') ∧ out'.length = out.length := by
  unfold urlencode
  by_cases h0 : (decide (inp.length = 0) || decide (out.length = 0)) = true
  · rw [if_pos h0]; exact ⟨out, rfl, rfl⟩
  · rw [if_neg h0]
    simp only [Bool.or_eq_true, decide_eq_true_eq] at h0
    have h := urlencodeLoop_eq inp [] out (by omega)
    rw [if_neg (by omega)] at h
    obtain ⟨out', e1, _, e3⟩ := h
    exact ⟨out', e3, e1⟩

/-- C49 is false as stated: the empty string is refused, whatever the buffer. -/
theorem C49_false_empty (out : Bytes) : urlencode [] out = some (-1, out) ∧ encodedLength [] = 0 :=
  ⟨by simp [urlencode], rfl⟩

/-- C49: a string needs escaping exactly when a character is not unreserved, and one that needs none is
copied. -/
theorem C49_needs_escape (s : Bytes) : needsEscape s = false ↔ ∀ c ∈ s, Unreserved c := by
  unfold needsEscape
  rw [List.any_eq_false]
  constructor
  · intro h c hc
    have := h c hc
    simp only [Bool.not_eq_true, Bool.not_eq_false'] at this
    exact (isUnreserved_iff c).1 this
  · intro h c hc
    rw [(isUnreserved_iff c).2 (h c hc)]
    decide

theorem C49_copies {inp out : Bytes} (hne : inp ≠ []) (h : needsEscape inp = false)
    (hfit : inp.length + 1 ≤ out.length) :
    urlencode inp out = some (0, inp ++ [0] ++ out.drop (inp.length + 1)) := by
  have hu := (C49_needs_escape inp).1 h
  have hmap : ∀ s : Bytes, (∀ c ∈ s, Unreserved c) → s.flatMap enc = s ∧ encodedLength s = s.length := by
    intro s
    induction s with
    | nil => intro _; exact ⟨rfl, rfl⟩
    | cons c s ih =>
      intro hs
      obtain ⟨i1, i2⟩ := ih (fun x hx => hs x (List.mem_cons_of_mem _ hx))
      have hc := hs c (List.mem_cons_self ..)
      have he : enc c = [c] := by unfold enc; rw [if_pos ((isUnreserved_iff c).2 hc)]
      constructor
      · rw [List.flatMap_cons, i1, he]; rfl
      · rw [encodedLength_cons, i2, he]; show 1 + s.length = s.length + 1; omega
  obtain ⟨m1, m2⟩ := hmap inp hu
  have hl := urlencodeLoop_eq inp [] out (by omega)
  rw [if_pos (by omega), m1] at hl
  obtain ⟨e, e0, _, _, e3⟩ := hl
  subst e0
  unfold urlencode
  have h0 : e.length ≠ 0 := fun hx => hne (List.length_eq_zero_iff.1 hx)
  rw [if_neg (by simp only [Bool.or_eq_true, decide_eq_true_eq]; omega)]
  exact e3

/-- "a b" in a buffer of seven bytes. -/
example : encodedLength [97, 32, 98] + 1 ≤ (List.replicate 7 1 : Bytes).length ∧
    urlencode [97, 32, 98] (List.replicate 7 1) = some (0, [97, 37, 50, 48, 98, 0, 1]) ∧
    (urlencode [97, 32, 98] (List.replicate 5 1)).map (·.1) = some (-1) := by decide +kernel

/-! ## C60: the count of processed bytes -/

/-- C60: when a response with a body is complete, the bytes processed by all calls are exactly the bytes of the
response, whatever follows it. Missing: responses without a body (`C60_false_no_body`). -/
theorem C60_processed_partial {r : Response} (hr : r.Ok) (hb : r.body ≠ []) (extra : Bytes) (pieces : List Bytes)
    (hpieces : pieces.flatten = r.bytes ++ extra) :
    ∃ ctx, feedAll false Ctx.init pieces = some (ctx, true, r.bytes.length) := by
  obtain ⟨ctx, h1, _, _, _, _, h5⟩ := bytes_feed hr extra
  rw [if_neg hb] at h5
  have hs := C44_split false pieces Ctx.init
  rw [hpieces, h1] at hs
  cases hf : feedAll false Ctx.init pieces with
  | none => rw [hf] at hs; cases hs
  | some x =>
    obtain ⟨c, d, n⟩ := x
    rw [hf] at hs
    simp only [Option.map_some, Option.some.injEq, Prod.mk.injEq] at hs
    obtain ⟨rfl, rfl⟩ := hs
    exact ⟨c, by rw [← h5]⟩

/-- C60: the function for headers stops in front of the body: when at least one byte of the body is there, the
bytes processed are those of the status line, the headers and the empty line. -/
theorem C60_header_only {r : Response} (hr : r.HeadOk) (hb : announced r.headers ≠ 0) (c : UInt8) (rest : Bytes)
    (pieces : List Bytes) (hpieces : pieces.flatten = r.head ++ crlf ++ c :: rest) :
    ∃ ctx, feedAll true Ctx.init pieces = some (ctx, true, (r.head ++ crlf).length) ∧ ctx.err = .ok ∧
      ctx.status = decimal r.code ∧ ctx.contentLength = announced r.headers := by
  obtain ⟨buf, b1, b2⟩ := feed_head true hr (c :: rest)
  rw [if_neg hb, steps_cons_eq] at b2
  unfold step at b2
  rw [if_pos rfl] at b2
  have hs := C44_split true pieces Ctx.init
  have hp : ∀ data, parse true Ctx.init data = steps true Ctx.init data := fun _ => rfl
  rw [hpieces, hp, b2] at hs
  cases hf : feedAll true Ctx.init pieces with
  | none => rw [hf] at hs; cases hs
  | some x =>
    obtain ⟨c', d, n⟩ := x
    rw [hf] at hs
    simp only [Option.map_some, if_true, Option.some.injEq, Prod.mk.injEq] at hs
    obtain ⟨h1, rfl⟩ := hs
    obtain ⟨e, st, bo, pr, cl, ph, re, ll, li⟩ := c'
    simp only [Ctx.mk.injEq] at h1
    obtain ⟨h1, h2, h3, h4, h5, h6, h7, h8, h9⟩ := h1
    refine ⟨⟨e, st, bo, pr, cl, ph, re, ll, li⟩, ?_, h1, h2, h5⟩
    have : (r.head ++ crlf).length = r.head.length + 2 := by simp [crlf]
    rw [this, h4]

/-- C60 is false for responses without a body: of "HTTP/1.1 200 OK", CR LF, CR LF only 18 of the 19 bytes are
counted, by both functions. -/
theorem C60_false_no_body :
    (parse false Ctx.init (exHead ++ [13, 10])).map (fun r => (r.1.err, r.1.processed, r.2)) = some (.ok, 18, true) ∧
    (parse true Ctx.init (exHead ++ [13, 10])).map (fun r => (r.1.err, r.1.processed, r.2)) = some (.ok, 18, true) ∧
    (exHead ++ [13, 10]).length = 19 := by decide +kernel

example : exResponse.body ≠ [] ∧ announced exResponse.headers ≠ 0 := by decide

end Mflt.Props
