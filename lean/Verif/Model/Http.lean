import Verif.Model.Mem

/-!
# Model of `components/http/src/memfault_http_utils.c`: responses, URIs, URL encoding

Characters are bytes. Signed overflow, which C leaves undefined, wraps here.
-/

namespace Mflt.Http

/-- A 32-bit signed result. -/
def wrap (x : Int) : Int := Int.bmod x 4294967296

/-- `prv_is_number`, memfault_http_utils.c:232-234. -/
def isNumber (c : UInt8) : Bool := 48 ≤ c && c ≤ 57

/-- The loop of `prv_count_spaces`, memfault_http_utils.c:238-243. -/
def countSpacesLoop (line : Bytes) : Nat → Nat → Option Nat
  | 0, _ => some 0
  | fuel + 1, i =>
    match line[i]? with
    | none => none
    | some c => if c != 32 then some 0 else (countSpacesLoop line fuel (i + 1)).map (· + 1)

/-- `prv_count_spaces`, memfault_http_utils.c:236-246. -/
def countSpaces (line : Bytes) (start len : Nat) : Option Nat := countSpacesLoop line (len - start) start

/-- `prv_lower`, memfault_http_utils.c:248-256. -/
def lower (c : UInt8) : UInt8 :=
  if 97 ≤ (c ||| 32) && (c ||| 32) ≤ 122 then c ||| 32 else c

/-- `prv_strcasecmp`, memfault_http_utils.c:260-270. -/
def strcasecmp : Bytes → Bytes → Option Bool
  | _, [] => some true
  | [], _ :: _ => none
  | c :: line, s :: str => if lower c != s then some false else strcasecmp line str

/-- The loop of `prv_str_to_dec`, memfault_http_utils.c:275-300: `some none` is failure, otherwise value
and characters processed. -/
def strToDecLoop (line : Bytes) (start : Nat) : Nat → Nat → Int → Option (Option (Int × Nat))
  | 0, idx, r => some (some (r, idx))
  | fuel + 1, idx, r =>
    match line[start + idx]? with
    | none => none
    | some c =>
      if c = 32 then some (some (r, idx))
      else if !isNumber c then some none
      else if 214748364 < wrap (r + (c.toNat - 48)) then some none
      else strToDecLoop line start fuel (idx + 1) (wrap (r * 10 + (c.toNat - 48)))

/-- `prv_str_to_dec`, memfault_http_utils.c:272-304. -/
def strToDec (line : Bytes) (start len : Nat) : Option (Option (Int × Nat)) := strToDecLoop line start len 0 0

/-- `CONTENT_LENGTH`, memfault_http_utils.c:311. -/
def contentLengthName : Bytes := [99, 111, 110, 116, 101, 110, 116, 45, 108, 101, 110, 103, 116, 104]

/-- The rest of `prv_parse_header` behind the name, memfault_http_utils.c:322-334. -/
def parseLengthValue (line : Bytes) (len : Nat) : Option (Option (Int × Nat)) := do
  let n ← countSpaces line 14 len
  let c ← line[14 + n]?
  if c != 58 then return none
  let m ← countSpaces line (14 + n + 1) len
  strToDec line (14 + n + 1 + m) (len - (14 + n + 1 + m))

/-- `prv_parse_header`, memfault_http_utils.c:310-335: `some none` is a parse error, otherwise the new
content length. (On an error the code may store a number as well.) -/
def parseHeader (line : Bytes) (len : Nat) (old : Int) : Option (Option Int) :=
  if len < 14 then some (some old)
  else
    match strcasecmp line contentLengthName with
    | none => none
    | some false => some (some old)
    | some true =>
      match parseLengthValue line len with
      | none => none
      | some none => some none
      | some (some (v, processed)) => if 0 < processed then some (some v) else some none

/-- `HTTP_VERSION`, memfault_http_utils.c:338. -/
def httpVersion : Bytes := [72, 84, 84, 80, 47, 49, 46]

/-- `prv_parse_status_line`, memfault_http_utils.c:337-374: `some none` is a parse error, otherwise the
status code. (On some errors the code stores a number as well.) -/
def parseStatusLine (line : Bytes) (len : Nat) : Option (Option Int) :=
  if len < 7 then some none
  else if line.length < 7 then none
  else if line.take 7 != httpVersion then some none
  else if len < 8 then some none
  else
    match line[7]? with
    | none => none
    | some c =>
      if !isNumber c then some none
      else
        match countSpaces line 8 len with
        | none => none
        | some 0 => some none
        | some (n + 1) =>
          if len < 8 + (n + 1) + 3 then some none
          else
            match strToDec line (8 + (n + 1)) (8 + (n + 1) + 3) with
            | none => none
            | some none => some none
            | some (some (v, processed)) => if processed = 3 then some (some v) else some none

/-- `eMfltHttpParseStatus`, http/utils.h:81-86. -/
inductive Err
  | ok | statusLine | header | tooLong
  deriving Repr, DecidableEq

/-- `eMfltHttpParsePhase`, http/utils.h:88-92. -/
inductive Phase
  | status | header | body
  deriving Repr, DecidableEq

/-- `sMemfaultHttpResponseContext`, http/utils.h:94-114. `body` is the string `http_body` points to when
the parser sets it. -/
structure Ctx where
  err : Err
  status : Int
  body : Option Bytes
  processed : Nat
  contentLength : Int
  phase : Phase
  received : Int
  lineLen : Nat
  line : Bytes
  deriving Repr, DecidableEq

/-- A zeroed context. -/
def Ctx.init : Ctx := ⟨.ok, 0, none, 0, 0, .status, 0, 0, List.replicate 128 0⟩

/-- `line_len` after a byte of the body, memfault_http_utils.c:392-395. -/
def bodyLen (ctx : Ctx) : Nat := if ctx.lineLen < 127 then ctx.lineLen + 1 else ctx.lineLen

/-- A byte of the message body, memfault_http_utils.c:388-409. -/
def stepBody (ctx : Ctx) (c : UInt8) : Option (Ctx × Bool) :=
  match (if ctx.lineLen < 127 then memcpyIn ctx.line ctx.lineLen [c] else some ctx.line) with
  | none => none
  | some line =>
    if ctx.received + 1 = ctx.contentLength then
      match memcpyIn line (bodyLen ctx) [0] with
      | none => none
      | some line =>
        some ({ ctx with received := ctx.received + 1, line := line, lineLen := bodyLen ctx,
                         body := some (line.take (bodyLen ctx)), processed := ctx.processed + 1 }, true)
    else
      some ({ ctx with received := ctx.received + 1, line := line, lineLen := bodyLen ctx,
                       processed := ctx.processed + 1 }, false)

/-- Storing a byte of a line, memfault_http_utils.c:411-431; `some none` is the error. -/
def storeChar (ctx : Ctx) (c : UInt8) : Option (Option Ctx) :=
  if 128 ≤ ctx.lineLen then
    if ctx.phase = .header then
      if c = 13 then (memcpyIn ctx.line 126 [c]).map fun l => some { ctx with line := l }
      else if c = 10 then (memcpyIn ctx.line 127 [c]).map fun l => some { ctx with line := l }
      else some (some ctx)
    else some none
  else (memcpyIn ctx.line ctx.lineLen [c]).map fun l => some { ctx with line := l, lineLen := ctx.lineLen + 1 }

/-- A complete line of `len` characters in front of CR LF, memfault_http_utils.c:437-465. The line is
given to the parsers with its terminator and nothing behind it. -/
def endOfLine (ctx : Ctx) (len : Nat) : Option (Ctx × Bool) := do
  let line ← memcpyIn ctx.line len [0]
  let ctx := { ctx with line := line, lineLen := 0 }
  match ctx.phase with
  | .status =>
    match ← parseStatusLine (line.take (len + 1)) len with
    | none => return ({ ctx with err := .statusLine }, true)
    | some v => return ({ ctx with status := v, phase := .header, processed := ctx.processed + 1 }, false)
  | .header =>
    match ← parseHeader (line.take (len + 1)) len ctx.contentLength with
    | none => return ({ ctx with err := .header }, true)
    | some v =>
      if len ≠ 0 then return ({ ctx with contentLength := v, processed := ctx.processed + 1 }, false)
      else if v = 0 then return ({ ctx with contentLength := v }, true)
      else return ({ ctx with contentLength := v, phase := .body, processed := ctx.processed + 1 }, false)
  | .body => return ({ ctx with processed := ctx.processed + 1 }, false)

/-- One round of the loop of `prv_parse_http_response`, memfault_http_utils.c:386-466. -/
def step (headerOnly : Bool) (ctx : Ctx) (c : UInt8) : Option (Ctx × Bool) :=
  if ctx.phase = .body then
    if headerOnly then some (ctx, true) else stepBody ctx c
  else
    match storeChar ctx c with
    | none => none
    | some none => some ({ ctx with err := .tooLong }, true)
    | some (some ctx) =>
      if ctx.lineLen < 2 then some ({ ctx with processed := ctx.processed + 1 }, false)
      else
        match ctx.line[ctx.lineLen - 2]?, ctx.line[ctx.lineLen - 2 + 1]? with
        | some a, some b =>
          if a = 13 ∧ b = 10 then endOfLine ctx (ctx.lineLen - 2)
          else some ({ ctx with processed := ctx.processed + 1 }, false)
        | _, _ => none

/-- The loop of `prv_parse_http_response`. -/
def steps (headerOnly : Bool) : Ctx → Bytes → Option (Ctx × Bool)
  | ctx, [] => some (ctx, false)
  | ctx, c :: cs =>
    match step headerOnly ctx c with
    | some (ctx, false) => steps headerOnly ctx cs
    | r => r

/-- `prv_parse_http_response`, memfault_http_utils.c:380-468, which is `memfault_http_parse_response`
(:470-474) and `memfault_http_parse_response_header` (:476-480). -/
def parse (headerOnly : Bool) (ctx : Ctx) (data : Bytes) : Option (Ctx × Bool) :=
  steps headerOnly { ctx with processed := 0 } data

/-! ## URIs -/

/-- `sMemfaultUriInfo`, http/utils.h:151-172. -/
structure UriInfo where
  https : Bool
  host : Bytes
  port : Nat
  path : Option Bytes
  deriving Repr, DecidableEq

/-- `prv_find_first_occurrence`, memfault_http_utils.c:482-492. -/
def findFirst (s : Bytes) (c : UInt8) : Option Nat := s.findIdx? (· == c)

/-- `prv_find_last_occurrence`, memfault_http_utils.c:494-504. -/
def findLast (s : Bytes) (c : UInt8) : Option Nat :=
  (s.reverse.findIdx? (· == c)).map fun i => s.length - 1 - i

/-- `prv_startswith_str`, memfault_http_utils.c:506-513. -/
def startsWith (s m : Bytes) : Option Bool := if s.length < m.length then some false else strcasecmp s m

/-- `prv_is_http_or_https_scheme`, memfault_http_utils.c:515-538: HTTPS or not, default port, length. -/
def scheme (uri : Bytes) : Option (Option (Bool × Nat × Nat)) :=
  match startsWith uri [104, 116, 116, 112, 115, 58, 47, 47] with
  | none => none
  | some true => some (some (true, 443, 8))
  | some false =>
    match startsWith uri [104, 116, 116, 112, 58, 47, 47] with
    | none => none
    | some true => some (some (false, 80, 7))
    | some false => some none

/-- Behind the user info, memfault_http_utils.c:572-608. `mem` is the string from the host on, as far as
the caller gave it; `hostLen` is what is left of the authority. -/
def parseHost (https : Bool) (port : Nat) (mem : Bytes) (hostLen : Nat) (path : Option Bytes) :
    Option (Option UriInfo) :=
  match mem[0]? with
  | none => none
  | some c0 =>
    match (if c0 = 91 then findLast (mem.take hostLen) 93 else some 0) with
    | none => some none
    | some search =>
      match findLast (mem.take hostLen) 58 with
      | none => some (if hostLen = 0 then none else some ⟨https, mem.take hostLen, port, path⟩)
      | some offset =>
        if search ≤ offset then
          match strToDec mem (offset + 1) (hostLen - (offset + 1)) with
          | none => none
          | some none => some none
          | some (some (v, processed)) =>
            if processed = 0 then some none
            else if offset = 0 then some none
            else some (some ⟨https, mem.take offset, (v % 4294967296).toNat, path⟩)
        else some (if hostLen = 0 then none else some ⟨https, mem.take hostLen, port, path⟩)

/-- `memfault_http_parse_uri`, memfault_http_utils.c:540-609, on a string of which the caller gave the
length: reading behind it is `none`. -/
def parseUri (uri : Bytes) : Option (Option UriInfo) :=
  match scheme uri with
  | none => none
  | some none => some none
  | some (some (https, port, used)) =>
    let authority := uri.drop used
    let hostLen := (findFirst authority 47).getD authority.length
    let path := (findFirst authority 47).map fun o => authority.drop o
    match findFirst (authority.take hostLen) 64 with
    | none => parseHost https port authority hostLen path
    | some offset =>
      if hostLen = offset + 1 then some none
      else parseHost https port (authority.drop (offset + 1)) (hostLen - (offset + 1)) path

/-! ## URL encoding -/

/-- `prv_is_unreserved`, memfault_http_utils.c:653-655, with `isalnum` of the C locale. -/
def isUnreserved (c : UInt8) : Bool :=
  (48 ≤ c && c ≤ 57) || (65 ≤ c && c ≤ 90) || (97 ≤ c && c ≤ 122) || c == 45 || c == 95 || c == 46 || c == 126

/-- `memfault_http_needs_escape`, memfault_http_utils.c:657-664. -/
def needsEscape (s : Bytes) : Bool := s.any fun c => !isUnreserved c

/-- A digit of `%X`. -/
def upperHex (n : Nat) : UInt8 := if n < 10 then UInt8.ofNat (48 + n) else UInt8.ofNat (55 + n)

/-- `snprintf(outbuf, 4, "%%%02X", c)`. -/
def escaped (c : UInt8) : Bytes := [37, upperHex (c.toNat / 16), upperHex (c.toNat % 16), 0]

/-- The loop of `memfault_http_urlencode`, memfault_http_utils.c:672-697, with the terminator: position,
room left, output buffer. -/
def urlencodeLoop : Bytes → Nat → Nat → Bytes → Option (Int × Bytes)
  | [], pos, _, out => (memcpyIn out pos [0]).map fun out => (0, out)
  | c :: cs, pos, room, out =>
    if room < 2 then some (-1, out)
    else if isUnreserved c then
      match memcpyIn out pos [c] with
      | none => none
      | some out => urlencodeLoop cs (pos + 1) (room - 1) out
    else if room < 4 then some (-1, out)
    else
      match memcpyIn out pos (escaped c) with
      | none => none
      | some out => urlencodeLoop cs (pos + 3) (room - 3) out

/-- `memfault_http_urlencode`, memfault_http_utils.c:666-698, on an output buffer with contents `out`. -/
def urlencode (inp out : Bytes) : Option (Int × Bytes) :=
  if inp.length = 0 || out.length = 0 then some (-1, out)
  else urlencodeLoop inp 0 out.length out

end Mflt.Http
