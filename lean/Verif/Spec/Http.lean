import Verif.Model.Mem

/-!
# Specification: HTTP responses, URIs and URL encoding

What a response, a URI and a percent-encoded string look like, independently of the code that parses or
writes them. Characters are bytes.
-/

namespace Mflt.Spec.Http

/-- A decimal digit. -/
def IsDigit (c : UInt8) : Prop := 48 ≤ c.toNat ∧ c.toNat ≤ 57

/-- The number written by a string of digits. -/
def decimal (s : Bytes) : Nat := s.foldl (fun n c => 10 * n + (c.toNat - 48)) 0

/-- What is in front of the first space. -/
def word (s : Bytes) : Bytes := s.takeWhile (· ≠ 32)

/-- Digits in which the number 2147483640 is followed by 8 or 9. -/
def RollsOver (s : Bytes) : Prop :=
  ∃ pre post d, s = pre ++ d :: post ∧ decimal pre = 2147483640 ∧ (d = 56 ∨ d = 57)

/-- ASCII lower case. -/
def toLower (c : UInt8) : UInt8 := if 65 ≤ c.toNat ∧ c.toNat ≤ 90 then c + 32 else c

/-- No carriage return and no line feed. -/
def NoBreak (s : Bytes) : Prop := ∀ c ∈ s, c ≠ 13 ∧ c ≠ 10

/-- End of a line: CR LF. -/
def crlf : Bytes := [13, 10]

/-- "content-length". -/
def contentLengthName : Bytes :=
  ("content-length".toList).map fun c => UInt8.ofNat c.toNat

/-- "HTTP/1." -/
def versionPrefix : Bytes := ("HTTP/1.".toList).map fun c => UInt8.ofNat c.toNat

/-- A header line: the length of the body, or any other text. -/
inductive Header
  /-- Name (in any case), spaces in front of and behind the colon, digits. -/
  | length (name : Bytes) (before behind : Nat) (digits : Bytes)
  | other (text : Bytes)

/-- The text of a header line. -/
def Header.text : Header → Bytes
  | .length name before behind digits =>
    name ++ List.replicate before 32 ++ [58] ++ List.replicate behind 32 ++ digits
  | .other text => text

/-- A line which is not a Content-Length header. -/
def NotLength (s : Bytes) : Prop := (s.take 14).map toLower ≠ contentLengthName

/-- Header lines the parser is meant for. Of the lines without meaning, those of 127 characters are
excluded. -/
def Header.Ok : Header → Prop
  | .length name before behind digits =>
    name.map toLower = contentLengthName ∧ digits ≠ [] ∧ (∀ c ∈ digits, IsDigit c) ∧
    decimal digits < 2147483560 ∧ (Header.length name before behind digits).text.length ≤ 126
  | .other text => text ≠ [] ∧ NoBreak text ∧ text.length ≠ 127 ∧ NotLength text

/-- The content length the headers announce: that of the last Content-Length header. -/
def announced (hs : List Header) : Nat :=
  hs.foldl (fun n h => match h with
    | .length _ _ _ digits => decimal digits
    | .other _ => n) 0

/-- A response. -/
structure Response where
  minor : UInt8
  spaces : Nat
  code : Bytes
  reason : Bytes
  headers : List Header
  body : Bytes

/-- The status line. -/
def Response.statusLine (r : Response) : Bytes :=
  versionPrefix ++ [r.minor] ++ List.replicate (r.spaces + 1) 32 ++ r.code ++ [32] ++ r.reason

/-- The header lines with their line ends. -/
def headerText : List Header → Bytes
  | [] => []
  | h :: hs => h.text ++ crlf ++ headerText hs

/-- Status line and headers, without the empty line. -/
def Response.head (r : Response) : Bytes := r.statusLine ++ crlf ++ headerText r.headers

/-- The bytes of a response. -/
def Response.bytes (r : Response) : Bytes := r.head ++ crlf ++ r.body

/-- A well-formed status line and well-formed headers. -/
structure Response.HeadOk (r : Response) : Prop where
  minor : IsDigit r.minor
  code : r.code.length = 3
  digits : ∀ c ∈ r.code, IsDigit c
  reason : NoBreak r.reason
  short : r.statusLine.length ≤ 126
  headers : ∀ h ∈ r.headers, h.Ok

/-- Well-formed responses. -/
structure Response.Ok (r : Response) : Prop extends Response.HeadOk r where
  body : r.body.length = announced r.headers

/-! ## URIs -/

/-- A URI with the `http` or `https` scheme (in any case). -/
structure Uri where
  https : Bool
  schemeText : Bytes
  user : Option Bytes
  host : Bytes
  port : Option Bytes
  path : Option Bytes

/-- User info with `@`. -/
def Uri.userText (u : Uri) : Bytes :=
  match u.user with
  | some s => s ++ [64]
  | none => []

/-- Port with `:`. -/
def Uri.portText (u : Uri) : Bytes :=
  match u.port with
  | some p => 58 :: p
  | none => []

/-- The text of a URI: scheme, `://`, user info, host, port, path. -/
def Uri.bytes (u : Uri) : Bytes :=
  u.schemeText ++ [58, 47, 47] ++ u.userText ++ u.host ++ u.portText ++ u.path.getD []

/-- "http" or "https". -/
def schemeName (https : Bool) : Bytes :=
  if https then [104, 116, 116, 112, 115] else [104, 116, 116, 112]

/-- A host name or IPv4 address. -/
def HostName (h : Bytes) : Prop := h ≠ [] ∧ (∀ c ∈ h, c ≠ 47 ∧ c ≠ 64 ∧ c ≠ 58) ∧ h.head? ≠ some 91

/-- An IP literal: square brackets with anything but `/`, `@` and brackets inside. -/
def IpLiteral (h : Bytes) : Prop :=
  ∃ inner : Bytes, h = 91 :: inner ++ [93] ∧ ∀ c ∈ inner, c ≠ 47 ∧ c ≠ 64 ∧ c ≠ 93

/-- Well-formed URIs. -/
structure Uri.Ok (u : Uri) : Prop where
  scheme : u.schemeText.map toLower = schemeName u.https
  user : ∀ s ∈ u.user, ∀ c ∈ s, c ≠ 47 ∧ c ≠ 64
  host : HostName u.host ∨ IpLiteral u.host
  port : ∀ p ∈ u.port, p ≠ [] ∧ (∀ c ∈ p, IsDigit c) ∧ decimal p ≤ 65535
  path : ∀ p ∈ u.path, p.head? = some 47

/-- The port a URI stands for. -/
def Uri.portNumber (u : Uri) : Nat :=
  match u.port with
  | some p => decimal p
  | none => if u.https then 443 else 80

/-! ## Percent-encoding -/

/-- The unreserved characters of RFC 3986: letters, digits, `-`, `.`, `_`, `~`. -/
def Unreserved (c : UInt8) : Prop :=
  IsDigit c ∨ (65 ≤ c.toNat ∧ c.toNat ≤ 90) ∨ (97 ≤ c.toNat ∧ c.toNat ≤ 122) ∨
    c = 45 ∨ c = 46 ∨ c = 95 ∨ c = 126

instance (c : UInt8) : Decidable (Unreserved c) := by unfold Unreserved IsDigit; infer_instance

/-- The value of an upper-case hexadecimal digit. -/
def hexValue (c : UInt8) : Option Nat :=
  if 48 ≤ c.toNat ∧ c.toNat ≤ 57 then some (c.toNat - 48)
  else if 65 ≤ c.toNat ∧ c.toNat ≤ 70 then some (c.toNat - 55)
  else none

/-- Percent-decoding of a string of unreserved characters and escapes; `none` for anything else. -/
def percentDecode : Bytes → Option Bytes
  | [] => some []
  | 37 :: a :: b :: rest =>
    match hexValue a, hexValue b, percentDecode rest with
    | some x, some y, some s => some (UInt8.ofNat (16 * x + y) :: s)
    | _, _, _ => none
  | c :: rest => if Unreserved c then (percentDecode rest).map (c :: ·) else none

/-- The number of characters of the encoding. -/
def encodedLength (s : Bytes) : Nat := (s.map fun c => if Unreserved c then 1 else 3).sum

end Mflt.Spec.Http
