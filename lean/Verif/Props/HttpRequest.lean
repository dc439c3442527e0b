import Verif.Lemmas.HttpRequest
import Verif.Props.Http

/-! # C70: HTTP requests -/

namespace Mflt.Props

open HttpRequest
open Spec.HttpRequest (Sent Word Request parse query text split parameter)
open Spec.Http (decimal IsDigit NoBreak encodedLength Uri schemeName percentDecode Unreserved)

/-- The host for chunks: the configured one or the default. -/
def chunksHostOf (cfg : Config) : Bytes := cfg.chunksHost.getD (text "chunks.memfault.com")

/-- The host for updates: the configured one or the default. -/
def deviceHostOf (cfg : Config) : Bytes := cfg.deviceHost.getD (text "device.memfault.com")

theorem chunksHostOf_eq (cfg : Config) : chunksHostOf cfg = cfg.chunksApiHost := rfl
theorem deviceHostOf_eq (cfg : Config) : deviceHostOf cfg = cfg.deviceApiHost := rfl

/-- The header fields of a request for chunks. -/
def postFields (host key length : Bytes) : List (Bytes × Bytes) :=
  [(text "Host", host), (text "User-Agent", text "MemfaultSDK/1.23.1"),
    (text "Memfault-Project-Key", key), (text "Content-Type", text "application/octet-stream"),
    (text "Content-Length", length)]

/-- Concrete words and names satisfy what a reader asks of them. -/
instance (s : Bytes) : Decidable (Word s) := by unfold Word; infer_instance
instance (s : Bytes) : Decidable (NoBreak s) := by unfold NoBreak; infer_instance

theorem noBreak_of_digits {s : Bytes} (h : ∀ c ∈ s, IsDigit c) : NoBreak s := by
  intro c hc
  have := h c hc
  unfold IsDigit at this
  constructor <;> rintro rfl <;> revert this <;> decide

theorem word_append {a b : Bytes} (ha : Word a) (hb : Word b) : Word (a ++ b) := by
  intro c hc
  rcases List.mem_append.1 hc with h | h
  · exact ha c h
  · exact hb c h

theorem not_colon_host : 58 ∉ text "Host" := by decide
theorem noBreak_host : NoBreak (text "Host") := by decide
theorem not_colon_key : 58 ∉ text "Memfault-Project-Key" := by decide
theorem noBreak_key : NoBreak (text "Memfault-Project-Key") := by decide
theorem not_colon_length : 58 ∉ text "Content-Length" := by decide
theorem noBreak_length : NoBreak (text "Content-Length") := by decide
theorem version_literal : ascii " HTTP/1.1\r\n" = 32 :: (text "HTTP/1.1" ++ [13, 10]) := by decide
theorem host_literal : ascii "Host:" = text "Host" ++ [58] := by decide
theorem agent_literal : ascii "User-Agent:MemfaultSDK/1.23.1\r\n" =
    text "User-Agent" ++ 58 :: (text "MemfaultSDK/1.23.1" ++ [13, 10]) := by decide
theorem key_literal : ascii "Memfault-Project-Key:" = text "Memfault-Project-Key" ++ [58] := by decide
theorem break_literal : ascii "\r\n" = [13, 10] := by decide

/-- The pieces of a request for a post. -/
def postPieces (cfg : Config) (info : DeviceInfo) (L : Bytes) : List Bytes :=
  [ascii "POST /api/v0/chunks/" ++ info.serial ++ ascii " HTTP/1.1\r\n",
    ascii "Host:", cfg.chunksApiHost, [13, 10], ascii "User-Agent:MemfaultSDK/1.23.1\r\n",
    ascii "Memfault-Project-Key:", cfg.apiKey, [13, 10],
    ascii "Content-Type:application/octet-stream\r\n",
    ascii "Content-Length:" ++ L ++ ascii "\r\n", [13, 10]]

theorem startChunkPost_eq {σ : Type} {cfg : Config} {info : DeviceInfo} {junk L : Bytes} {n : Nat}
    (send : Send σ) (s : σ)
    (hj : junk.length = 100) (hlen : info.serial.length < 69) (hL : formatInt (Http.wrap n) = L)
    (hl : L.length ≤ 11) :
    startChunkPost cfg info junk send n s = some (sendAll send (postPieces cfg info L) s) := by
  have l1 : (ascii "POST /api/v0/chunks/").length = 20 := by decide
  have l2 : (ascii " HTTP/1.1\r\n").length = 11 := by decide
  have l3 : (ascii "Content-Length:").length = 15 := by decide
  have l4 : (ascii "\r\n").length = 2 := by decide
  have hm1 : (ascii "POST /api/v0/chunks/" ++ info.serial ++ ascii " HTTP/1.1\r\n").length < 100 := by
    simp only [List.length_append, l1, l2]; omega
  have hm2 : (ascii "Content-Length:" ++ L ++ ascii "\r\n").length < 100 := by
    simp only [List.length_append, l3, l4]; omega
  unfold startChunkPost postPieces
  rw [snprintf_fits (by omega), hL]
  generalize ascii "POST /api/v0/chunks/" ++ info.serial ++ ascii " HTTP/1.1\r\n" = m1 at hm1 ⊢
  generalize ascii "Content-Length:" ++ L ++ ascii "\r\n" = m2 at hm2 ⊢
  have hb : (m1 ++ 0 :: junk.drop (m1.length + 1)).length = 100 := by
    simp only [List.length_append, List.length_cons, List.length_drop]; omega
  simp only [writeMsg_eq _ hm1, writeHostHdr_eq, writeUserAgentHdr_eq, writeProjectKeyHdr_eq, put_eq,
    writeCrlf_eq, snprintf_fits (show m2.length < (m1 ++ 0 :: junk.drop (m1.length + 1)).length by omega),
    writeMsg_eq _ hm2, andThen_sendAll, List.cons_append, List.nil_append]

theorem parse_post {cfg : Config} {info : DeviceInfo} {L : Bytes} (hserial : Word info.serial)
    (hhost : NoBreak cfg.chunksApiHost) (hkey : NoBreak cfg.apiKey) (hL : NoBreak L) (body : Bytes) :
    parse ((postPieces cfg info L).flatten ++ body) =
        some (⟨text "POST", text "/api/v0/chunks/" ++ info.serial, text "HTTP/1.1",
          postFields cfg.chunksApiHost cfg.apiKey L⟩, body) := by
  have hp := parse_eq (method := text "POST") (target := text "/api/v0/chunks/" ++ info.serial)
    (version := text "HTTP/1.1") (hs := postFields cfg.chunksApiHost cfg.apiKey L) (by decide)
    (word_append (by decide) hserial) (by decide) (by
      intro f hf
      simp only [postFields, List.mem_cons, List.not_mem_nil, or_false] at hf
      rcases hf with rfl | rfl | rfl | rfl | rfl
      · exact ⟨not_colon_host, noBreak_host, hhost⟩
      · exact ⟨by decide, by decide, by decide⟩
      · exact ⟨not_colon_key, noBreak_key, hkey⟩
      · exact ⟨by decide, by decide, by decide⟩
      · exact ⟨not_colon_length, noBreak_length, hL⟩) body
  have a1 : ascii "POST /api/v0/chunks/" = text "POST" ++ 32 :: text "/api/v0/chunks/" := by decide
  have a6 : ascii "Content-Type:application/octet-stream\r\n" =
    text "Content-Type" ++ 58 :: (text "application/octet-stream" ++ [13, 10]) := by decide
  have a7 : ascii "Content-Length:" = text "Content-Length" ++ [58] := by decide
  unfold postPieces
  rw [a1, version_literal, host_literal, agent_literal, key_literal, a6, a7, break_literal]
  refine Eq.trans (congrArg parse ?_) hp
  unfold postFields
  generalize text "POST" = x1
  generalize text "/api/v0/chunks/" = x2
  generalize text "HTTP/1.1" = x3
  generalize text "Host" = x4
  generalize text "User-Agent" = x5
  generalize text "MemfaultSDK/1.23.1" = x6
  generalize text "Memfault-Project-Key" = x7
  generalize text "Content-Type" = x8
  generalize text "application/octet-stream" = x9
  generalize text "Content-Length" = x10
  simp [headerLines]

/-- **C70.** The request for a post of `n` bytes, with a serial number of less than 69 characters, is
what is sent: a server reads from it, whatever body follows, the method, the target with
the serial number, the host, the project key and the length, and then the body. The callback may refuse any
write; then nothing more is written and the failure is reported. Missing: bodies of 2 GiB and more
(`C70_false_huge_body`). -/
theorem C70_chunk_post_partial {cfg : Config} {info : DeviceInfo} {junk : Bytes} {n : Nat}
    (hj : junk.length = 100) (hserial : Word info.serial) (hlen : info.serial.length < 69)
    (hhost : NoBreak (chunksHostOf cfg)) (hkey : NoBreak cfg.apiKey) (hn : n < 2147483648)
    (accept : List Bytes → Bytes → Bool) :
    ∃ request length ok log,
      startChunkPost cfg info junk (record accept) n [] = some (ok, log) ∧
      Sent accept request ok log ∧
      decimal length = n ∧ (∀ c ∈ length, IsDigit c) ∧ length ≠ [] ∧
      ∀ body, parse (request ++ body) =
        some (⟨text "POST", text "/api/v0/chunks/" ++ info.serial, text "HTTP/1.1",
          postFields (chunksHostOf cfg) cfg.apiKey length⟩, body) := by
  obtain ⟨d1, d2, d3, d4⟩ := formatInt_nat hn
  obtain ⟨ok, log, s1, s2⟩ := sendAll_sent accept (postPieces cfg info (formatInt (Http.wrap n)))
  refine ⟨_, formatInt (Http.wrap n), ok, log, ?_, s2, d1, d2, d3, fun body => ?_⟩
  · rw [startChunkPost_eq _ _ hj hlen rfl (by omega), s1]
  · exact parse_post hserial hhost hkey (noBreak_of_digits d2) body

/-- C70: with a longer serial number the call fails and nothing is written. -/
theorem C70_chunk_post_long_serial {cfg : Config} {info : DeviceInfo} {junk : Bytes} {n : Nat}
    (hj : junk.length = 100) (hlen : 69 ≤ info.serial.length) (accept : List Bytes → Bytes → Bool) :
    startChunkPost cfg info junk (record accept) n [] = some (false, []) := by
  have l1 : (ascii "POST /api/v0/chunks/").length = 20 := by decide
  have l2 : (ascii " HTTP/1.1\r\n").length = 11 := by decide
  have hm1 : 100 ≤ (ascii "POST /api/v0/chunks/" ++ info.serial ++ ascii " HTTP/1.1\r\n").length := by
    simp only [List.length_append, l1, l2]; omega
  unfold startChunkPost
  generalize ascii "POST /api/v0/chunks/" ++ info.serial ++ ascii " HTTP/1.1\r\n" = m1 at hm1 ⊢
  rw [snprintf_truncated (by omega) (by omega)]
  simp only [writeMsg, if_pos hm1, andThen]

theorem digits_huge (k : Nat) {n : Nat} (hn : n = k + 10) :
    digitsLoop n 2147483648 [] = text "2147483648" := by
  subst hn
  simp only [digitsLoop, Nat.reduceDiv, Nat.reduceMod, Nat.reduceAdd, Nat.reduceEqDiff, if_false, if_true]
  decide

/-- C70 is false as stated: for a body of 2 GiB the request is sent, with a negative length. -/
theorem C70_false_huge_body {cfg : Config} {info : DeviceInfo} {junk : Bytes}
    (hj : junk.length = 100) (hserial : Word info.serial) (hlen : info.serial.length < 69)
    (hhost : NoBreak (chunksHostOf cfg)) (hkey : NoBreak cfg.apiKey) :
    ∃ log, startChunkPost cfg info junk (record fun _ _ => true) 2147483648 [] = some (true, log) ∧
      parse log.flatten = some (⟨text "POST", text "/api/v0/chunks/" ++ info.serial, text "HTTP/1.1",
          postFields (chunksHostOf cfg) cfg.apiKey (text "-2147483648")⟩, []) := by
  have hL : formatInt (Http.wrap (2147483648 : Nat)) = text "-2147483648" := by
    have h1 : Http.wrap (2147483648 : Nat) = -2147483648 := by decide +kernel
    rw [h1]
    unfold formatInt
    have h2 : (-2147483648 : Int).natAbs = 2147483648 := by decide
    rw [if_pos (by decide), h2, digits_huge 2147483639 (by decide)]
    decide
  have hp := parse_post hserial hhost hkey (L := text "-2147483648") (by decide) []
  rw [List.append_nil] at hp
  obtain ⟨ok, log, s1, s2⟩ := sendAll_sent (fun _ _ => true) (postPieces cfg info (text "-2147483648"))
  have hok : ok = true := by
    cases ok with
    | true => rfl
    | false => obtain ⟨_, _, _, h⟩ := s2.refused rfl; simp at h
  subst hok
  refine ⟨log, ?_, by rw [s2.complete rfl]; exact hp⟩
  rw [startChunkPost_eq _ _ hj hlen hL (by decide), s1]

/-! ## The request for the URL of an update -/

/-- The pieces of a query. -/
def queryPieces (qs : List (Bytes × Bytes)) : List Bytes := qs.flatMap fun q => [[38], q.1, [61], q.2]

theorem decoded_chars {e s : Bytes} (h : percentDecode e = some s) :
    ∀ c ∈ e, c ≠ 0 ∧ c ≠ 32 ∧ c ≠ 13 ∧ c ≠ 10 ∧ c ≠ 38 ∧ c ≠ 61 := by
  intro c hc
  have hx : ∀ n < 256, (Unreserved (UInt8.ofNat n) ∨ UInt8.ofNat n = 37) → UInt8.ofNat n ≠ 0 ∧
      UInt8.ofNat n ≠ 32 ∧ UInt8.ofNat n ≠ 13 ∧ UInt8.ofNat n ≠ 10 ∧ UInt8.ofNat n ≠ 38 ∧
      UInt8.ofNat n ≠ 61 := by decide +kernel
  have := hx c.toNat c.toNat_lt
  rw [UInt8.ofNat_toNat] at this
  exact this (percentDecode_chars e s h c hc)

theorem cString_append {e : Bytes} (h : 0 ∉ e) (r : Bytes) : cString (e ++ [0] ++ r) = some e := by
  unfold cString
  rw [if_pos (by simp)]
  congr 1
  induction e with
  | nil => simp
  | cons x xs ih =>
    simp only [List.mem_cons, not_or] at h
    have : (x != 0) = true := by simpa using Ne.symm h.1
    simp only [List.cons_append, List.takeWhile_cons]
    rw [if_pos (by simpa using Ne.symm h.1)]
    congr 1
    exact ih h.2

theorem writeQparam_eq {σ : Type} (send : Send σ) (name value : Bytes) (s : σ) :
    writeQparam send name value s = some (sendAll send [[38], name, [61], value] s) := by
  unfold writeQparam
  simp only [put_eq, andThen_sendAll, List.cons_append, List.nil_append]

theorem writeQparams_eq {σ : Type} {junk : Bytes} (send : Send σ) (ps : List (Bytes × Bytes))
    (h : ∀ p ∈ ps, p.2 ≠ [] ∧ encodedLength p.2 < junk.length) :
    ∃ qs, List.Forall₂ (fun p q => q.1 = p.1 ∧ percentDecode q.2 = some p.2) ps qs ∧
      ∀ s, writeQparams junk send ps s = some (sendAll send (queryPieces qs) s) := by
  induction ps with
  | nil => exact ⟨[], .nil, fun s => rfl⟩
  | cons p ps ih =>
    obtain ⟨qs, h1, h2⟩ := ih (fun q hq => h q (by simp [hq]))
    obtain ⟨hne, hfit⟩ := h p (by simp)
    obtain ⟨e, e1, e2, e3⟩ := C49_encodes_partial hne (out := junk) (by omega)
    refine ⟨(p.1, e) :: qs, .cons ⟨rfl, e1⟩ h1, fun s => ?_⟩
    obtain ⟨name, value⟩ := p
    unfold writeQparams
    rw [e3]
    simp only [ne_eq, not_true_eq_false, if_false]
    rw [cString_append (fun hc => (decoded_chars e1 0 hc).1 rfl)]
    simp only [h2, writeQparam_eq, andThen_sendAll]
    rfl

theorem split_query (qs : List (Bytes × Bytes)) (h : ∀ q ∈ qs, 38 ∉ q.1 ∧ 38 ∉ q.2) :
    ∀ w, 38 ∉ w → split 38 (w ++ (queryPieces qs).flatten) = w :: qs.map fun q => q.1 ++ 61 :: q.2 := by
  induction qs with
  | nil => intro w hw; simpa [queryPieces] using split_self hw
  | cons q qs ih =>
    intro w hw
    obtain ⟨h1, h2⟩ := h q (by simp)
    have he : w ++ (queryPieces (q :: qs)).flatten =
        w ++ 38 :: ((q.1 ++ 61 :: q.2) ++ (queryPieces qs).flatten) := by simp [queryPieces]
    rw [he, split_append hw, ih (fun x hx => h x (by simp [hx])) _ (by simp [h1, h2])]
    rfl

theorem query_eq {ps qs : List (Bytes × Bytes)}
    (h : List.Forall₂ (fun p q => q.1 = p.1 ∧ percentDecode q.2 = some p.2) ps qs)
    (hn : ∀ p ∈ ps, percentDecode p.1 = some p.1) :
    query (queryPieces qs).flatten = some ps := by
  have hq : ∀ q ∈ qs, 38 ∉ q.1 ∧ 38 ∉ q.2 := by
    intro q hq
    obtain ⟨p, hp, e1, e2⟩ : ∃ p ∈ ps, q.1 = p.1 ∧ percentDecode q.2 = some p.2 := by
      clear hn
      induction h with
      | nil => simp at hq
      | cons hd _ ih =>
        rcases List.mem_cons.1 hq with rfl | hq
        · exact ⟨_, by simp, hd⟩
        · obtain ⟨p, hp, hr⟩ := ih hq
          exact ⟨p, by simp [hp], hr⟩
    constructor
    · rw [e1]; exact fun hc => (decoded_chars (hn p hp) 38 hc).2.2.2.2.1 rfl
    · exact fun hc => (decoded_chars e2 38 hc).2.2.2.2.1 rfl
  have hs := split_query qs hq [] (by simp)
  rw [List.nil_append] at hs
  unfold query
  rw [hs, List.filter_cons_of_neg (by simp), List.filter_eq_self.2 (by
    intro x hx
    obtain ⟨q, -, rfl⟩ := List.mem_map.1 hx
    simp)]
  clear hs hq
  induction h with
  | nil => rfl
  | @cons p q ps qs hd _ ih =>
    have hp := hn p (by simp)
    have hpar : parameter (q.1 ++ 61 :: q.2) = some p := by
      unfold parameter
      rw [cut_append (by rw [hd.1]; exact fun hc => (decoded_chars hp 61 hc).2.2.2.2.2 rfl)]
      simp only [hd.1, hp, hd.2]
    rw [List.map_cons, List.mapM_cons, hpar, ih (fun x hx => hn x (by simp [hx]))]
    rfl

/-- The values of the query of a request for an update. -/
def otaParameters (info : DeviceInfo) : List (Bytes × Bytes) :=
  [(text "device_serial", info.serial), (text "hardware_version", info.hardwareVersion),
    (text "software_type", info.softwareType), (text "current_version", info.softwareVersion)]

/-- The header fields of that request. -/
def otaFields (host key : Bytes) : List (Bytes × Bytes) :=
  [(text "Host", host), (text "User-Agent", text "MemfaultSDK/1.23.1"), (text "Memfault-Project-Key", key)]

/-- The pieces of that request. -/
def otaPieces (cfg : Config) (qs : List (Bytes × Bytes)) : List Bytes :=
  ascii "GET /api/v0/releases/latest/url?" :: queryPieces qs ++
    [ascii " HTTP/1.1\r\n", ascii "Host:", cfg.deviceApiHost, [13, 10],
      ascii "User-Agent:MemfaultSDK/1.23.1\r\n", ascii "Memfault-Project-Key:", cfg.apiKey, [13, 10],
      [13, 10]]

theorem parse_ota {cfg : Config} {qs : List (Bytes × Bytes)} (hq : Word (queryPieces qs).flatten)
    (hhost : NoBreak cfg.deviceApiHost) (hkey : NoBreak cfg.apiKey) (body : Bytes) :
    parse ((otaPieces cfg qs).flatten ++ body) =
        some (⟨text "GET", text "/api/v0/releases/latest/url?" ++ (queryPieces qs).flatten,
          text "HTTP/1.1", otaFields cfg.deviceApiHost cfg.apiKey⟩, body) := by
  have hp := parse_eq (method := text "GET")
    (target := text "/api/v0/releases/latest/url?" ++ (queryPieces qs).flatten)
    (version := text "HTTP/1.1") (hs := otaFields cfg.deviceApiHost cfg.apiKey) (by decide)
    (word_append (by decide) hq) (by decide) (by
      intro f hf
      simp only [otaFields, List.mem_cons, List.not_mem_nil, or_false] at hf
      rcases hf with rfl | rfl | rfl
      · exact ⟨not_colon_host, noBreak_host, hhost⟩
      · exact ⟨by decide, by decide, by decide⟩
      · exact ⟨not_colon_key, noBreak_key, hkey⟩) body
  have a1 : ascii "GET /api/v0/releases/latest/url?" =
    text "GET" ++ 32 :: text "/api/v0/releases/latest/url?" := by decide
  unfold otaPieces
  rw [a1, version_literal, host_literal, agent_literal, key_literal]
  refine Eq.trans (congrArg parse ?_) hp
  unfold otaFields
  generalize text "GET" = x1
  generalize text "/api/v0/releases/latest/url?" = x2
  generalize text "HTTP/1.1" = x3
  generalize text "Host" = x4
  generalize text "User-Agent" = x5
  generalize text "MemfaultSDK/1.23.1" = x6
  generalize text "Memfault-Project-Key" = x7
  simp [headerLines]

theorem word_query {ps qs : List (Bytes × Bytes)}
    (h : List.Forall₂ (fun p q => q.1 = p.1 ∧ percentDecode q.2 = some p.2) ps qs)
    (hn : ∀ p ∈ ps, percentDecode p.1 = some p.1) : Word (queryPieces qs).flatten := by
  have hw : ∀ {e s : Bytes}, percentDecode e = some s → Word e := fun h c hc =>
    ⟨(decoded_chars h c hc).2.1, (decoded_chars h c hc).2.2.1, (decoded_chars h c hc).2.2.2.1⟩
  induction h with
  | nil => simp [queryPieces, Word]
  | @cons p q ps qs hd _ ih =>
    have he : (queryPieces (q :: qs)).flatten = [38] ++ q.1 ++ [61] ++ q.2 ++ (queryPieces qs).flatten := by
      simp [queryPieces]
    rw [he]
    refine word_append (word_append (word_append (word_append (by decide) ?_) (by decide))
      (hw hd.2)) (ih fun x hx => hn x (by simp [hx]))
    rw [hd.1]; exact hw (hn p (by simp))

theorem otaParameters_literal (info : DeviceInfo) :
    [(ascii "device_serial", info.serial), (ascii "hardware_version", info.hardwareVersion),
      (ascii "software_type", info.softwareType), (ascii "current_version", info.softwareVersion)] =
    otaParameters info := rfl

theorem otaParameters_names (info : DeviceInfo) :
    ∀ p ∈ otaParameters info, percentDecode p.1 = some p.1 := by
  have h1 : percentDecode (text "device_serial") = some (text "device_serial") := by decide +kernel
  have h2 : percentDecode (text "hardware_version") = some (text "hardware_version") := by decide +kernel
  have h3 : percentDecode (text "software_type") = some (text "software_type") := by decide +kernel
  have h4 : percentDecode (text "current_version") = some (text "current_version") := by decide +kernel
  intro p hp
  simp only [otaParameters, List.mem_cons, List.not_mem_nil, or_false] at hp
  rcases hp with rfl | rfl | rfl | rfl
  · exact h1
  · exact h2
  · exact h3
  · exact h4

theorem getLatestOtaPayloadUrl_eq {σ : Type} {cfg : Config} {info : DeviceInfo} {junk : Bytes}
    (send : Send σ) (h : ∀ p ∈ otaParameters info, p.2 ≠ [] ∧ encodedLength p.2 < junk.length) :
    ∃ qs, List.Forall₂ (fun p q => q.1 = p.1 ∧ percentDecode q.2 = some p.2) (otaParameters info) qs ∧
      ∀ s, getLatestOtaPayloadUrl cfg info junk send s = some (sendAll send (otaPieces cfg qs) s) := by
  obtain ⟨qs, h1, h2⟩ := writeQparams_eq send (otaParameters info) h
  refine ⟨qs, h1, fun s => ?_⟩
  unfold getLatestOtaPayloadUrl otaPieces
  rw [otaParameters_literal]
  simp only [h2, put_eq, writeHostHdr_eq, writeUserAgentHdr_eq, writeProjectKeyHdr_eq, writeCrlf_eq,
    andThen_sendAll, List.cons_append, List.nil_append]

/-- C70: the request for the URL of an update. A server reads from it the host and the project key, and in
the query the device's values, decoded, under their names. -/
theorem C70_ota_url {cfg : Config} {info : DeviceInfo} {junk : Bytes}
    (h : ∀ p ∈ otaParameters info, p.2 ≠ [] ∧ encodedLength p.2 < junk.length)
    (hhost : NoBreak (deviceHostOf cfg)) (hkey : NoBreak cfg.apiKey)
    (accept : List Bytes → Bytes → Bool) :
    ∃ request q ok log,
      getLatestOtaPayloadUrl cfg info junk (record accept) [] = some (ok, log) ∧
      Sent accept request ok log ∧
      query q = some (otaParameters info) ∧
      ∀ body, parse (request ++ body) =
        some (⟨text "GET", text "/api/v0/releases/latest/url?" ++ q, text "HTTP/1.1",
          otaFields (deviceHostOf cfg) cfg.apiKey⟩, body) := by
  obtain ⟨qs, h1, h2⟩ := getLatestOtaPayloadUrl_eq (cfg := cfg) (record accept) h
  obtain ⟨ok, log, s1, s2⟩ := sendAll_sent accept (otaPieces cfg qs)
  exact ⟨_, (queryPieces qs).flatten, ok, log, by rw [h2, s1], s2,
    query_eq h1 (otaParameters_names info),
    parse_ota (word_query h1 (otaParameters_names info)) hhost hkey⟩

theorem writeQparams_fails {junk : Bytes} (accept : List Bytes → Bytes → Bool) (ps : List (Bytes × Bytes))
    (hn : ∀ p ∈ ps, percentDecode p.1 = some p.1)
    (h : ∃ p ∈ ps, p.2 = [] ∨ junk.length ≤ encodedLength p.2) :
    ∀ l, ∃ done, writeQparams junk (record accept) ps l = some (false, l ++ done) ∧
      Word done.flatten := by
  have hw : ∀ {e s : Bytes}, percentDecode e = some s → Word e := fun h c hc =>
    ⟨(decoded_chars h c hc).2.1, (decoded_chars h c hc).2.2.1, (decoded_chars h c hc).2.2.2.1⟩
  induction ps with
  | nil => simp at h
  | cons p ps ih =>
    intro l
    obtain ⟨name, value⟩ := p
    by_cases hv : value = [] ∨ junk.length ≤ encodedLength value
    · refine ⟨[], ?_, by simp [Word]⟩
      unfold writeQparams
      rcases hv with rfl | hv
      · rw [(C49_false_empty junk).1]; simp
      · obtain ⟨out, e1, e2⟩ := C49_refuses (inp := value) (out := junk) (by omega)
        rw [e1]; simp
    · have hv' : value ≠ [] ∧ encodedLength value < junk.length :=
        ⟨fun hx => hv (.inl hx), Nat.lt_of_not_le fun hx => hv (.inr hx)⟩
      obtain ⟨e, e1, e2, e3⟩ := C49_encodes_partial hv'.1 (out := junk) (by omega)
      unfold writeQparams
      rw [e3]
      simp only [ne_eq, not_true_eq_false, if_false]
      rw [cString_append (fun hc => (decoded_chars e1 0 hc).1 rfl)]
      simp only [writeQparam_eq]
      obtain ⟨ok, done, r1, r2, -, -, -⟩ := sendAll_record accept [[38], name, [61], e] l
      rw [r1]
      have hdone : Word done.flatten := by
        obtain ⟨t, ht⟩ := r2
        have hall : Word ([[38], name, [61], e] : List Bytes).flatten := by
          have he : ([[38], name, [61], e] : List Bytes).flatten = [38] ++ name ++ [61] ++ e := by simp
          rw [he]
          exact word_append (word_append (word_append (by decide) (hw (hn (name, value) (by simp))))
            (by decide)) (hw e1)
        rw [← ht, List.flatten_append] at hall
        exact fun c hc => hall c (by simp only [List.mem_append]; exact .inl hc)
      cases ok with
      | false => exact ⟨done, rfl, hdone⟩
      | true =>
        obtain ⟨q, hq, hbad⟩ := h
        have hq' : q ∈ ps := by
          rcases List.mem_cons.1 hq with rfl | hq
          · exact absurd hbad hv
          · exact hq
        obtain ⟨done', f1, f2⟩ := ih (fun x hx => hn x (by simp [hx])) ⟨q, hq', hbad⟩ (l ++ done)
        refine ⟨done ++ done', ?_, ?_⟩
        · simp only [andThen, f1, List.append_assoc]
        · rw [List.flatten_append]; exact word_append hdone f2

/-- C70: when a value is empty or does not fit, the call fails, and not even the first line is finished. -/
theorem C70_ota_url_refuses {cfg : Config} {info : DeviceInfo} {junk : Bytes}
    (h : ∃ p ∈ otaParameters info, p.2 = [] ∨ junk.length ≤ encodedLength p.2)
    (accept : List Bytes → Bytes → Bool) :
    ∃ log, getLatestOtaPayloadUrl cfg info junk (record accept) [] = some (false, log) ∧
      NoBreak log.flatten := by
  have hl : NoBreak (ascii "GET /api/v0/releases/latest/url?") := by decide
  unfold getLatestOtaPayloadUrl
  rw [otaParameters_literal]
  generalize ascii "GET /api/v0/releases/latest/url?" = g at hl
  simp only [put, record, List.nil_append]
  cases accept [] g with
  | false => exact ⟨[g], rfl, by simpa using hl⟩
  | true =>
    obtain ⟨done, f1, f2⟩ := writeQparams_fails accept (otaParameters info) (otaParameters_names info) h [g]
    refine ⟨[g] ++ done, by simp only [andThen, f1], ?_⟩
    intro c hc
    simp only [List.flatten_append, List.flatten_cons, List.flatten_nil, List.append_nil,
      List.mem_append] at hc
    rcases hc with hc | hc
    · exact hl c hc
    · exact (f2 c hc).2

/-! ## The request for the payload of an update -/

/-- The header fields of that request. -/
def payloadFields (host : Bytes) : List (Bytes × Bytes) :=
  [(text "Host", host), (text "User-Agent", text "MemfaultSDK/1.23.1")]

/-- The pieces of that request. -/
def payloadPieces (path host : Bytes) : List Bytes :=
  [ascii "GET ", path, ascii " HTTP/1.1\r\n", ascii "Host:", host, [13, 10],
    ascii "User-Agent:MemfaultSDK/1.23.1\r\n", [13, 10]]

theorem parse_payload {path host : Bytes} (hp : Word path) (hh : NoBreak host) (body : Bytes) :
    parse ((payloadPieces path host).flatten ++ body) =
      some (⟨text "GET", path, text "HTTP/1.1", payloadFields host⟩, body) := by
  have hp := parse_eq (method := text "GET") (target := path)
    (version := text "HTTP/1.1") (hs := payloadFields host) (by decide) hp (by decide) (by
      intro f hf
      simp only [payloadFields, List.mem_cons, List.not_mem_nil, or_false] at hf
      rcases hf with rfl | rfl
      · exact ⟨not_colon_host, noBreak_host, hh⟩
      · exact ⟨by decide, by decide, by decide⟩) body
  have a1 : ascii "GET " = text "GET" ++ [32] := by decide
  unfold payloadPieces
  rw [a1, version_literal, host_literal, agent_literal]
  refine Eq.trans (congrArg parse ?_) hp
  unfold payloadFields
  generalize text "GET" = x1
  generalize text "HTTP/1.1" = x3
  generalize text "Host" = x4
  generalize text "User-Agent" = x5
  generalize text "MemfaultSDK/1.23.1" = x6
  simp [headerLines]

theorem getOtaPayload_eq {σ : Type} {u : Uri} (hu : u.Ok) (send : Send σ) (s : σ) :
    getOtaPayload send u.bytes s = some (sendAll send (payloadPieces (u.path.getD [47]) u.host) s) := by
  unfold getOtaPayload payloadPieces
  rw [C48_components hu]
  cases u.path with
  | none =>
    simp only [put_eq, writeHostHdr_eq, writeUserAgentHdr_eq, writeCrlf_eq, andThen_sendAll,
      List.cons_append, List.nil_append, Option.getD_none]
  | some p =>
    simp only [put_eq, writeHostHdr_eq, writeUserAgentHdr_eq, writeCrlf_eq, andThen_sendAll,
      List.cons_append, List.nil_append, Option.getD_some]

/-- What the Host field has to be (RFC 7230, 5.4): the host of the URI, with its port unless that is the
default one. -/
def hostField (u : Uri) : Bytes :=
  if u.portNumber = (if u.https then 443 else 80) then u.host else u.host ++ u.portText

/-- C70: the request for the payload of an update asks for the path of the URL (`/` if it has none) on
its host. Missing: URLs with a port that is not the default one (`C70_false_host_port`). -/
theorem C70_ota_payload_partial {u : Uri} (hu : u.Ok) (hpath : ∀ p ∈ u.path, Word p)
    (hhost : NoBreak u.host) (hport : u.portNumber = if u.https then 443 else 80)
    (accept : List Bytes → Bytes → Bool) :
    ∃ request ok log,
      getOtaPayload (record accept) u.bytes [] = some (ok, log) ∧
      Sent accept request ok log ∧
      ∀ body, parse (request ++ body) =
        some (⟨text "GET", u.path.getD (text "/"), text "HTTP/1.1", payloadFields (hostField u)⟩, body) := by
  obtain ⟨ok, log, s1, s2⟩ := sendAll_sent accept (payloadPieces (u.path.getD [47]) u.host)
  have hh : hostField u = u.host := by unfold hostField; rw [if_pos hport]
  refine ⟨_, ok, log, by rw [getOtaPayload_eq hu, s1], s2, fun body => ?_⟩
  rw [hh]
  have hw : Word (u.path.getD [47]) := by
    cases hx : u.path with
    | none => decide
    | some p => exact hpath p (by rw [hx]; rfl)
  exact parse_payload hw hhost body

/-- C70 is false as stated: any other port is left out of the Host field. -/
theorem C70_false_host_port {u : Uri} (hu : u.Ok) (hpath : ∀ p ∈ u.path, Word p)
    (hhost : NoBreak u.host) (hport : u.portNumber ≠ if u.https then 443 else 80) :
    ∃ log r, getOtaPayload (record fun _ _ => true) u.bytes [] = some (true, log) ∧
      parse log.flatten = some (r, []) ∧ (text "Host", u.host) ∈ r.fields ∧
      (text "Host", hostField u) ∉ r.fields := by
  obtain ⟨ok, log, s1, s2⟩ := sendAll_sent (fun _ _ => true) (payloadPieces (u.path.getD [47]) u.host)
  have hok : ok = true := by
    cases ok with
    | true => rfl
    | false => obtain ⟨_, _, _, h⟩ := s2.refused rfl; simp at h
  subst hok
  have hw : Word (u.path.getD [47]) := by
    cases hx : u.path with
    | none => decide
    | some p => exact hpath p (by rw [hx]; rfl)
  have hp := parse_payload hw hhost []
  rw [List.append_nil, ← s2.complete rfl] at hp
  refine ⟨log, _, by rw [getOtaPayload_eq hu, s1], hp, List.mem_cons_self .., ?_⟩
  have hne : u.portText ≠ [] := by
    unfold Uri.portText
    cases hx : u.port with
    | some p => simp
    | none => unfold Uri.portNumber at hport; rw [hx] at hport; exact absurd rfl hport
  unfold hostField payloadFields
  rw [if_neg hport]
  simp only [List.mem_cons, Prod.mk.injEq, List.not_mem_nil, or_false, not_or, not_and]
  constructor
  · intro _ he
    exact hne (by simpa using he)
  · intro h; exact absurd h (by decide)

/-- C70: what is not a URL of this kind is refused and nothing is written. -/
theorem C70_ota_payload_refuses {url : Bytes} (h : Http.parseUri url = some none)
    (accept : List Bytes → Bytes → Bool) :
    getOtaPayload (record accept) url [] = some (false, []) := by
  unfold getOtaPayload; rw [h]

/-! ## The URL for chunks -/

/-- The URL of a part of the service for this device. -/
def serviceUrl (cfg : Config) (info : DeviceInfo) (subpath : Bytes) : Uri where
  https := !cfg.disableTls
  schemeText := text (if cfg.disableTls then "http" else "https")
  user := none
  host := chunksHostOf cfg
  port := none
  path := some (text "/api/v0/" ++ subpath ++ text "/" ++ info.serial)

theorem serviceUrl_bytes (cfg : Config) (info : DeviceInfo) (subpath : Bytes) :
    (serviceUrl cfg info subpath).bytes =
      ascii (if cfg.disableTls then "http" else "https") ++ ascii "://" ++
        chunksHostOf cfg ++ ascii "/api/v0/" ++ subpath ++ ascii "/" ++ info.serial := by
  have a1 : ascii "://" = [58, 47, 47] := by decide
  have e : ∀ s, ascii s = text s := fun _ => rfl
  rw [a1]
  simp only [Uri.bytes, serviceUrl, Uri.userText, Uri.portText, Option.getD_some, List.append_assoc,
    List.append_nil, List.nil_append, e]

/-- C70: the URL is written with its terminator and success is reported, exactly when there is room
for both; otherwise it is cut so that the terminator fits. Nothing is written outside the buffer. -/
theorem C70_build_url {cfg : Config} {info : DeviceInfo} {buf subpath : Bytes} (hb : buf.length = 128) :
    ∃ buf' ok, buildUrl cfg info buf subpath = some (buf', ok) ∧ buf'.length = 128 ∧
      (ok = true ↔ (serviceUrl cfg info subpath).bytes.length < 128) ∧
      (ok = true → ∃ rest, buf' = (serviceUrl cfg info subpath).bytes ++ 0 :: rest) ∧
      (ok = false → buf' = (serviceUrl cfg info subpath).bytes.take 127 ++ [0]) := by
  unfold buildUrl
  rw [← chunksHostOf_eq, ← serviceUrl_bytes]
  generalize (serviceUrl cfg info subpath).bytes = url
  by_cases h : url.length < 128
  · rw [snprintf_fits (by omega)]
    refine ⟨_, _, rfl, ?_, by simp, fun _ => ⟨_, rfl⟩, by simp [h]⟩
    simp only [List.length_append, List.length_cons, List.length_drop]; omega
  · rw [snprintf_truncated (by omega) (by omega)]
    refine ⟨_, _, rfl, ?_, by simp, by simp [h], fun _ => by rw [hb]⟩
    simp only [List.length_append, List.length_take, List.length_singleton]; omega

/-- C70: and it parses as a URL with that scheme, host, default port and path. -/
theorem C70_build_url_parses {cfg : Config} {info : DeviceInfo} {subpath : Bytes}
    (hh : Spec.Http.HostName (chunksHostOf cfg) ∨ Spec.Http.IpLiteral (chunksHostOf cfg)) :
    Http.parseUri (serviceUrl cfg info subpath).bytes = some (some ⟨!cfg.disableTls, chunksHostOf cfg,
      if cfg.disableTls then 80 else 443,
      some (text "/api/v0/" ++ subpath ++ text "/" ++ info.serial)⟩) := by
  have hok : (serviceUrl cfg info subpath).Ok := by
    refine ⟨?_, by simp [serviceUrl], hh, by simp [serviceUrl], ?_⟩
    · show (text (if cfg.disableTls then "http" else "https")).map Spec.Http.toLower =
        schemeName (!cfg.disableTls)
      cases cfg.disableTls <;> decide
    · rintro p ⟨⟩; rfl
  rw [C48_components hok]
  have hp : (serviceUrl cfg info subpath).portNumber = if cfg.disableTls then 80 else 443 := by
    unfold Uri.portNumber serviceUrl
    cases cfg.disableTls <;> rfl
  rw [hp]
  rfl

/-! ## A device -/

/-- A device with a hardware version and a software type that need escapes. -/
def exHttpDevice : DeviceInfo := ⟨text "SER", text "ty p", text "1.0+a", text "b&d"⟩
def exHttpConfig : Config := ⟨text "key", false, none, none⟩
def exPayloadUri (port : Option Bytes) : Uri := ⟨false, text "http", none, text "h", port, some (text "/a?b=c")⟩

example : Word exHttpDevice.serial ∧ exHttpDevice.serial.length < 69 ∧
    NoBreak (chunksHostOf exHttpConfig) ∧ NoBreak exHttpConfig.apiKey := by decide +kernel

/-- A callback that takes two writes and refuses the third. -/
example : (startChunkPost exHttpConfig exHttpDevice (List.replicate 100 7)
    (record fun l _ => decide (l.length < 2)) 1234 []).map (fun r => (r.1, r.2.length)) = some (false, 3) := by
  decide +kernel

example : (startChunkPost exHttpConfig exHttpDevice (List.replicate 100 7)
    (record fun _ _ => true) 1234 []).map (fun r => (r.1, parse (r.2.flatten ++ [1, 2, 3]))) =
    some (true, some (⟨text "POST", text "/api/v0/chunks/SER", text "HTTP/1.1",
      postFields (text "chunks.memfault.com") (text "key") (text "1234")⟩, [1, 2, 3])) := by decide +kernel

example : ∀ p ∈ otaParameters exHttpDevice, p.2 ≠ [] ∧ encodedLength p.2 < 48 := by decide +kernel

example : ∃ p ∈ otaParameters { exHttpDevice with hardwareVersion := [] }, p.2 = [] ∨ 48 ≤ encodedLength p.2 := by
  decide +kernel

example : (exPayloadUri none).Ok ∧ (exPayloadUri (some (text "8080"))).Ok ∧
    (exPayloadUri none).portNumber = 80 ∧ (exPayloadUri (some (text "8080"))).portNumber = 8080 ∧
    hostField (exPayloadUri (some (text "8080"))) = text "h:8080" := by
  refine ⟨⟨by decide, by simp [exPayloadUri], .inl ⟨by decide, by decide, by decide⟩, by simp [exPayloadUri],
    ?_⟩, ⟨by decide, by simp [exPayloadUri], .inl ⟨by decide, by decide, by decide⟩, ?_, ?_⟩, by decide,
    by decide, by decide⟩
  · rintro p ⟨⟩; rfl
  · rintro p ⟨⟩
    refine ⟨by decide, ?_, by decide⟩
    unfold IsDigit; decide
  · rintro p ⟨⟩; rfl

example : (buildUrl exHttpConfig exHttpDevice (List.replicate 128 7) (text "chunks")).map (·.2) = some true ∧
    (serviceUrl exHttpConfig exHttpDevice (text "chunks")).bytes =
      text "https://chunks.memfault.com/api/v0/chunks/SER" ∧
    Spec.Http.HostName (chunksHostOf exHttpConfig) := by
  refine ⟨by decide +kernel, by decide +kernel, by decide, by decide, by decide⟩

end Mflt.Props
