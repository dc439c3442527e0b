import Verif.Spec.EspHttp
import Verif.Props.HttpRequest

/-! # C88: updates with the ESP-IDF port -/

namespace Mflt.Props

open EspHttp
open HttpRequest (ascii)
open Spec.EspHttp (Held held)
open Spec.HttpRequest (text query)
open Spec.Http (Unreserved percentDecode encodedLength)

/-! ## The request -/

/-- A device whose values can be in the URL: three have only unreserved characters, and the version is not
empty and fits into the buffer of 48 bytes when it is encoded. -/
structure EspDevice (info : HttpRequest.DeviceInfo) : Prop where
  serial : ∀ c ∈ info.serial, Unreserved c
  hardware : ∀ c ∈ info.hardwareVersion, Unreserved c
  type : ∀ c ∈ info.softwareType, Unreserved c
  version : info.softwareVersion ≠ []
  short : encodedLength info.softwareVersion < 48

/-- The request for the latest release that a server at `host` reads as a question about this device. -/
def AsksFor (cfg : HttpRequest.Config) (info : HttpRequest.DeviceInfo) (url : Bytes) : Prop :=
  ∃ q, url = text (if cfg.disableTls then "http://" else "https://") ++ deviceHostOf cfg ++
      text "/api/v0/releases/latest/url?" ++ q ∧ query q = some (otaParameters info)

private theorem decode_unreserved {s : Bytes} (h : ∀ c ∈ s, Unreserved c) : percentDecode s = some s := by
  induction s with
  | nil => rfl
  | cons c s ih =>
    have hc := h c (List.mem_cons_self ..)
    have h37 : c ≠ 37 := by rintro rfl; revert hc; decide
    rw [percentDecode.eq_3 c s (fun a b r hx => absurd hx h37), if_pos hc, ih (fun x hx => h x (List.mem_cons_of_mem _ hx))]
    rfl

private theorem query_drop (x : Bytes) : query (38 :: x) = query x := by
  unfold query
  rw [Spec.HttpRequest.split, if_pos rfl]
  rfl

private theorem needs_not {info : HttpRequest.DeviceInfo} (h : EspDevice info) : needsEscaping info = false := by
  unfold needsEscaping
  simp only [List.any_cons, List.any_nil, (C49_needs_escape _).2 h.serial, (C49_needs_escape _).2 h.hardware,
    (C49_needs_escape _).2 h.type, Bool.or_false]

private theorem release_url {cfg : HttpRequest.Config} {info : HttpRequest.DeviceInfo} (h : EspDevice info)
    {junk : Bytes} (hj : junk.length = 48) :
    ∃ url, releaseUrl cfg info junk = some (some url) ∧ AsksFor cfg info url := by
  obtain ⟨e, e1, e2, e3⟩ := C49_encodes_partial h.version (out := junk) (by have := h.short; omega)
  unfold releaseUrl
  rw [needs_not h, e3]
  simp only [Bool.false_eq_true, if_false, ne_eq, not_true_eq_false]
  rw [cString_append (fun hc => (decoded_chars e1 0 hc).1 rfl)]
  refine ⟨_, rfl, ?_⟩
  have hf : List.Forall₂ (fun p q => q.1 = p.1 ∧ percentDecode q.2 = some p.2) (otaParameters info)
      [(text "device_serial", info.serial), (text "hardware_version", info.hardwareVersion),
        (text "software_type", info.softwareType), (text "current_version", e)] := by
    unfold otaParameters
    exact .cons ⟨rfl, decode_unreserved h.serial⟩ (.cons ⟨rfl, decode_unreserved h.hardware⟩
      (.cons ⟨rfl, decode_unreserved h.type⟩ (.cons ⟨rfl, e1⟩ .nil)))
  have hq := query_eq hf (otaParameters_names info)
  have l1 : ascii "/api/v0/releases/latest/url?device_serial=" =
      text "/api/v0/releases/latest/url?" ++ text "device_serial" ++ [61] := by decide
  have l2 : ascii "&hardware_version=" = 38 :: text "hardware_version" ++ [61] := by decide
  have l3 : ascii "&software_type=" = 38 :: text "software_type" ++ [61] := by decide
  have l4 : ascii "&current_version=" = 38 :: text "current_version" ++ [61] := by decide
  have l0 : ascii (if cfg.disableTls then "http" else "https") ++ ascii "://" =
      text (if cfg.disableTls then "http://" else "https://") := by cases cfg.disableTls <;> decide
  rw [l0, l1, l2, l3, l4, ← deviceHostOf_eq]
  generalize text "device_serial" = n1 at hq
  generalize text "hardware_version" = n2 at hq
  generalize text "software_type" = n3 at hq
  generalize text "current_version" = n4 at hq
  refine ⟨n1 ++ [61] ++ info.serial ++ (38 :: n2 ++ [61]) ++ info.hardwareVersion ++ (38 :: n3 ++ [61]) ++
    info.softwareType ++ (38 :: n4 ++ [61]) ++ e, by simp only [List.append_assoc], ?_⟩
  rw [← hq, ← query_drop]
  congr 1
  simp [queryPieces]

/-- C88: a value that cannot be in the URL: nothing is requested, and the caller gets an error and no URL. -/
theorem C88_refuses {cfg : HttpRequest.Config} {info : HttpRequest.DeviceInfo} {junk : Bytes} (hj : junk.length = 48)
    (h : ¬ EspDevice info) (fuel : Nat) (heap : Heap) (s : Server) :
    ∃ acts, getReleaseUrl fuel cfg info junk true heap s = some ⟨-1, some none, none, acts⟩ ∧
      held acts {} = some {} := by
  have hr : releaseUrl cfg info junk = some none := by
    unfold releaseUrl
    cases hn : needsEscaping info with
    | true => rfl
    | false =>
      unfold needsEscaping at hn
      simp only [List.any_cons, List.any_nil, Bool.or_false, Bool.or_eq_false_iff, C49_needs_escape] at hn
      simp only [Bool.false_eq_true, if_false]
      by_cases hv : info.softwareVersion = []
      · rw [hv, (C49_false_empty junk).1]; rfl
      · have hl : junk.length < encodedLength info.softwareVersion + 1 := by
          by_cases hl : encodedLength info.softwareVersion < 48
          · exact absurd ⟨hn.1, hn.2.1, hn.2.2, hv, hl⟩ h
          · omega
        obtain ⟨out, o1, _⟩ := C49_refuses hl
        rw [o1]
        rfl
  unfold getReleaseUrl
  rw [hr]
  exact ⟨_, rfl, rfl⟩

private def exEspDevice : HttpRequest.DeviceInfo :=
  { exHttpDevice with softwareType := text "main", hardwareVersion := text "proto_1" }

example : EspDevice exEspDevice := ⟨by decide, by decide, by decide, by decide, by decide +kernel⟩
example : ¬ EspDevice exHttpDevice := fun h => absurd (h.hardware 38 (by decide)) (by decide)

/-! ## The answer -/

private theorem read_body (length : Nat) : ∀ fuel (got body : Bytes) reads d,
    got.length ≤ length → readBody length fuel got body reads = some (.inl d) →
    d.length = length ∧ ∃ n, d = got ++ body.take n := by
  intro fuel
  induction fuel with
  | zero => intro got body reads d _ h; simp [readBody] at h
  | succ fuel ih =>
    intro got body reads d hl h
    rw [readBody.eq_def] at h
    simp only at h
    by_cases he : got.length = length
    · rw [if_pos he] at h
      simp only [Option.some.injEq, Sum.inl.injEq] at h
      subst h
      exact ⟨he, 0, by simp⟩
    · rw [if_neg he] at h
      match reads with
      | [] => exact ih got body [] d hl h
      | .inr e :: t => simp at h
      | .inl k :: t =>
        obtain ⟨h1, n, h2⟩ := ih _ _ _ d (by
          rw [List.length_append, List.length_take]; omega) h
        refine ⟨h1, min (k + 1) (length - got.length) + n, ?_⟩
        rw [h2, List.append_assoc, List.take_add]

private theorem read_all (length : Nat) : ∀ fuel (got body : Bytes) (reads : List (Nat ⊕ Int)),
    got.length ≤ length → length - got.length ≤ body.length → (∀ r ∈ reads, ∃ k, r = .inl k) →
    length - got.length ≤ reads.length → length - got.length < fuel →
    readBody length fuel got body reads = some (.inl (got ++ body.take (length - got.length))) := by
  intro fuel
  induction fuel with
  | zero => intro got body reads _ _ _ _ h; omega
  | succ fuel ih =>
    intro got body reads hl hb hr hn hf
    rw [readBody.eq_def]
    simp only
    by_cases he : got.length = length
    · rw [if_pos he, he]; simp
    · rw [if_neg he]
      match reads with
      | [] => simp at hn; omega
      | .inr e :: t => obtain ⟨k, hk⟩ := hr (.inr e) (List.mem_cons_self ..); simp at hk
      | .inl k :: t =>
        simp only
        have hlen : (got ++ body.take (min (k + 1) (length - got.length))).length =
            got.length + min (k + 1) (length - got.length) := by
          rw [List.length_append, List.length_take]; omega
        rw [ih _ _ t (by omega) (by rw [hlen, List.length_drop]; omega)
          (fun r hr' => hr r (List.mem_cons_of_mem _ hr')) (by rw [hlen]; simp only [List.length_cons] at hn; omega)
          (by omega)]
        rw [hlen, List.append_assoc, ← List.take_add]
        congr 5
        omega

/-- What the caller gets from an answer: the URL of a release, nothing because there is none, or an error. -/
theorem C88_release {cfg : HttpRequest.Config} {info : HttpRequest.DeviceInfo} (hi : EspDevice info) {junk : Bytes}
    (hj : junk.length = 48) {s : Server} (hopen : s.open = 0) (hlen : s.length = s.body.length)
    (hreads : ∀ r ∈ s.reads, ∃ k, r = .inl k) (henough : s.body.length ≤ s.reads.length) {fuel : Nat}
    (hf : s.body.length < fuel) (hz : 0 ∉ s.body) :
    ∃ r url, getReleaseUrl fuel cfg info junk true ⟨true, true⟩ s = some r ∧ AsksFor cfg info url ∧
      r.requested = some url ∧
      (r.rv, r.out) = (if s.status = 200 then (0, some (some s.body))
        else if s.status = 204 then (0, some none) else (-1, some none)) := by
  obtain ⟨url, u1, u2⟩ := release_url (cfg := cfg) hi hj
  have hb := read_all s.length.toNat fuel [] s.body s.reads (Nat.zero_le _)
    (by rw [hlen]; simp) hreads (by rw [hlen]; simpa using henough) (by rw [hlen]; simpa using hf)
  have hd : ([] : Bytes) ++ s.body.take (s.length.toNat - ([] : Bytes).length) = s.body := by
    rw [hlen]; simp
  rw [hd] at hb
  have ht : s.body.takeWhile (· ≠ 0) = s.body := by
    generalize s.body = b at hz
    induction b with
    | nil => rfl
    | cons a b ih =>
      rw [List.takeWhile_cons, if_pos (by
        simp only [ne_eq, decide_eq_true_eq]; rintro rfl; exact hz (List.mem_cons_self ..)),
        ih (fun h => hz (List.mem_cons_of_mem _ h))]
  unfold getReleaseUrl
  rw [u1]
  simp only [Bool.not_true, Bool.false_eq_true, if_false, hopen, ne_eq, not_true_eq_false]
  rw [if_neg (by omega), hb]
  simp only [ht]
  by_cases h200 : s.status = 200
  · rw [if_neg (by omega)]
    exact ⟨_, url, rfl, u2, by simp [cleanup, h200], by simp [cleanup, h200]⟩
  · by_cases h204 : s.status = 204
    · rw [if_neg (by omega)]
      exact ⟨_, url, rfl, u2, by simp [cleanup, h200], by simp [cleanup, h204]⟩
    · rw [if_pos ⟨h200, h204⟩]
      exact ⟨_, url, rfl, u2, by simp [cleanup, h200], by simp [cleanup, h200, h204]⟩

private def exServer : Server := ⟨0, 5, text "http:", [.inl 1, .inl 9, .inl 0, .inl 0, .inl 0], 200⟩

example : (getReleaseUrl 7 exHttpConfig exEspDevice (List.replicate 48 7) true ⟨true, true⟩ exServer).map
    (fun r => (r.rv, r.out)) = some (0, some (some (text "http:"))) := by decide +kernel

/-- C88: whatever the server answers, a success means that the status was 200 and that the URL is what the
body says (its beginning, of the announced length, up to a byte 0), or that it was 204 and there is none. In
any other case there is an error and no URL. The client and the memory are given back, except the URL that
the caller gets. -/
theorem C88_sound {cfg : HttpRequest.Config} {info : HttpRequest.DeviceInfo} {junk : Bytes} {fuel : Nat} {heap : Heap}
    {s : Server} {r : Release} (h : getReleaseUrl fuel cfg info junk true heap s = some r) :
    held r.acts {} = some ⟨0, 0, if (r.out.bind id).isSome then 1 else 0⟩ ∧
    ((r.rv = 0 ∧ s.open = 0 ∧ ((s.status = 200 ∧ ∃ d, d <+: s.body ∧ s.length = d.length ∧
          r.out = some (some (d.takeWhile (· ≠ 0)))) ∨
        (s.status = 204 ∧ r.out = some none))) ∨
      (r.rv < 0 ∧ r.out = some none)) := by
  have hpe : ∀ x, platformError x < 0 := by intro x; unfold platformError; omega
  unfold getReleaseUrl at h
  simp only [Bool.not_true, Bool.false_eq_true, if_false] at h
  cases hu : releaseUrl cfg info junk with
  | none => rw [hu] at h; simp at h
  | some o =>
    rw [hu] at h
    cases o with
    | none =>
      simp only [Option.some.injEq] at h
      subst h
      exact ⟨rfl, .inr ⟨by simp [cleanup], rfl⟩⟩
    | some url =>
      simp only at h
      cases h1 : heap.url with
      | false =>
        simp only [h1, Bool.not_false, if_true, Option.some.injEq] at h
        subst h
        exact ⟨rfl, .inr ⟨by simp [cleanup], rfl⟩⟩
      | true =>
        simp only [h1, Bool.not_true, Bool.false_eq_true, if_false] at h
        by_cases h2 : s.open = 0
        · rw [if_neg (by simpa using h2)] at h
          by_cases h3 : s.length < 0
          · rw [if_pos h3] at h
            simp only [Option.some.injEq] at h
            subst h
            exact ⟨rfl, .inr ⟨by simpa [cleanup] using hpe _, rfl⟩⟩
          · rw [if_neg h3] at h
            cases h4 : heap.body with
            | false =>
              simp only [h4, Bool.not_false, if_true, Option.some.injEq] at h
              subst h
              exact ⟨rfl, .inr ⟨by simp [cleanup], rfl⟩⟩
            | true =>
              simp only [h4, Bool.not_true, Bool.false_eq_true, if_false] at h
              cases h5 : readBody s.length.toNat fuel [] s.body s.reads with
              | none => rw [h5] at h; simp at h
              | some b =>
                rw [h5] at h
                cases b with
                | inr e =>
                  simp only [Option.some.injEq] at h
                  subst h
                  exact ⟨rfl, .inr ⟨by simpa [cleanup] using hpe _, rfl⟩⟩
                | inl d =>
                  obtain ⟨d1, n, d2⟩ := read_body s.length.toNat fuel [] s.body s.reads d (Nat.zero_le _) h5
                  rw [List.nil_append] at d2
                  simp only at h
                  by_cases h200 : s.status = 200
                  · rw [if_neg (by omega)] at h
                    simp only [Option.some.injEq] at h
                    subst h
                    refine ⟨by simp [cleanup, h200, held], .inl ⟨by simp [cleanup, h200], h2, .inl ⟨h200, d, ?_, ?_, ?_⟩⟩⟩
                    · rw [d2]; exact List.take_prefix _ _
                    · rw [d1]; omega
                    · simp [cleanup, h200]
                  · by_cases h204 : s.status = 204
                    · rw [if_neg (by omega)] at h
                      simp only [Option.some.injEq] at h
                      subst h
                      exact ⟨by simp [cleanup, h204, held], .inl ⟨by simp [cleanup, h204], h2, .inr ⟨h204, by
                        simp [cleanup, h204]⟩⟩⟩
                    · rw [if_pos ⟨h200, h204⟩] at h
                      simp only [Option.some.injEq] at h
                      subst h
                      exact ⟨by simp [cleanup, h200, held], .inr ⟨by simp [cleanup, h200], by
                        simp [cleanup, h200]⟩⟩
        · rw [if_pos h2] at h
          simp only [Option.some.injEq] at h
          subst h
          exact ⟨rfl, .inr ⟨by simpa [cleanup] using hpe _, rfl⟩⟩

/-- When no client can be created, the caller's pointer is not set, although it says "set to NULL on
failure". -/
theorem C88_false_out (fuel : Nat) (cfg : HttpRequest.Config) (info : HttpRequest.DeviceInfo) (junk : Bytes)
    (heap : Heap) (s : Server) :
    getReleaseUrl fuel cfg info junk false heap s = some ⟨-1, none, none, []⟩ := rfl

/-- A connection that is closed before the announced end of the body: the reads give no bytes and no error,
and the call never returns. -/
theorem C88_false_stuck {cfg : HttpRequest.Config} {info : HttpRequest.DeviceInfo} (hi : EspDevice info) {junk : Bytes}
    (hj : junk.length = 48) {s : Server} (hopen : s.open = 0) (hreads : s.reads = []) (hlen : 0 < s.length)
    (fuel : Nat) : getReleaseUrl fuel cfg info junk true ⟨true, true⟩ s = none := by
  obtain ⟨url, u1, _⟩ := release_url (cfg := cfg) hi hj
  have hr : ∀ fuel, readBody s.length.toNat fuel [] s.body [] = none := by
    intro fuel
    induction fuel with
    | zero => rfl
    | succ fuel ih =>
      rw [readBody, if_neg (by simp only [List.length_nil]; omega)]
      exact ih
  unfold getReleaseUrl
  rw [u1]
  simp only [Bool.not_true, Bool.false_eq_true, if_false, hopen, ne_eq, not_true_eq_false]
  rw [if_neg (by omega), hreads, hr]

/-- An answer without a length (in chunks) and status 200: the call succeeds with an empty URL. -/
theorem C88_false_chunked {cfg : HttpRequest.Config} {info : HttpRequest.DeviceInfo} (hi : EspDevice info) {junk : Bytes}
    (hj : junk.length = 48) {s : Server} (hopen : s.open = 0) (hlen : s.length = 0) (hst : s.status = 200)
    (fuel : Nat) :
    (getReleaseUrl (fuel + 1) cfg info junk true ⟨true, true⟩ s).map (fun r => (r.rv, r.out)) =
      some (0, some (some [])) := by
  obtain ⟨url, u1, _⟩ := release_url (cfg := cfg) hi hj
  unfold getReleaseUrl
  rw [u1]
  simp only [Bool.not_true, Bool.false_eq_true, if_false, hopen, ne_eq, not_true_eq_false, hlen]
  rw [if_neg (by omega)]
  simp [readBody, cleanup, hst]

/-! ## Updates -/

/-- C88: with all callbacks, an update is offered exactly when there is a URL, downloaded from that URL exactly
when the handler agrees, and reported as complete exactly when the download worked. The result is 1 exactly
when there is an update that the handler refused or installed, and 0 exactly when there is none. -/
theorem C88_update (h : Handler) {available complete : Bool} (ha : h.available = some available)
    (hc : h.complete = some complete) (release : Int × Option Bytes) (hr : release.1 ≤ 0) (ota : Int) :
    ∃ rv calls, otaUpdate (some h) release ota = some (rv, calls ++ if h.done then [.done rv] else []) ∧
      (∀ x, Call.done x ∉ calls) ∧
      (Call.available ∈ calls ↔ release.1 = 0 ∧ release.2.isSome = true) ∧
      (∀ url, Call.download url ∈ calls ↔ release.1 = 0 ∧ release.2 = some url ∧ available = true) ∧
      (Call.complete ∈ calls ↔ release.1 = 0 ∧ release.2.isSome = true ∧ available = true ∧ ota = 0) ∧
      (∃ url, calls <+: [.available, .download url, .complete]) ∧
      (rv = 0 ↔ release.1 = 0 ∧ release.2 = none) ∧
      (rv = 1 ↔ release.1 = 0 ∧ release.2.isSome = true ∧ (available = false ∨ ota = 0 ∧ complete = true)) ∧
      (rv ≠ 0 → rv ≠ 1 → rv < 0) := by
  have hpe : platformError ota < 0 := by unfold platformError; omega
  have hfin : ∀ rv calls, finish h rv calls = (rv, calls ++ if h.done then [.done rv] else []) := by
    intro rv calls
    unfold finish
    cases h.done <;> simp
  obtain ⟨rv, out⟩ := release
  unfold otaUpdate
  simp only [ha, hc, hfin]
  simp only at hr
  by_cases h0 : rv = 0
  · subst h0
    cases out with
    | none =>
      refine ⟨0, [], by simp, ?_⟩
      simp
    | some url =>
      simp only [ne_eq, not_true_eq_false, if_false]
      cases available with
      | false =>
        refine ⟨1, [.available], by simp, ?_⟩
        simp
      | true =>
        by_cases ho : ota = 0
        · subst ho
          cases complete with
          | false =>
            refine ⟨-1, [.available, .download url, .complete], by simp, ?_⟩
            simp [eq_comm]
          | true =>
            refine ⟨1, [.available, .download url, .complete], by simp, ?_⟩
            simp [eq_comm]
        · refine ⟨platformError ota, [.available, .download url], by simp [ho], ?_⟩
          have n0 : platformError ota ≠ 0 := by omega
          have n1 : platformError ota ≠ 1 := by omega
          simp [ho, n0, n1, eq_comm]
          exact hpe
  · refine ⟨rv, [], by simp [h0], ?_⟩
    have n1 : rv ≠ 1 := by omega
    simp [h0, n1]
    omega

example : otaUpdate (some ⟨some true, some true, true⟩) (0, some [1]) 0 =
    some (1, [.available, .download [1], .complete, .done 1]) := by decide

/-- C88: without one of the callbacks nothing happens. -/
theorem C88_incomplete_handler (h : Handler) (hx : h.available = none ∨ h.complete = none)
    (release : Int × Option Bytes) (ota : Int) :
    otaUpdate (some h) release ota = some (-2, if h.done then [.done (-2)] else []) := by
  unfold otaUpdate
  rcases hx with hx | hx
  · simp only [hx]; unfold finish; cases h.done <;> rfl
  · simp only [hx]
    cases h.available <;> (unfold finish; cases h.done <;> rfl)

/-- The handler's last callback is to get "0 if the OTA process completed successfully": it gets 1 then, and 0
exactly when there was no update. -/
theorem C88_false_done (url : Bytes) :
    otaUpdate (some ⟨some true, some true, true⟩) (0, some url) 0 =
      some (1, [.available, .download url, .complete, .done 1]) ∧
    otaUpdate (some ⟨some true, some true, true⟩) (0, none) 0 = some (0, [.done 0]) := ⟨rfl, rfl⟩

/-- A null handler, which is checked for, is dereferenced at the end. -/
theorem C88_false_null (release : Int × Option Bytes) (ota : Int) : otaUpdate none release ota = none := rfl

end Mflt.Props
