import Verif.Spec.EspHttp
import Verif.Props.ZephyrUpload

/-! # C87: uploads of the ESP ports -/

namespace Mflt.Props

open EspHttp
open HttpRequest (cString)
open Spec.ZephyrUpload (Chunks)
open Spec.EspHttp (Fits Takes Accepted)
open Spec.HttpRequest (text)

/-! ## The buffer -/

private theorem alloc_loop (heap : Nat → Bool) (min : Nat) : ∀ fuel size, size + 2 ≤ fuel →
    ∃ r, allocLoop heap min fuel size = some r ∧ ∀ n, r = some n ↔ Fits heap size min n := by
  intro fuel
  induction fuel with
  | zero => intro size h; omega
  | succ fuel ih =>
    intro size h
    rw [allocLoop]
    by_cases hs : size > min
    · rw [if_pos hs]
      cases hh : heap size with
      | true =>
        rw [if_pos rfl]
        refine ⟨_, rfl, fun n => ⟨?_, ?_⟩⟩
        · rintro ⟨⟩
          exact ⟨0, by simp, hs, hh, fun j hj => absurd hj (Nat.not_lt_zero _)⟩
        · rintro ⟨k, hk, _, _, h4⟩
          cases k with
          | zero => rw [hk, Nat.pow_zero, Nat.div_one]
          | succ k =>
            have := h4 0 (by omega)
            rw [Nat.pow_zero, Nat.div_one, hh] at this
            simp at this
      | false =>
        rw [if_neg (by simp)]
        obtain ⟨r, r1, r2⟩ := ih (size / 2) (by omega)
        refine ⟨r, r1, fun n => (r2 n).trans ⟨?_, ?_⟩⟩
        · rintro ⟨k, h1, h2, h3, h4⟩
          refine ⟨k + 1, by rw [h1, Nat.pow_succ', Nat.div_div_eq_div_mul], h2, h3, fun j hj => ?_⟩
          cases j with
          | zero => rw [Nat.pow_zero, Nat.div_one, hh]
          | succ j => rw [Nat.pow_succ', ← Nat.div_div_eq_div_mul]; exact h4 j (by omega)
        · rintro ⟨k, h1, h2, h3, h4⟩
          cases k with
          | zero => rw [Nat.pow_zero, Nat.div_one] at h1; rw [h1, hh] at h3; simp at h3
          | succ k =>
            refine ⟨k, by rw [h1, Nat.pow_succ', Nat.div_div_eq_div_mul], h2, h3, fun j hj => ?_⟩
            have := h4 (j + 1) (by omega)
            rwa [Nat.pow_succ', ← Nat.div_div_eq_div_mul] at this
    · rw [if_neg hs]
      refine ⟨none, rfl, fun n => ⟨by simp, ?_⟩⟩
      rintro ⟨k, h1, h2, _, _⟩
      have := Nat.div_le_self size (2 ^ k)
      omega

/-- C87: the buffer is the largest of the halves of the maximum that the heap has, above the minimum, and
there is none only when the heap has none of them. -/
theorem C87_buffer (heap : Nat → Bool) (max min : Nat) :
    ∃ r, allocBuffer heap max min = some r ∧ ∀ n, r = some n ↔ Fits heap max min n :=
  alloc_loop heap min (max + 2) max (by omega)

example : allocBuffer (fun n => n ≤ 5000) 16384 1024 = some (some 4096) := by decide +kernel

/-- With a maximum that equals the minimum, which the check at compile time lets pass, there is no buffer
and nothing is ever sent, however much memory there is. -/
theorem C87_false_equal_sizes {π : Type} (e : Env) (src : Source π) (h : e.max = e.min) (bytes : Nat) (p : π)
    (c : Client) (ha : src.available p = true) :
    postData e src bytes p c = some ⟨-1, none, bytes, p, c⟩ := by
  have : allocBuffer e.heap e.max e.min = some none := by
    unfold allocBuffer; rw [allocLoop, if_neg (by omega)]
  unfold postData
  rw [ha, this]
  rfl

/-! ## Posts -/

/-- The error of a request that failed. -/
private theorem platform_error (x : Int) : platformError x ≤ -1000 := by
  unfold platformError; omega

/-- The status of the last of some answers. -/
private def lastStatus (s0 : Int) (ss : List Int) : Int := (s0 :: ss).getLast (by simp)

private theorem post_chunks {π : Type} (src : Source π) (size : Nat) : ∀ (fuel bytes : Nat) (p : π) (c : Client),
    c.script.length + 1 < fuel →
    ∃ rv n p' c' ds q, postChunks src size fuel bytes p c = some (rv, n, p', c') ∧
      Chunks (Takes src size) p ds q ∧ n = bytes + ds.flatten.length ∧ c'.url = c.url ∧
      ((rv = 0 ∧ src.chunk size q = (none, p') ∧ c'.posts = c.posts ++ ds.map (fun d => (c.url, d)) ∧
          ∃ ss : List Int, ss.length = ds.length ∧ c.script = ss.map Perf.answered ++ c'.script ∧
            c'.status = (c.status :: ss).getLast (by simp)) ∨
        (rv ≤ -1000 ∧ p' = q ∧ ∃ ds' d, ds = ds' ++ [d] ∧
          (c'.posts = c.posts ++ ds'.map (fun d => (c.url, d)) ∨
            c'.posts = c.posts ++ ds.map (fun d => (c.url, d))) ∧
          ∃ ss : List Int, ss.length = ds'.length ∧
            (c.script = ss.map Perf.answered ∨ ∃ x a, c.script = ss.map Perf.answered ++ .failed x a :: c'.script))) := by
  intro fuel
  induction fuel with
  | zero => intro _ _ _ h; omega
  | succ fuel ih =>
    intro bytes p c hf
    rw [postChunks]
    cases hc : src.chunk size p with
    | mk od p1 =>
      cases od with
      | none =>
        refine ⟨0, bytes, p1, c, [], p, rfl, .nil p, by simp, rfl, .inl ⟨rfl, hc, by simp, [], rfl, by simp, by simp⟩⟩
      | some d =>
        simp only
        cases hs : c.script with
        | nil =>
          have hp : perform c d = (-1, c) := by unfold perform; rw [hs]
          rw [hp]
          refine ⟨_, _, _, _, [d], p1, if_pos (show (-1 : Int) ≠ 0 by decide), .cons hc (.nil _), by simp, rfl,
            .inr ⟨platform_error _, rfl, [], d, rfl, .inl (by simp), [], rfl, .inl (by simp)⟩⟩
        | cons r t =>
          cases r with
          | failed x a =>
            have hp : perform c d = (if x = 0 then -1 else x,
                { c with script := t, posts := if a then c.posts ++ [(c.url, d)] else c.posts }) := by
              unfold perform; rw [hs]
            rw [hp]
            have hne : (if x = 0 then -1 else x) ≠ 0 := by
              by_cases hx : x = 0
              · rw [if_pos hx]; decide
              · rw [if_neg hx]; exact hx
            refine ⟨_, _, _, _, [d], p1, if_pos hne, .cons hc (.nil _), by simp, rfl,
              .inr ⟨platform_error _, rfl, [], d, rfl, ?_, [], rfl, .inr ⟨x, a, by simp⟩⟩⟩
            cases a with
            | true => exact .inr (by simp)
            | false => exact .inl (by simp)
          | answered s =>
            have hp : perform c d = (0, { c with script := t, posts := c.posts ++ [(c.url, d)], status := s }) := by
              unfold perform; rw [hs]
            rw [hp]
            simp only [ne_eq, not_true_eq_false, if_false]
            obtain ⟨rv, n, p', c', ds, q, h1, h2, h3, hu, h4⟩ := ih (bytes + d.length) p1
              { c with script := t, posts := c.posts ++ [(c.url, d)], status := s }
              (by rw [hs] at hf; simp only [List.length_cons] at hf ⊢; omega)
            refine ⟨rv, n, p', c', d :: ds, q, h1, .cons hc h2, ?_, hu, ?_⟩
            · rw [h3, List.flatten_cons, List.length_append]; omega
            · rcases h4 with ⟨a1, a2, a3, ss, a4, a5, a6⟩ | ⟨a1, a2, ds', d', a3, a4, ss, a5, a6⟩
              · refine .inl ⟨a1, a2, by simpa using a3, s :: ss, by simp [a4], ?_, ?_⟩
                · simp only [List.map_cons, List.cons_append]; rw [← a5]
                · rw [a6]; simp
              · refine .inr ⟨a1, a2, d :: ds', d', by simp [a3], by simpa using a4, s :: ss, by simp [a5], ?_⟩
                rcases a6 with a6 | ⟨x, a, a6⟩
                · exact .inl (by simp only at a6; rw [a6]; simp)
                · exact .inr ⟨x, a, by simp only at a6; rw [a6]; simp⟩

/-- A device whose URL fits, with memory for a buffer of `size` bytes. -/
structure EspEnv (e : Env) (size : Nat) : Prop where
  junk : e.junk.length = 128
  url : (serviceUrl e.cfg e.info (text "chunks")).bytes.length < 128
  clean : 0 ∉ (serviceUrl e.cfg e.info (text "chunks")).bytes
  heap : Fits e.heap e.max e.min size

private theorem url_ok {e : Env} {size : Nat} (h : EspEnv e size) :
    ∃ buf ok, HttpRequest.buildUrl e.cfg e.info e.junk (HttpRequest.ascii "chunks") = some (buf, ok) ∧
      cString buf = some (serviceUrl e.cfg e.info (text "chunks")).bytes := by
  obtain ⟨buf, ok, h1, _, h3, h4, _⟩ :=
    C70_build_url (cfg := e.cfg) (info := e.info) (subpath := text "chunks") h.junk
  obtain ⟨rest, h5⟩ := h4 (h3.2 h.url)
  refine ⟨buf, ok, h1, ?_⟩
  rw [h5]
  have hc := h.clean
  generalize (serviceUrl e.cfg e.info (text "chunks")).bytes = u at hc
  unfold cString
  rw [if_pos (by simp)]
  congr 1
  induction u with
  | nil => simp
  | cons a u ih =>
    have ha : a ≠ 0 := fun h => hc (by rw [h]; exact List.mem_cons_self ..)
    rw [List.cons_append, List.takeWhile_cons, if_pos (by simpa using ha),
      ih (fun h => hc (List.mem_cons_of_mem _ h))]

private theorem alloc_of {e : Env} {size : Nat} (h : EspEnv e size) :
    allocBuffer e.heap e.max e.min = some (some size) := by
  obtain ⟨r, r1, r2⟩ := C87_buffer e.heap e.max e.min
  rw [r1, (r2 size).2 h.heap]

/-- C87: each chunk that is taken from the packetizer goes into one request to the URL of this device, in
order, and nothing else does. When no request fails, all chunks have been sent, the callback gets the last
status, and the result of the ESP-IDF is 0 exactly when that status is 200 or 202. When one fails, the result
is an error and no further chunk is taken. Missing: statuses other than 200 and 202 count as sent
(`C87_false_status`), a chunk that failed can be lost (`C87_false_lost`), the URL can be cut (`C87_false_url`),
and there is no buffer if its sizes are equal (`C87_false_equal_sizes`). -/
theorem C87_post_partial {π : Type} {e : Env} {size : Nat} (he : EspEnv e size) (src : Source π) (bytes : Nat)
    {p : π} (c : Client) (ha : src.available p = true) :
    ∃ o ds q, postData e src bytes p c = some o ∧ Chunks (Takes src size) p ds q ∧
      o.bytes = ds.flatten.length ∧
      ((src.chunk size q = (none, o.source) ∧
          o.client.posts = c.posts ++ ds.map (fun d => ((serviceUrl e.cfg e.info (text "chunks")).bytes, d)) ∧
          ∃ ss : List Int, ss.length = ds.length ∧ c.script = ss.map Perf.answered ++ o.client.script ∧
            ((∀ s ∈ c.status :: ss, 0 ≤ s ∧ s < 65536) →
              o.called = some (((c.status :: ss).getLast (by simp)).toNat) ∧
              (o.rv = 0 ↔ e.esp8266 = true ∨ Accepted ((c.status :: ss).getLast (by simp))) ∧
              (o.rv ≠ 0 → o.rv = -1))) ∨
        (o.rv ≤ -1000 ∧ o.called = none ∧ o.source = q ∧ ∃ ds' d, ds = ds' ++ [d] ∧
          (o.client.posts = c.posts ++ ds'.map (fun d => ((serviceUrl e.cfg e.info (text "chunks")).bytes, d)) ∨
            o.client.posts = c.posts ++ ds.map (fun d => ((serviceUrl e.cfg e.info (text "chunks")).bytes, d))) ∧
          ∃ ss : List Int, ss.length = ds'.length ∧ (c.script = ss.map Perf.answered ∨
            ∃ x a, c.script = ss.map Perf.answered ++ .failed x a :: o.client.script))) := by
  obtain ⟨buf, ok, u1, u2⟩ := url_ok he
  obtain ⟨rv, n, p', c', ds, q, h1, h2, h3, _, h4⟩ := post_chunks src size (c.script.length + 2) 0 p
    { c with url := (serviceUrl e.cfg e.info (text "chunks")).bytes } (by simp)
  have hp : ∀ o, (if rv ≠ 0 then some ⟨rv, none, n, p', c'⟩
      else some ⟨if e.esp8266 || (c'.status % 2 ^ 16).toNat = 200 || (c'.status % 2 ^ 16).toNat = 202 then 0 else -1,
        some (c'.status % 2 ^ 16).toNat, n, p', c'⟩) = some o → postData e src bytes p c = some o := by
    intro o ho
    unfold postData
    rw [ha, alloc_of he]
    simp only [Bool.not_true, Bool.false_eq_true, if_false]
    rw [u1]
    simp only
    rw [u2]
    simp only
    rw [h1]
    exact ho
  rcases h4 with ⟨a1, a2, a3, ss, a4, a5, a6⟩ | ⟨a1, a2, ds', d, a3, a4, ss, a5, a6⟩
  · refine ⟨_, ds, q, hp _ (by rw [if_neg (by simpa using a1)]), h2, by simpa using h3, .inl ⟨a2, a3, ss, a4, a5, ?_⟩⟩
    intro hs
    simp only at a6
    have hb := hs _ (List.getLast_mem (l := c.status :: ss) (by simp))
    rw [a6]
    generalize (c.status :: ss).getLast (by simp) = s at hb
    have hmod : s % 2 ^ 16 = s := by omega
    rw [hmod]
    refine ⟨rfl, ?_, ?_⟩
    · unfold Accepted
      cases e.esp8266 with
      | true => simp
      | false =>
        by_cases h200 : s = 200
        · subst h200; simp
        · by_cases h202 : s = 202
          · subst h202; simp
          · simp only [Bool.false_or, Bool.or_eq_true, decide_eq_true_eq, Bool.false_eq_true, false_or]
            rw [if_neg (by omega)]
            simp [h200, h202]
    · intro h
      split at h
      · exact absurd rfl h
      · rename_i hx
        simp only [if_neg hx]
  · refine ⟨_, ds, q, hp _ (by rw [if_pos (by omega)]), h2, by simpa using h3,
      .inr ⟨a1, rfl, a2, ds', d, a3, a4, ss, a5, a6⟩⟩

/-- Chunks in a list, whatever the buffer. -/
private def exList : Source (List Bytes) where
  available p := !p.isEmpty
  chunk _ p := match p with
    | [] => (none, [])
    | d :: t => (some d, t)

private def exEsp : Env where
  esp8266 := false
  cfg := exHttpConfig
  info := exHttpDevice
  heap _ := true
  max := 16384
  min := 1024
  junk := List.replicate 128 0xAA

example : EspEnv exEsp 16384 where
  junk := by decide +kernel
  url := by decide +kernel
  clean := by decide +kernel
  heap := ⟨0, by decide +kernel, by decide +kernel, rfl, fun j hj => absurd hj (Nat.not_lt_zero _)⟩

example : (postData exEsp exList 0 [[1, 2], [3]] { script := [.answered 202, .answered 202] }).map
    (fun o => (o.rv, o.called, o.bytes, o.client.posts.map (·.2))) =
    some (0, some 202, 3, [[1, 2], [3]]) := by decide +kernel

/-- Only the last status is looked at: a chunk that the server refuses is gone, and the result is a success.
For any chunks and any status in front of the last. -/
theorem C87_false_status {e : Env} {size : Nat} (he : EspEnv e size) (status : Int) (d d' : Bytes) :
    (postData e exList 0 [d, d'] { script := [.answered status, .answered 202] }).map
      (fun o => (o.rv, o.called, o.source)) = some (0, some 202, []) := by
  obtain ⟨buf, ok, u1, u2⟩ := url_ok he
  unfold postData
  rw [alloc_of he]
  simp only [exList, List.isEmpty_cons, Bool.not_false, Bool.not_true, Bool.false_eq_true, if_false]
  rw [u1]
  simp only
  rw [u2]
  simp [postChunks, perform]

/-- On the ESP8266 no status is looked at. -/
theorem C87_false_esp8266 {e : Env} {size : Nat} (he : EspEnv e size) (h : e.esp8266 = true) (status : Int)
    (d : Bytes) :
    (postData e exList 0 [d] { script := [.answered status] }).map (fun o => (o.rv, o.source)) =
      some (0, []) := by
  obtain ⟨buf, ok, u1, u2⟩ := url_ok he
  unfold postData
  rw [alloc_of he]
  simp only [exList, List.isEmpty_cons, Bool.not_false, Bool.not_true, Bool.false_eq_true, if_false]
  rw [u1]
  simp only
  rw [u2]
  simp [postChunks, perform, h]

example : EspEnv { exEsp with esp8266 := true } 16384 where
  junk := by decide +kernel
  url := by decide +kernel
  clean := by decide +kernel
  heap := ⟨0, by decide +kernel, by decide +kernel, rfl, fun j hj => absurd hj (Nat.not_lt_zero _)⟩

/-- A request that fails before it arrives: the chunk is lost. -/
theorem C87_false_lost {e : Env} {size : Nat} (he : EspEnv e size) (x : Int) (d d' : Bytes) :
    (postData e exList 0 [d, d'] { script := [.failed x false] }).map
      (fun o => (decide (o.rv ≤ -1000), o.source, o.client.posts)) = some (true, [d'], []) := by
  obtain ⟨buf, ok, u1, u2⟩ := url_ok he
  unfold postData
  rw [alloc_of he]
  simp only [exList, List.isEmpty_cons, Bool.not_false, Bool.not_true, Bool.false_eq_true, if_false]
  rw [u1]
  simp only
  rw [u2]
  have hne : (if x = 0 then -1 else x) ≠ 0 := by
    by_cases hx : x = 0
    · rw [if_pos hx]; decide
    · rw [if_neg hx]; exact hx
  have hpe := platform_error (if x = 0 then -1 else x)
  simp only [postChunks, perform, if_pos hne]
  have h0 : platformError (if x = 0 then -1 else x) ≠ 0 := by omega
  rw [if_pos h0]
  simp [hpe]

/-- Without data, the result is 0, as after an upload, and the callback is not called. -/
theorem C87_false_no_data {π : Type} (e : Env) (src : Source π) (bytes : Nat) {p : π} (c : Client)
    (ha : src.available p = false) : postData e src bytes p c = some ⟨0, none, bytes, p, c⟩ := by
  unfold postData; rw [ha]; rfl

/-- A device whose URL does not fit posts to a URL without the end of its serial number: two devices whose
serial numbers begin alike post to the same URL, and both uploads are successes. -/
theorem C87_false_url {e : Env} {size : Nat} (hj : e.junk.length = 128)
    (hurl : 128 ≤ (serviceUrl e.cfg e.info (text "chunks")).bytes.length)
    (hclean : 0 ∉ (serviceUrl e.cfg e.info (text "chunks")).bytes) (hh : Fits e.heap e.max e.min size) (d : Bytes) :
    (postData e exList 0 [d] { script := [.answered 202] }).map
      (fun o => (o.rv, o.source, o.client.posts)) =
      some (0, [], [((serviceUrl e.cfg e.info (text "chunks")).bytes.take 127, d)]) := by
  obtain ⟨r, r1, r2⟩ := C87_buffer e.heap e.max e.min
  rw [(r2 size).2 hh] at r1
  obtain ⟨buf, ok, h1, _, h3, _, h4⟩ :=
    C70_build_url (cfg := e.cfg) (info := e.info) (subpath := text "chunks") hj
  have hok : ok = false := by
    cases ok with
    | false => rfl
    | true => have := h3.1 rfl; omega
  have hb := h4 hok
  have hs : cString buf = some ((serviceUrl e.cfg e.info (text "chunks")).bytes.take 127) := by
    rw [hb]
    have hc : 0 ∉ (serviceUrl e.cfg e.info (text "chunks")).bytes.take 127 := fun h => hclean (List.mem_of_mem_take h)
    generalize (serviceUrl e.cfg e.info (text "chunks")).bytes.take 127 = u at hc
    unfold cString
    rw [if_pos (by simp)]
    congr 1
    clear hb
    induction u with
    | nil => simp
    | cons a u ih =>
      have ha : a ≠ 0 := fun h => hc (by rw [h]; exact List.mem_cons_self ..)
      rw [List.cons_append, List.takeWhile_cons, if_pos (by simpa using ha),
        ih (fun h => hc (List.mem_cons_of_mem _ h))]
  unfold postData
  rw [r1]
  simp only [exList, List.isEmpty_cons, Bool.not_false, Bool.not_true, Bool.false_eq_true, if_false]
  rw [show HttpRequest.ascii "chunks" = text "chunks" from rfl, h1]
  simp only
  rw [hs]
  simp [postChunks, perform]

example : (serviceUrl exEsp.cfg { exHttpDevice with serial := List.replicate 100 65 } (text "chunks")).bytes.length =
    142 := by decide +kernel

/-! ## The connection and what is counted -/

/-- C87: an upload starts only when some interface is up and has an address. -/
theorem C87_connected (netifs : List Netif) :
    connected netifs = true ↔ ∃ n ∈ netifs, n.up = true ∧ ∃ a, n.addr = some a ∧ a ≠ 0 := by
  induction netifs with
  | nil => simp [connected]
  | cons n t ih =>
    rw [connected]
    rcases n with ⟨up, addr⟩
    cases up with
    | false =>
      simp only [Bool.not_false, if_true, ih, List.mem_cons, exists_eq_or_imp, Bool.false_eq_true, false_and, false_or]
    | true =>
      cases addr with
      | none => simp [ih]
      | some a =>
        by_cases h : a = 0
        · subst h; simp [ih]
        · simp [h]

/-- C87: each upload that gets as far as a client is counted once, as a success exactly when the post returned
0, and every client is closed. -/
theorem C87_counts {π : Type} {e : Env} {size : Nat} (he : EspEnv e size) (src : Source π) (netifs : List Netif)
    (client : Option Client) (sync : Sync) (bytes : Nat) (p : π) :
    ∃ o, portPost e src netifs client sync bytes p = some o ∧ o.opened = o.closed ∧
      (((¬ ∃ n ∈ netifs, n.up = true ∧ ∃ a, n.addr = some a ∧ a ≠ 0) ∧ o.rv = -1 ∧ o.sync = sync ∧ o.source = p) ∨
        ((∃ n ∈ netifs, n.up = true ∧ ∃ a, n.addr = some a ∧ a ≠ 0) ∧
          ((src.available p = false ∧ o.rv = 0 ∧ o.sync = sync ∧ o.source = p) ∨
            (src.available p = true ∧
              ((o.rv = 0 ∧ o.sync = ⟨sync.success + 1, sync.failure⟩ ∧ client.isSome = true) ∨
                (o.rv < 0 ∧ o.sync = ⟨sync.success, sync.failure + 1⟩)) ∧
              (client = none → o.rv = -1 ∧ o.source = p) ∧
              ∀ c, client = some c → ∃ r, postData e src bytes p c = some r ∧ r.rv = o.rv ∧ r.source = o.source)))) := by
  unfold portPost
  cases hc : connected netifs with
  | false =>
    have h1 : ¬ ∃ n ∈ netifs, n.up = true ∧ ∃ a, n.addr = some a ∧ a ≠ 0 := by
      rw [← C87_connected, hc]; simp
    exact ⟨_, rfl, rfl, .inl ⟨h1, rfl, rfl, rfl⟩⟩
  | true =>
    have h1 := (C87_connected netifs).1 hc
    cases ha : src.available p with
    | false => exact ⟨_, rfl, rfl, .inr ⟨h1, .inl ⟨rfl, rfl, rfl, rfl⟩⟩⟩
    | true =>
      cases client with
      | none =>
        exact ⟨_, rfl, rfl, .inr ⟨h1, .inr ⟨rfl, .inr ⟨by simp, rfl⟩, fun _ => ⟨rfl, rfl⟩, fun c h => by simp at h⟩⟩⟩
      | some c =>
        have hrv : ∃ r, postData e src bytes p c = some r ∧ (r.rv = 0 ∨ r.rv < 0) := by
          obtain ⟨o, ds, q, h2, _, _, h3⟩ := C87_post_partial he src bytes c ha
          refine ⟨o, h2, ?_⟩
          rcases h3 with ⟨_, _, ss, _, _, h4⟩ | ⟨h4, _⟩
          · obtain ⟨buf, ok, u1, u2⟩ := url_ok he
            unfold postData at h2
            rw [ha, alloc_of he] at h2
            simp only [Bool.not_true, Bool.false_eq_true, if_false] at h2
            rw [u1] at h2
            simp only at h2
            rw [u2] at h2
            simp only at h2
            split at h2
            · simp at h2
            · split at h2
              · rename_i heq hne
                obtain ⟨rv, n, p', c', ds, q, g1, _, _, _, g4⟩ := post_chunks src size (c.script.length + 2) 0 p
                  { c with url := (serviceUrl e.cfg e.info (text "chunks")).bytes } (by simp)
                rw [g1] at heq
                simp only [Option.some.injEq, Prod.mk.injEq] at heq h2
                obtain ⟨rfl, _⟩ := heq
                subst h2
                rcases g4 with ⟨g5, _⟩ | ⟨g5, _⟩
                · exact absurd g5 hne
                · exact .inr (by simp only; omega)
              · simp only [Option.some.injEq] at h2
                subst h2
                simp only
                split
                · exact .inl rfl
                · exact .inr (by decide)
          · exact .inr (by omega)
        obtain ⟨r, r1, r2⟩ := hrv
        simp only [Bool.not_true, Bool.false_eq_true, if_false]
        rw [r1]
        refine ⟨_, rfl, rfl, .inr ⟨h1, .inr ⟨trivial, ?_, by simp, ?_⟩⟩⟩
        · rcases r2 with r2 | r2
          · left; simp [r2]
          · right
            refine ⟨r2, ?_⟩
            rw [if_neg (by omega), if_neg (by omega)]
        · rintro c' ⟨⟩
          exact ⟨r, r1, rfl, rfl⟩

example : (portPost exEsp exList [⟨true, some 0⟩, ⟨true, some 7⟩] (some { script := [.answered 202] }) {} 0 [[1]]).map
    (fun o => (o.rv, o.sync, o.opened, o.closed)) = some (0, ⟨1, 0⟩, 1, 1) := by decide +kernel

/-- C87: the client of the ESP8266 uses the first certificate that works, and only that client stays open. -/
theorem C87_certificate (works : List Bool) :
    ∃ r opened closed, create8266 works 0 = (r, opened, closed) ∧
      (∀ i, r = some i ↔ works[i]? = some true ∧ ∀ j < i, works[j]? = some false) ∧
      opened = closed + (if r.isSome then 1 else 0) := by
  have : ∀ (ws : List Bool) (k : Nat), ∃ r opened closed, create8266 ws k = (r, opened, closed) ∧
      (∀ i, r = some i ↔ k ≤ i ∧ ws[i - k]? = some true ∧ ∀ j < i - k, ws[j]? = some false) ∧
      opened = closed + (if r.isSome then 1 else 0) := by
    intro ws
    induction ws with
    | nil => intro k; exact ⟨none, k, k, rfl, by simp, by simp⟩
    | cons w ws ih =>
      intro k
      cases w with
      | true =>
        refine ⟨some k, k + 1, k, rfl, fun i => ⟨?_, ?_⟩, by simp⟩
        · rintro ⟨⟩
          refine ⟨Nat.le_refl _, by simp, fun j hj => by omega⟩
        · rintro ⟨h1, h2, h3⟩
          by_cases hi : i = k
          · rw [hi]
          · have := h3 0 (by omega); simp at this
      | false =>
        obtain ⟨r, opened, closed, h1, h2, h3⟩ := ih (k + 1)
        refine ⟨r, opened, closed, h1, fun i => (h2 i).trans ⟨?_, ?_⟩, h3⟩
        · rintro ⟨g1, g2, g3⟩
          have he : i - k = (i - (k + 1)) + 1 := by omega
          refine ⟨by omega, by rw [he]; simpa using g2, fun j hj => ?_⟩
          cases j with
          | zero => rfl
          | succ j => simpa using g3 j (by omega)
        · rintro ⟨g1, g2, g3⟩
          have hne : i ≠ k := by rintro rfl; simp at g2
          have he : i - k = (i - (k + 1)) + 1 := by omega
          refine ⟨by omega, by rw [he] at g2; simpa using g2, fun j hj => ?_⟩
          simpa using g3 (j + 1) (by omega)
  obtain ⟨r, opened, closed, h1, h2, h3⟩ := this works 0
  exact ⟨r, opened, closed, h1, fun i => by simpa using h2 i, h3⟩

example : create8266 [false, true, false] 0 = (some 1, 2, 1) := by decide

end Mflt.Props
