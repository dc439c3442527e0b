import Verif.Spec.MbedtlsHttp
import Verif.Props.ZephyrUpload

/-! # C85: uploads on top of Mbed TLS -/

namespace Mflt.Props

open MbedtlsHttp
open ZephyrUpload (Source Env)
open HttpRequest (startChunkPost formatInt sendAll formatInt_nat)
open Spec.ZephyrUpload (Reads Pieces Honest TakesMessage)
open Spec.MbedtlsHttp (Arrives NotCut)
open Spec.HttpRequest (text)
open Spec.Http (Response decimal)

/-! ## Sending bytes -/

/-- Every write takes all bytes, until the connection breaks. -/
private def Steady (c : Conn) : Prop := ∀ w ∈ c.writes, w = Wr.whole

private theorem try_steady {c : Conn} (hc : Steady c) {buf : Bytes} (hl : buf.length < 2 ^ 32) :
    ∃ ok v c', trySend c buf = (ok, c') ∧ c'.wire = c.wire ++ v ∧ Steady c' ∧
      c'.incoming = c.incoming ∧ c'.reads = c.reads ∧
      (ok = true → v = buf ∧ c.writes.length ≤ c'.writes.length + min 1 buf.length) ∧
      (ok = false → v = [] ∧ c'.writes = [] ∧ buf ≠ []) ∧
      (0 < c.writes.length → ok = true) ∧ (buf = [] → ok = true ∧ c' = c) ∧
      (c.writes = [] → c' = c ∧ (buf ≠ [] → ok = false)) := by
  unfold trySend
  by_cases hb : buf = []
  · subst hb
    cases hw : c.writes with
    | nil =>
      refine ⟨true, [], c, ?_, by simp, hc, rfl, rfl, by simp [hw], by simp, by simp, by simp, by simp⟩
      simp [tryLoop, ← hw]
    | cons w t =>
      refine ⟨true, [], c, ?_, by simp, hc, rfl, rfl, by simp [hw], by simp, by simp, by simp, by simp⟩
      simp [tryLoop, ← hw]
  · have hpos : 0 < buf.length := List.length_pos_iff.2 hb
    cases hw : c.writes with
    | nil =>
      refine ⟨false, [], c, ?_, by simp, hc, rfl, rfl, by simp, fun _ => ⟨rfl, hw, hb⟩, by simp, fun h => absurd h hb,
        fun _ => ⟨rfl, fun _ => rfl⟩⟩
      simp only [tryLoop, ← hw]
      rw [decide_eq_false (by omega)]
    | cons w t =>
      have hw0 : w = .whole := hc w (by rw [hw]; exact List.mem_cons_self ..)
      subst hw0
      have hmod : (0 + buf.length) % 2 ^ 32 = buf.length := by rw [Nat.zero_add, Nat.mod_eq_of_lt hl]
      have hloop : tryLoop buf t buf.length (c.wire ++ buf) = (true, t, c.wire ++ buf) := by
        cases t with
        | nil => simp [tryLoop]
        | cons => simp [tryLoop]
      refine ⟨true, buf, { c with writes := t, wire := c.wire ++ buf }, ?_, rfl, ?_, rfl, rfl, ?_, by simp, by simp,
        fun h => absurd h hb, by simp⟩
      · rw [tryLoop, if_neg (by omega)]
        simp only
        rw [hmod, hloop]
      · intro x hx
        exact hc x (by rw [hw]; exact List.mem_cons_of_mem _ hx)
      · intro _
        refine ⟨rfl, ?_⟩
        rw [List.length_cons]
        simp only
        omega

private theorem sendAll_steady : ∀ (ps : List Bytes) (c : Conn), Steady c → (∀ d ∈ ps, d.length < 2 ^ 32) →
    ∃ ok v c', sendAll trySend ps c = (ok, c') ∧ c'.wire = c.wire ++ v ∧ Steady c' ∧
      c'.incoming = c.incoming ∧ c'.reads = c.reads ∧ v <+: ps.flatten ∧
      (ok = true → v = ps.flatten ∧ c.writes.length ≤ c'.writes.length + ps.length) ∧
      (ok = false → c'.writes = []) ∧ (ps.length ≤ c.writes.length → ok = true) ∧
      (c.writes = [] → c' = c) := by
  intro ps
  induction ps with
  | nil => intro c h _; exact ⟨true, [], c, rfl, by simp, h, rfl, rfl, by simp, by simp, by simp, by simp, by simp⟩
  | cons d ps ih =>
    intro c h hl
    obtain ⟨ok, v, c1, t1, t2, t3, t4, t5, t6, t7, t8, t9, t10⟩ :=
      try_steady h (hl d (List.mem_cons_self ..))
    rw [sendAll, t1]
    cases ok with
    | false =>
      refine ⟨false, v, c1, rfl, t2, t3, t4, t5, ?_, by simp, fun _ => (t7 rfl).2.1, fun hle => ?_, fun h => (t10 h).1⟩
      · rw [(t7 rfl).1]; exact List.nil_prefix
      · exact absurd (t8 (by simp only [List.length_cons] at hle; omega)) (by simp)
    | true =>
      obtain ⟨ok, w, c2, i1, i2, i3, i4, i5, i6, i7, i8, i9, i10⟩ :=
        ih c1 t3 fun d hd => hl d (List.mem_cons_of_mem _ hd)
      obtain ⟨e1, e2⟩ := t6 rfl
      subst e1
      refine ⟨ok, v ++ w, c2, by simpa using i1, by rw [i2, t2, List.append_assoc], i3, i4.trans t4, i5.trans t5,
        ?_, fun h => ⟨?_, ?_⟩, i8, fun hle => i9 ?_, fun h => ?_⟩
      · rw [List.flatten_cons]; exact (List.prefix_append_right_inj _).2 i6
      · rw [(i7 h).1, List.flatten_cons]
      · have := (i7 h).2
        rw [List.length_cons]
        omega
      · rw [List.length_cons] at hle
        omega
      · have := (t10 h).1
        subst this
        exact i10 h

private theorem pieces_steady {π : Type} (src : Source π) : ∀ fuel (p : π) (pieces : List Bytes) (q : π),
    Pieces src.next p pieces q → pieces.length < fuel → (∀ d ∈ pieces, d.length < 2 ^ 32) →
    ∀ c : Conn, Steady c →
    ∃ ok v p' c', sendPieces src fuel p c = some (ok, p', c') ∧ c'.wire = c.wire ++ v ∧
      c'.incoming = c.incoming ∧ c'.reads = c.reads ∧ v <+: pieces.flatten ∧
      (ok = true → v = pieces.flatten ∧ p' = q) ∧
      (ok = false → c'.writes = [] ∧ ∃ q', p' = src.abort q') ∧
      (pieces.flatten.length ≤ c.writes.length → ok = true) ∧
      (c.writes = [] → c' = c ∧ (pieces.flatten ≠ [] → ok = false)) := by
  intro fuel
  induction fuel with
  | zero => intro p pieces q _ h; omega
  | succ fuel ih =>
    intro p pieces q hp hf hl c hc
    rw [sendPieces]
    cases hp with
    | done h =>
      rw [h]
      exact ⟨_, [], _, _, rfl, by simp, rfl, rfl, by simp, fun _ => ⟨rfl, rfl⟩, by simp, by simp, by simp⟩
    | @last _ _ d h =>
      rw [h]
      obtain ⟨ok, v, c1, t1, t2, t3, t4, t5, t6, t7, t8, t9, t10⟩ :=
        try_steady hc (hl d (List.mem_cons_self ..))
      simp only
      rw [t1]
      cases ok with
      | true =>
        refine ⟨true, v, q, c1, rfl, t2, t4, t5, ?_, fun _ => ⟨?_, rfl⟩, by simp, by simp, fun h => ⟨(t10 h).1, fun hn => ?_⟩⟩
        · rw [(t6 rfl).1]; simp
        · rw [(t6 rfl).1]; simp
        · exact (t10 h).2 (by simpa using hn)
      | false =>
        refine ⟨false, v, src.abort q, c1, rfl, t2, t4, t5, ?_, by simp, fun _ => ⟨(t7 rfl).2.1, q, rfl⟩, fun hle => ?_,
          fun h => ⟨(t10 h).1, fun _ => rfl⟩⟩
        · rw [(t7 rfl).1]; exact List.nil_prefix
        · have := List.length_pos_iff.2 (t7 rfl).2.2
          exact t8 (by simp only [List.flatten_cons, List.flatten_nil, List.append_nil] at hle; omega)
    | @more _ q' _ d ds h t =>
      rw [h]
      simp only [List.length_cons] at hf
      obtain ⟨ok, v, c1, t1, t2, t3, t4, t5, t6, t7, t8, t9, t10⟩ :=
        try_steady hc (hl d (List.mem_cons_self ..))
      simp only
      rw [t1]
      cases ok with
      | true =>
        simp only [Bool.not_true, Bool.false_eq_true, if_false]
        obtain ⟨ok, w, p', c2, i1, i2, i3, i4, i5, i6, i7, i8, i9⟩ :=
          ih q' ds q t (by omega) (fun d hd => hl d (List.mem_cons_of_mem _ hd)) c1 t3
        obtain ⟨e1, e2⟩ := t6 rfl
        subst e1
        refine ⟨ok, v ++ w, p', c2, i1, by rw [i2, t2, List.append_assoc], i3.trans t4, i4.trans t5, ?_, fun h => ⟨?_, (i6 h).2⟩,
          i7, fun hle => i8 ?_, fun hn => ?_⟩
        · rw [List.flatten_cons]; exact (List.prefix_append_right_inj _).2 i5
        · rw [(i6 h).1, List.flatten_cons]
        · rw [List.flatten_cons, List.length_append] at hle
          omega
        · obtain ⟨a1, a2⟩ := t10 hn
          subst a1
          have hv : v = [] := by
            by_cases hv : v = []
            · exact hv
            · exact absurd (a2 hv) (by simp)
          subst hv
          simpa using i9 hn
      | false =>
        refine ⟨false, v, src.abort q', c1, rfl, t2, t4, t5, ?_, by simp, fun _ => ⟨(t7 rfl).2.1, q', rfl⟩, fun hle => ?_,
          fun h => ⟨(t10 h).1, fun _ => rfl⟩⟩
        · rw [(t7 rfl).1]; exact List.nil_prefix
        · have := List.length_pos_iff.2 (t7 rfl).2.2
          refine t8 ?_
          rw [List.flatten_cons, List.length_append] at hle
          omega

/-! ## Waiting for the answer -/

private theorem parse_nil (ctx : Http.Ctx) : Http.parse false ctx [] = some ({ ctx with processed := 0 }, false) := rfl

private theorem recv_steps (c : Conn) :
    ((recv c 32).1 = none ∧ Rd.fail ∈ c.reads) ∨
    ∃ d, (recv c 32).1 = some d ∧ d ++ (recv c 32).2.incoming = c.incoming ∧
      (recv c 32).2.reads = c.reads.tail ∧ (recv c 32).2.wire = c.wire ∧
      ((∃ k, c.reads.head? = some (.data k)) → c.incoming ≠ [] → d ≠ []) ∧
      (c.reads = [] → d = [] ∧ (recv c 32).2 = c) := by
  unfold recv
  cases hr : c.reads with
  | nil => exact Or.inr ⟨[], rfl, rfl, by simp [hr], rfl, by simp, by simp⟩
  | cons r t =>
    cases r with
    | want => exact Or.inr ⟨[], rfl, rfl, rfl, rfl, by simp, by simp⟩
    | fail => exact Or.inl ⟨rfl, List.mem_cons_self ..⟩
    | data k =>
      refine Or.inr ⟨_, rfl, List.take_append_drop _ _, rfl, rfl, fun _ hne => ?_, by simp⟩
      intro h
      have := congrArg List.length h
      rw [List.length_take, List.length_nil] at this
      have := List.length_pos_iff.2 hne
      omega

private theorem parse_wf {ctx : Http.Ctx} (hw : Http.Wf ctx) (d : Bytes) :
    ∃ x dn, Http.parse false ctx d = some (x, dn) ∧ Http.Wf x := by
  unfold Http.parse
  exact Http.steps_wf false d _ (hw.processed 0)

/-- What waiting means when it ends. -/
private theorem wait_ends : ∀ fuel (ctx : Http.Ctx) (c : Conn) (st : Int) (c' : Conn), Http.Wf ctx →
    waitResponse fuel ctx c = some (st, c') →
    c'.wire = c.wire ∧ ((st = -1 ∧ Rd.fail ∈ c.reads) ∨
      ∃ pieces x n, pieces.flatten <+: c.incoming ∧ feedAll false ctx pieces = some (x, true, n) ∧ st = x.status) := by
  intro fuel
  induction fuel with
  | zero => intro ctx c st c' _ h; simp [waitResponse] at h
  | succ fuel ih =>
    intro ctx c st c' hw h
    rw [waitResponse] at h
    rcases recv_steps c with ⟨h1, h2⟩ | ⟨d, h1, h2, h3, h4, _, _⟩
    · rw [h1] at h
      simp only [Option.some.injEq, Prod.mk.injEq] at h
      refine ⟨?_, Or.inl ⟨h.1.symm, h2⟩⟩
      rw [← h.2]
      unfold recv
      split <;> rfl
    · rw [h1] at h
      obtain ⟨x, dn, p1, p2⟩ := parse_wf hw d
      simp only at h
      rw [p1] at h
      cases dn with
      | true =>
        simp only [Option.some.injEq, Prod.mk.injEq] at h
        refine ⟨by rw [← h.2]; exact h4, Or.inr ⟨[d], x, x.processed, ?_, ?_, h.1.symm⟩⟩
        · rw [← h2]; simp
        · rw [feedAll, p1]
      | false =>
        obtain ⟨i1, i2⟩ := ih x _ st c' p2 h
        refine ⟨i1.trans h4, ?_⟩
        rcases i2 with ⟨i2, i3⟩ | ⟨pieces, y, n, i2, i3, i4⟩
        · refine Or.inl ⟨i2, ?_⟩
          rw [h3] at i3
          exact List.mem_of_mem_tail i3
        · refine Or.inr ⟨d :: pieces, y, x.processed + n, ?_, ?_, i4⟩
          · rw [← h2, List.flatten_cons]
            exact (List.prefix_append_right_inj _).2 i2
          · rw [feedAll, p1]
            simp only [i3, Option.map_some]

/-- Without a whole response and without a failure it does not end. -/
private theorem wait_hangs : ∀ fuel (ctx : Http.Ctx) (c : Conn), Http.Wf ctx → Rd.fail ∉ c.reads →
    (∀ pieces, pieces.flatten <+: c.incoming → ∀ x n, feedAll false ctx pieces ≠ some (x, true, n)) →
    waitResponse fuel ctx c = none := by
  intro fuel ctx c hw hf hn
  cases hr : waitResponse fuel ctx c with
  | none => rfl
  | some r =>
    obtain ⟨_, h | ⟨pieces, x, n, h1, h2, _⟩⟩ := wait_ends fuel ctx c r.1 r.2 hw hr
    · exact absurd h.2 hf
    · exact absurd h2 (hn pieces h1 x n)

/-- A whole response is found. -/
private theorem wait_finds (s : Int) : ∀ fuel (ctx : Http.Ctx) (c : Conn), Http.Wf ctx → c.reads.length < fuel →
    Arrives c.reads c.incoming.length →
    (∀ pieces, pieces.flatten = c.incoming → ∃ x n, feedAll false ctx pieces = some (x, true, n) ∧ x.status = s) →
    ∃ c', waitResponse fuel ctx c = some (s, c') ∧ c'.wire = c.wire := by
  intro fuel
  induction fuel with
  | zero => intro ctx c _ h; omega
  | succ fuel ih =>
    intro ctx c hw hf ha hall
    have hne : c.incoming ≠ [] := by
      intro he
      obtain ⟨x, n, h1, _⟩ := hall [] (by rw [he]; rfl)
      simp [feedAll] at h1
    rw [waitResponse]
    rcases recv_steps c with ⟨h1, h2⟩ | ⟨d, h1, h2, h3, h4, h5, h6⟩
    · exact absurd h2 ha.1
    · rw [h1]
      obtain ⟨x, dn, p1, p2⟩ := parse_wf hw d
      simp only
      rw [p1]
      cases dn with
      | true =>
        obtain ⟨y, n, f1, f2⟩ := hall [d, (recv c 32).2.incoming] (by simpa using h2)
        rw [feedAll, p1] at f1
        simp only [Option.some.injEq, Prod.mk.injEq, true_and] at f1
        exact ⟨_, by simp only [f1.1, f2], h4⟩
      | false =>
        simp only
        have hrec : ∀ pieces, pieces.flatten = (recv c 32).2.incoming →
            ∃ y n, feedAll false x pieces = some (y, true, n) ∧ y.status = s := by
          intro pieces hp
          obtain ⟨y, n, f1, f2⟩ := hall (d :: pieces) (by rw [List.flatten_cons, hp, h2])
          rw [feedAll, p1] at f1
          simp only [Option.map_eq_some_iff, Prod.mk.injEq] at f1
          obtain ⟨⟨y', dn', n'⟩, g1, g2, g3, _⟩ := f1
          simp only at g2 g3
          subst g2 g3
          exact ⟨_, _, g1, f2⟩
        cases hrd : c.reads with
        | nil =>
          have := ha.2
          rw [hrd] at this
          simp at this
          exact absurd this hne
        | cons r t =>
          rw [hrd, List.tail_cons] at h3
          rw [hrd, List.length_cons] at hf
          have hlen : d.length + (recv c 32).2.incoming.length = c.incoming.length := by
            rw [← h2, List.length_append]
          have ha' : Arrives (recv c 32).2.reads (recv c 32).2.incoming.length := by
            rw [h3]
            obtain ⟨a1, a2⟩ := ha
            rw [hrd] at a1 a2
            refine ⟨fun h => a1 (List.mem_cons_of_mem _ h), ?_⟩
            rw [List.countP_cons] at a2
            cases r with
            | data k =>
              have := List.length_pos_iff.2 (h5 ⟨k, by rw [hrd]; rfl⟩ hne)
              simp only [if_true] at a2
              omega
            | want => simp only [Bool.false_eq_true, if_false] at a2; omega
            | fail => exact absurd (List.mem_cons_self ..) a1
          obtain ⟨c', w1, w2⟩ := ih x _ p2 (by rw [h3]; omega) ha' hrec
          exact ⟨c', w1, w2.trans h4⟩

/-! ## Posts -/

/-- What is asked of the configuration, besides that of `UploadEnv`: strings that fit the memory. -/
structure TlsEnv (e : Env) : Prop extends UploadEnv e where
  hostFits : (chunksHostOf e.cfg).length < 2 ^ 32
  keyFits : e.cfg.apiKey.length < 2 ^ 32

private theorem post_request {e : Env} (he : TlsEnv e) {n : Nat} (hn : n < 2 ^ 31) :
    ∃ ps : List Bytes, (∀ c, startChunkPost e.cfg e.info e.junk trySend n c = some (sendAll trySend ps c)) ∧
      ps.length = 11 ∧ (∀ d ∈ ps, d.length < 2 ^ 32) ∧
      ∀ d : Bytes, d.length = n → Reads e (ps.flatten ++ d) [d] := by
  obtain ⟨d1, d2, d3, d4⟩ := formatInt_nat (n := n) (by omega)
  refine ⟨postPieces e.cfg e.info (formatInt (Http.wrap n)), fun c => ?_, rfl, ?_, fun d hd => ?_⟩
  · rw [startChunkPost_eq _ _ he.junk he.fits rfl (by omega)]
  · have hf := he.fits
    have hh : e.cfg.chunksApiHost.length < 2 ^ 32 := he.hostFits
    have hk := he.keyFits
    have l1 : (HttpRequest.ascii "POST /api/v0/chunks/").length = 20 := by decide
    have l2 : (HttpRequest.ascii " HTTP/1.1\r\n").length = 11 := by decide
    have l3 : (HttpRequest.ascii "Content-Length:").length = 15 := by decide
    have l4 : (HttpRequest.ascii "\r\n").length = 2 := by decide
    have l5 : (HttpRequest.ascii "Host:").length = 5 := by decide
    have l6 : (HttpRequest.ascii "User-Agent:MemfaultSDK/1.23.1\r\n").length = 31 := by decide
    have l7 : (HttpRequest.ascii "Memfault-Project-Key:").length = 21 := by decide
    have l8 : (HttpRequest.ascii "Content-Type:application/octet-stream\r\n").length = 39 := by decide
    intro d hd
    unfold postPieces at hd
    simp only [List.mem_cons, List.not_mem_nil, or_false] at hd
    rcases hd with h | h | h | h | h | h | h | h | h | h | h <;> subst h
    · simp only [List.length_append, l1, l2]; omega
    · rw [l5]; decide
    · exact hh
    · decide
    · rw [l6]; decide
    · rw [l7]; decide
    · exact hk
    · decide
    · rw [l8]; decide
    · simp only [List.length_append, l3, l4]; omega
    · decide
  · have := Reads.post (e := e) _ d [] _ [] (formatInt (Http.wrap n))
      (fun body => parse_post he.serial he.host he.key (noBreak_of_digits d2) body) rfl rfl
      (by simp [postFields]) (by simp [postFields]) d2 (by rw [d1, hd]) .nothing
    simpa using this

/-- The header and the pieces together. -/
private theorem post_sends {π : Type} {e : Env} (he : TlsEnv e) (src : Source π) (fuel : Nat)
    (hs : Honest src fuel) {p q : π} {n : Nat} (hb : src.begin p = (some n, q)) (hn : 0 < n) (c : Conn)
    (hc : c.wire = []) (hw : Steady c) :
    ∃ d r w ok p' c', TakesMessage src p d r ∧ d.length = n ∧ Reads e w [d] ∧
      (∀ waits, postData fuel waits e src true p c =
        if ok then (waitResponse waits Http.Ctx.init c').map fun s =>
            ⟨if s.1 ≠ 202 then s.1 else 0, some s.1, p', s.2⟩
        else some ⟨0, none, p', c'⟩) ∧
      c'.incoming = c.incoming ∧ c'.reads = c.reads ∧ c'.wire <+: w ∧
      (ok = true → c'.wire = w ∧ p' = r) ∧
      (ok = false → c'.writes = [] ∧ ∃ q', p' = src.abort q') ∧
      (11 + n ≤ c.writes.length → ok = true) ∧ (c.writes = [] → ok = false ∧ c'.wire = []) := by
  obtain ⟨hn31, pieces, r, hp, hl, hf⟩ := hs p n q hb
  obtain ⟨ps, r1, r2, r3, r4⟩ := post_request he hn31
  obtain ⟨ok1, v1, c1, s1, s2, s3, s4, s5, s6, s7, s8, s9, s10⟩ := sendAll_steady ps c hw r3
  have hpl : ∀ d ∈ pieces, d.length < 2 ^ 32 := by
    intro d hd
    have := (List.sublist_flatten_of_mem hd).length_le
    omega
  obtain ⟨ok, v, p', c', t1, t2, t3, t4, t5, t6, t7, t8, t9⟩ := pieces_steady src fuel q pieces r hp hf hpl c1 s3
  have hne : pieces.flatten ≠ [] := by
    intro h
    rw [h] at hl
    simp at hl
    omega
  refine ⟨pieces.flatten, r, ps.flatten ++ pieces.flatten, ok, p', c', ⟨q, pieces, by rw [hb, hl], hp, rfl⟩, hl,
    r4 _ hl, fun waits => ?_, t3.trans s4, t4.trans s5, ?_, fun h => ?_, t7, fun hle => ?_, fun h0 => ?_⟩
  · unfold postData
    simp only [Bool.not_true, Bool.false_eq_true, if_false]
    rw [hb]
    simp only
    rw [r1, s1]
    simp only
    rw [t1]
    cases ok with
    | false => rfl
    | true =>
      simp only [if_true]
      cases waitResponse waits Http.Ctx.init c' <;> rfl
  · rw [t2, s2, hc, List.nil_append]
    cases ok1 with
    | true => rw [(s7 rfl).1]; exact (List.prefix_append_right_inj _).2 t5
    | false =>
      have e := (t9 (s8 rfl)).1
      have hv : v = [] := by
        have := congrArg Conn.wire e
        rw [t2] at this
        simpa using this
      rw [hv, List.append_nil]
      exact s6.trans (List.prefix_append _ _)
  · cases ok1 with
    | true =>
      refine ⟨?_, (t6 h).2⟩
      rw [t2, s2, hc, List.nil_append, (s7 rfl).1, (t6 h).1]
    | false =>
      have := (t9 (s8 rfl)).2 hne
      rw [h] at this
      simp at this
  · have h1 := s9 (by omega)
    have h2 := (s7 h1).2
    exact t8 (by omega)
  · have e1 := s10 h0
    subst e1
    obtain ⟨e2, e3⟩ := t9 h0
    exact ⟨e3 hne, by rw [e2, hc]⟩

/-- **C85 (posts).** For every packetizer whose messages have the length it says and are not empty, and
every connection that takes all bytes of each write until it breaks: without a client nothing happens;
without data the result is 1; otherwise a server reads the message in one post, or a beginning of that. The
callback is called only when all of it went out and an answer that is not cut, or a failure, came; the
result is then 0 for 202 and the status otherwise. Missing: writes that take a part of the bytes
(`C85_false_part`), and the result when the connection breaks (`C85_false_result`). -/
theorem C85_post_partial {π : Type} {e : Env} (he : TlsEnv e) (src : Source π) (fuel : Nat)
    (hs : Honest src fuel) (hpos : ∀ p n q, src.begin p = (some n, q) → 0 < n) (waits : Nat) (p : π) (c : Conn)
    (hc : c.wire = []) (hw : ∀ w ∈ c.writes, w = Wr.whole) :
    postData fuel waits e src false p c = some ⟨-1, none, p, c⟩ ∧
    (∀ q, src.begin p = (none, q) → postData fuel waits e src true p c = some ⟨1, none, q, c⟩) ∧
    (∀ n q o, src.begin p = (some n, q) → postData fuel waits e src true p c = some o →
      ∃ d r w, TakesMessage src p d r ∧ Reads e w [d] ∧ o.conn.wire <+: w ∧
        (∀ s, o.called = some s → o.conn.wire = w ∧ o.source = r ∧ o.rv = (if s = 202 then 0 else s) ∧
          ((s = -1 ∧ Rd.fail ∈ c.reads) ∨ NotCut c.incoming)) ∧
        (o.called = none → o.conn.writes = [] ∧ ∃ q', o.source = src.abort q')) := by
  refine ⟨rfl, fun q hq => ?_, fun n q o hb ho => ?_⟩
  · unfold postData
    simp only [Bool.not_true, Bool.false_eq_true, if_false]
    rw [hq]
  · obtain ⟨d, r, w, ok, p', c', h1, _, h2, h3, h4, h5, h6, h7, h8, _, _⟩ :=
      post_sends he src fuel hs hb (hpos p n q hb) c hc hw
    rw [h3 waits] at ho
    cases ok with
    | false =>
      simp only [Bool.false_eq_true, if_false, Option.some.injEq] at ho
      subst ho
      exact ⟨d, r, w, h1, h2, h6, by simp, fun _ => h8 rfl⟩
    | true =>
      simp only [if_true, Option.map_eq_some_iff] at ho
      obtain ⟨⟨st, c2⟩, g1, g2⟩ := ho
      subst g2
      obtain ⟨w1, w2⟩ := wait_ends _ _ _ _ _ Http.init_wf g1
      refine ⟨d, r, w, h1, h2, by rw [w1]; exact h6, fun s hsome => ?_, by simp⟩
      simp only [Option.some.injEq] at hsome
      subst hsome
      refine ⟨w1.trans (h7 rfl).1, (h7 rfl).2, ?_, ?_⟩
      · by_cases h202 : st = 202 <;> simp [h202]
      · rw [h5, h4] at w2
        rcases w2 with w2 | ⟨pieces, x, k, f1, f2, _⟩
        · exact Or.inl w2
        · refine Or.inr fun r hr k hk he => ?_
          rw [he] at f1
          obtain ⟨rest, hrest⟩ := f1
          have hl : pieces.flatten.length ≤ k := by
            have := congrArg List.length hrest
            rw [List.length_append, List.length_take] at this
            omega
          have hp : pieces.flatten = r.bytes.take pieces.flatten.length := by
            have h1 : (r.bytes.take k).take pieces.flatten.length = pieces.flatten := by
              rw [← hrest, List.take_left]
            rw [List.take_take, Nat.min_eq_left hl] at h1
            exact h1.symm
          obtain ⟨c', n', h1⟩ := C44_needs_all hr _ (by omega) pieces hp
          rw [h1] at f2
          simp at f2

/-- **C85 (it works).** When the connection lasts for the message and a whole response arrives, however it
arrives: the post is complete, the callback gets the status of the response, and the result is 0 exactly
for 202. -/
theorem C85_completes {π : Type} {e : Env} (he : TlsEnv e) (src : Source π) (fuel : Nat)
    (hs : Honest src fuel) (p q : π) (n : Nat) (hb : src.begin p = (some n, q)) (hn : 0 < n) (c : Conn)
    (hc : c.wire = []) (hw : ∀ w ∈ c.writes, w = Wr.whole) (hl : 11 + n ≤ c.writes.length)
    {a : Response} (ha : a.Ok) (extra : Bytes) (hi : c.incoming = a.bytes ++ extra)
    (hr : Arrives c.reads c.incoming.length) (waits : Nat) (hwaits : c.reads.length < waits) :
    ∃ d o, TakesMessage src p d o.source ∧ postData fuel waits e src true p c = some o ∧
      Reads e o.conn.wire [d] ∧ o.called = some ↑(decimal a.code) ∧
      o.rv = (if decimal a.code = 202 then 0 else ↑(decimal a.code)) := by
  obtain ⟨d, r, w, ok, p', c', h1, _, h2, h3, h4, h5, h6, h7, h8, h9, _⟩ :=
    post_sends he src fuel hs hb hn c hc hw
  obtain rfl := h9 hl
  rw [← h4, ← h5] at hr
  rw [← h5] at hwaits
  obtain ⟨c2, w1, w2⟩ := wait_finds (decimal a.code) waits Http.Ctx.init c' Http.init_wf hwaits hr (by
    intro pieces hp
    obtain ⟨x, k, f1, _, f3, _⟩ := C44_response ha extra pieces (by rw [hp, h4, hi])
    exact ⟨x, k, f1, f3⟩)
  refine ⟨d, ⟨if (decimal a.code : Int) ≠ 202 then decimal a.code else 0, some (decimal a.code), p', c2⟩, by rw [(h7 rfl).2]; exact h1, ?_, by rw [w2, (h7 rfl).1]; exact h2, rfl, ?_⟩
  · rw [h3 waits, w1]
    rfl
  · simp only
    by_cases h202 : decimal a.code = 202
    · rw [h202]; rfl
    · rw [if_neg h202, if_pos (by omega)]

/-- **C85 (log).** A failure is logged exactly for a status that is not 2xx. -/
theorem C85_logged (s : Int) (h1 : -2 ^ 31 ≤ s) (h2 : s < 2 ^ 31) :
    logsFailure s = true ↔ ¬ (200 ≤ s ∧ s < 300) := by
  unfold logsFailure getStatus
  simp only [Bool.or_eq_true, decide_eq_true_eq]
  omega

/-- **C85 (write errors)**: an error of the connection while a piece of the message is written, after any number
of writes that took a part of it but not all, ends the sending: nothing is written after it and the packetizer
is told to start over, whatever the connection would have done later. -/
theorem C85_write_error {π : Type} (src : Source π) (fuel : Nat) (p q : π) (d : Bytes) (last : Bool)
    (hn : src.next p = (some (d, last), q)) (c : Conn) (ks : List Nat) (later : List Wr)
    (hks : (ks.map (· + 1)).sum < d.length) (hd : d.length < 2 ^ 32)
    (hc : c.writes = ks.map Wr.part ++ Wr.fail :: later) :
    ∃ wire, sendPieces src (fuel + 1) p c = some (false, src.abort q, { c with writes := later, wire := wire }) ∧
      wire.length = c.wire.length + (ks.map (· + 1)).sum := by
  have key : ∀ (ks : List Nat) (idx : Nat) (wire : Bytes), idx + (ks.map (· + 1)).sum < d.length →
      ∃ wire', tryLoop d (ks.map Wr.part ++ Wr.fail :: later) idx wire = (false, later, wire') ∧
        wire'.length = wire.length + (ks.map (· + 1)).sum := by
    intro ks
    induction ks with
    | nil =>
      intro idx wire h
      refine ⟨wire, ?_, by simp⟩
      simp only [List.map_nil, List.nil_append, List.sum_nil, Nat.add_zero] at h ⊢
      rw [tryLoop, if_neg (by omega)]
    | cons k t ih =>
      intro idx wire h
      simp only [List.map_cons, List.sum_cons] at h
      have hmin : min (k + 1) d.length = k + 1 := by omega
      obtain ⟨wire', h1, h2⟩ := ih (idx + (k + 1)) (wire ++ d.take (k + 1)) (by omega)
      refine ⟨wire', ?_, ?_⟩
      · simp only [List.map_cons, List.cons_append]
        rw [tryLoop, if_neg (by omega)]
        simp only [hmin]
        rw [Nat.mod_eq_of_lt (by omega)]
        exact h1
      · rw [h2, List.length_append, List.length_take]
        simp only [List.map_cons, List.sum_cons]
        omega
  obtain ⟨wire, h1, h2⟩ := key ks 0 c.wire (by omega)
  refine ⟨wire, ?_, h2⟩
  have ht : trySend c d = (false, { c with writes := later, wire := wire }) := by
    unfold trySend
    rw [hc, h1]
  rw [sendPieces, hn]
  simp only [ht, Bool.not_false, if_true]

/-! ## What goes wrong -/

/-- A connection that is broken from the start: not a byte of the message goes out, the packetizer is told to
start over, and the result is 0, which means success. -/
theorem C85_false_result {π : Type} {e : Env} (he : TlsEnv e) (src : Source π) (fuel : Nat)
    (hs : Honest src fuel) (p q : π) (n : Nat) (hb : src.begin p = (some n, q)) (hn : 0 < n) (c : Conn)
    (hc : c.wire = []) (hw : c.writes = []) (waits : Nat) :
    ∃ o, postData fuel waits e src true p c = some o ∧ o.rv = 0 ∧ o.called = none ∧ o.conn.wire = [] := by
  obtain ⟨d, r, w, ok, p', c', _, _, _, h3, _, _, _, _, _, _, h10⟩ :=
    post_sends he src fuel hs hb hn c hc (by unfold Steady; rw [hw]; simp)
  obtain ⟨rfl, h⟩ := h10 hw
  exact ⟨_, h3 waits, rfl, rfl, h⟩

/-- A server that closes the connection before the response is complete: the call does not return, however
long one waits. -/
theorem C85_false_closed {π : Type} {e : Env} (he : TlsEnv e) (src : Source π) (fuel : Nat)
    (hs : Honest src fuel) (p q : π) (n : Nat) (hb : src.begin p = (some n, q)) (hn : 0 < n) (c : Conn)
    (hc : c.wire = []) (hw : ∀ w ∈ c.writes, w = Wr.whole) (hl : 11 + n ≤ c.writes.length)
    {a : Response} (ha : a.Ok) (k : Nat) (hk : k < a.bytes.length) (hi : c.incoming = a.bytes.take k)
    (hr : Rd.fail ∉ c.reads) (waits : Nat) :
    postData fuel waits e src true p c = none := by
  obtain ⟨d, r, w, ok, p', c', _, _, _, h3, h4, h5, _, _, _, h9, _⟩ :=
    post_sends he src fuel hs hb hn c hc hw
  obtain rfl := h9 hl
  rw [h3 waits, wait_hangs waits Http.Ctx.init c' Http.init_wf (by rw [h5]; exact hr)]
  · rfl
  · intro pieces hp x m hf
    rw [h4, hi] at hp
    obtain ⟨rest, hrest⟩ := hp
    have hle : pieces.flatten.length ≤ k := by
      have := congrArg List.length hrest
      rw [List.length_append, List.length_take] at this
      omega
    have hpre : pieces.flatten = a.bytes.take pieces.flatten.length := by
      have h1 : (a.bytes.take k).take pieces.flatten.length = pieces.flatten := by
        rw [← hrest, List.take_left]
      rw [List.take_take, Nat.min_eq_left hle] at h1
      exact h1.symm
    obtain ⟨c', n', h1⟩ := C44_needs_all ha _ (by omega) pieces hpre
    rw [h1] at hf
    simp at hf

/-- A write that takes only a part of the bytes: all of them are sent again behind it. -/
theorem C85_false_part (buf : Bytes) (k : Nat) (hk : k + 1 < buf.length) (hl : buf.length < 2 ^ 32) (ws : List Wr)
    (c : Conn) (hc : c.writes = .part k :: .whole :: ws) :
    ∃ ok c', trySend c buf = (ok, c') ∧ c.wire ++ buf.take (k + 1) ++ buf <+: c'.wire := by
  have grow : ∀ (ws : List Wr) idx wire, wire <+: (tryLoop buf ws idx wire).2.2 := by
    intro ws
    induction ws with
    | nil => intro idx wire; exact List.prefix_refl _
    | cons w t ih =>
      intro idx wire
      cases w with
      | whole =>
        rw [tryLoop]
        split
        · exact List.prefix_refl _
        · exact (List.prefix_append _ _).trans (ih _ _)
      | part k =>
        rw [tryLoop]
        split
        · exact List.prefix_refl _
        · exact (List.prefix_append _ _).trans (ih _ _)
      | fail =>
        rw [tryLoop]
        split
        · exact List.prefix_refl _
        · exact List.prefix_refl _
  refine ⟨(trySend c buf).1, (trySend c buf).2, rfl, ?_⟩
  simp only [trySend]
  rw [hc, tryLoop, if_neg (by omega)]
  rw [show min (k + 1) buf.length = k + 1 by omega, Nat.zero_add, Nat.mod_eq_of_lt (by omega), tryLoop,
    if_neg (by omega)]
  exact grow _ _ _

/-! ## Examples -/

/-- A packetizer that holds whole messages. -/
private def exMessages : Source (List Bytes × Option Bytes) where
  chunk p := (none, p)
  «begin» p := match p.1 with
    | [] => (none, p)
    | d :: ds => (some ((d.take 64).length + 1), (ds, some (7 :: d.take 64)))
  next p := match p.2 with
    | none => (none, p)
    | some d => (some (d, true), (p.1, none))
  abort p := p

private theorem exMessages_honest : Honest exMessages 2 ∧
    ∀ p n q, exMessages.begin p = (some n, q) → 0 < n := by
  constructor
  · intro p n q h
    obtain ⟨l, o⟩ := p
    cases l with
    | nil => simp [exMessages] at h
    | cons d ds =>
      simp only [exMessages, Prod.mk.injEq, Option.some.injEq] at h
      obtain ⟨rfl, rfl⟩ := h
      refine ⟨by rw [List.length_take]; omega, [7 :: d.take 64], (ds, none), .last rfl, by simp, by simp⟩
  · intro p n q h
    obtain ⟨l, o⟩ := p
    cases l with
    | nil => simp [exMessages] at h
    | cons d ds =>
      simp only [exMessages, Prod.mk.injEq, Option.some.injEq] at h
      omega

private def exTls : Env := ⟨exHttpConfig, exHttpDevice, List.replicate 100 7⟩

private theorem exTls_ok : TlsEnv exTls :=
  ⟨⟨by decide +kernel, by decide +kernel, by decide +kernel, by decide +kernel, by decide +kernel⟩,
    by decide +kernel, by decide +kernel⟩

/-- A connection on which `answer` arrives. -/
private def exTlsConn (writes : Nat) (answer : String) : Conn :=
  { writes := List.replicate writes .whole, incoming := text answer,
    reads := .want :: List.replicate 60 (.data 4) }

example : (postData 2 90 exTls exMessages true ([[1, 2, 3]], none)
      (exTlsConn 15 "HTTP/1.1 202 OK\r\nContent-Length:0\r\n\r\n")).map (fun o => (o.rv, o.called)) =
      some (0, some 202) ∧
    (postData 2 90 exTls exMessages true ([[1, 2, 3]], none)
      (exTlsConn 15 "HTTP/1.1 503 Busy\r\nContent-Length:0\r\n\r\n")).map (fun o => (o.rv, o.called)) =
      some (503, some 503) ∧ TlsEnv exTls ∧ Honest exMessages 2 :=
  ⟨by decide +kernel, by decide +kernel, exTls_ok, exMessages_honest.1⟩

/-- An answer that is no HTTP is a success. -/
theorem C85_false_garbage :
    (postData 2 90 exTls exMessages true ([[1, 2, 3]], none) (exTlsConn 15 "SSH-2.0\r\n")).map
      (fun o => (o.rv, o.called)) = some (0, some 0) := by decide +kernel

/-- Two writes that take a byte each, then an error. -/
example : (sendPieces exMessages 2 ([[1, 2, 3]], some [1, 2, 3])
    { exTlsConn 0 "" with writes := [.part 0, .part 0, .fail, .whole] }).map (fun o => (o.1, o.2.1, o.2.2.wire)) =
    some (false, ([[1, 2, 3]], none), [1, 1]) := by decide +kernel

end Mflt.Props
