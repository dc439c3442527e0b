import Verif.Spec.ZephyrOta
import Verif.Props.Http

/-
C82: the download of updates by the Zephyr port.
-/
namespace Mflt.Props
open Mflt.Http Mflt.ZephyrOta Mflt.Spec.ZephyrOta
open Mflt.Spec.Http (Response announced decimal crlf)

/-! ## A call that is not done has processed all its bytes -/

private theorem endOfLine_false {ctx ctx' : Ctx} {len : Nat} (h : endOfLine ctx len = some (ctx', false)) :
    ctx'.processed = ctx.processed + 1 := by
  unfold endOfLine at h
  cases hm : memcpyIn ctx.line len [0] with
  | none => rw [hm] at h; exact absurd h (by simp)
  | some line =>
    rw [hm] at h
    simp only [Option.bind_eq_bind, Option.bind_some] at h
    cases hp : ctx.phase with
    | status =>
      rw [hp] at h
      simp only at h
      cases hs : parseStatusLine (line.take (len + 1)) len with
      | none => rw [hs] at h; exact absurd h (by simp)
      | some o =>
        rw [hs] at h
        cases o with
        | none => simp at h
        | some v =>
          simp at h
          rw [← h]
    | header =>
      rw [hp] at h
      simp only at h
      cases hs : parseHeader (line.take (len + 1)) len ctx.contentLength with
      | none => rw [hs] at h; exact absurd h (by simp)
      | some o =>
        rw [hs] at h
        cases o with
        | none => simp at h
        | some v =>
          simp only [Option.bind_some] at h
          split at h
          · simp at h
            rw [← h]
          · split at h
            · simp at h
            · simp at h
              rw [← h]
    | body =>
      rw [hp] at h
      simp at h
      rw [← h]

private theorem storeChar_processed {ctx ctx' : Ctx} {c : UInt8} (h : storeChar ctx c = some (some ctx')) :
    ctx'.processed = ctx.processed := by
  unfold storeChar at h
  split at h
  · split at h
    · split at h
      · rw [Option.map_eq_some_iff] at h
        obtain ⟨l, _, h⟩ := h
        simp only [Option.some.injEq] at h
        rw [← h]
      · split at h
        · rw [Option.map_eq_some_iff] at h
          obtain ⟨l, _, h⟩ := h
          simp only [Option.some.injEq] at h
          rw [← h]
        · simp only [Option.some.injEq] at h
          rw [← h]
    · exact absurd h (by simp)
  · rw [Option.map_eq_some_iff] at h
    obtain ⟨l, _, h⟩ := h
    simp only [Option.some.injEq] at h
    rw [← h]

private theorem step_false {ctx ctx' : Ctx} {c : UInt8} (h : step true ctx c = some (ctx', false)) :
    ctx'.processed = ctx.processed + 1 := by
  unfold step at h
  split at h
  · exact absurd h (by simp)
  · cases hs : storeChar ctx c with
    | none => rw [hs] at h; exact absurd h (by simp)
    | some o =>
      rw [hs] at h
      cases o with
      | none => exact absurd h (by simp)
      | some x =>
        have hx := storeChar_processed hs
        simp only at h
        split at h
        · simp only [Option.some.injEq, Prod.mk.injEq, and_true] at h
          rw [← h, ← hx]
        · split at h
          · split at h
            · rw [endOfLine_false h, hx]
            · simp only [Option.some.injEq, Prod.mk.injEq, and_true] at h
              rw [← h, ← hx]
          · exact absurd h (by simp)

private theorem steps_false : ∀ (data : Bytes) (ctx ctx' : Ctx),
    steps true ctx data = some (ctx', false) → ctx'.processed = ctx.processed + data.length
  | [], ctx, ctx', h => by
    simp only [steps, Option.some.injEq, Prod.mk.injEq, and_true] at h
    rw [← h]; rfl
  | c :: cs, ctx, ctx', h => by
    rw [steps_cons_eq] at h
    cases hs : step true ctx c with
    | none => rw [hs] at h; exact absurd h (by simp)
    | some p =>
      obtain ⟨x, d⟩ := p
      rw [hs] at h
      cases d with
      | true => exact absurd h (by simp)
      | false =>
        have h1 := step_false hs
        have h2 := steps_false cs x ctx' h
        rw [h2, h1, List.length_cons]
        omega

/-! ## Reading the header -/

/-- What is still to come, with the context so far: a header for a body of length `len` with `tail`
behind it. -/
private def Ahead (status len : Int) (tail : Bytes) (ctx : Ctx) (incoming : Bytes) : Prop :=
  Wf ctx ∧ ∃ c, parse true ctx incoming = some (c, true) ∧ c.err = .ok ∧ c.status = status ∧
    c.contentLength = len ∧ incoming.drop c.processed = tail

private theorem ahead_split {status len : Int} {tail : Bytes} {ctx : Ctx} {d inc : Bytes}
    (h : Ahead status len tail ctx (d ++ inc)) :
    (∃ c, parse true ctx d = some (c, false) ∧ Ahead status len tail c inc) ∨
    (∃ c, parse true ctx d = some (c, true) ∧ c.err = .ok ∧ c.status = status ∧
      c.contentLength = len ∧ d.drop c.processed ++ inc = tail) := by
  obtain ⟨hw, c, h1, h2, h3, h4, h5⟩ := h
  have hw' : Wf { ctx with processed := 0 } := hw.processed 0
  have happ : parse true ctx (d ++ inc) = match parse true ctx d with
      | some (ctx', false) => steps true ctx' inc
      | r => r := by
    unfold parse
    exact steps_append true d inc _
  rw [h1] at happ
  obtain ⟨x, b, hx, hwx⟩ := steps_wf true d { ctx with processed := 0 } hw'
  have hx' : parse true ctx d = some (x, b) := hx
  rw [hx'] at happ
  have hp := steps_processed true d { ctx with processed := 0 } x b hw' hx
  have hp1 : x.processed ≤ d.length := by have := hp.1; simp only at this; omega
  cases b with
  | true =>
    simp only [Option.some.injEq, Prod.mk.injEq, and_true] at happ
    subst happ
    refine Or.inr ⟨c, hx', h2, h3, h4, ?_⟩
    rw [List.drop_append_of_le_length hp1] at h5
    exact h5
  | false =>
    have hl : x.processed = d.length := by
      have := steps_false d _ x hx
      simpa using this
    simp only at happ
    have hpl : x = ({ x with processed := 0 } : Ctx).plus x.processed := by simp [Ctx.plus]
    rw [hpl, steps_plus] at happ
    cases hq : steps true { x with processed := 0 } inc with
    | none => rw [hq] at happ; exact absurd happ (by simp)
    | some y =>
      obtain ⟨c2, b2⟩ := y
      rw [hq] at happ
      simp only [Option.map_some, plusR, Ctx.plus, Option.some.injEq, Prod.mk.injEq] at happ
      obtain ⟨e1, e2⟩ := happ
      refine Or.inl ⟨x, hx', hwx, c2, ?_, ?_, ?_, ?_, ?_⟩
      · show steps true { x with processed := 0 } inc = _
        rw [hq, ← e2]
      · rw [e1] at h2; exact h2
      · rw [e1] at h3; exact h3
      · rw [e1] at h4; exact h4
      · rw [e1] at h5
        simp only at h5
        rw [hl, Nat.add_comm, List.drop_append] at h5
        rw [← h5]
        simp

/-- A read gives a prefix of what is to come, or fails. -/
theorem recv_cases (s : Sock) (n : Nat) :
    ((recv s n).1 = none ∧ (s.incoming ≠ [] → n ≠ 0 → ¬ Arrives s.script s.incoming.length)) ∨
    ∃ d, (recv s n).1 = some d ∧ d ++ (recv s n).2.incoming = s.incoming ∧ d.length ≤ n ∧
      (recv s n).2.script.length < s.script.length ∧
      (Arrives s.script s.incoming.length → Arrives (recv s n).2.script (recv s n).2.incoming.length) := by
  unfold recv
  cases hs : s.script with
  | nil =>
    refine Or.inl ⟨rfl, fun h _ ha => ?_⟩
    have := ha.2
    simp only [List.countP_nil, Nat.le_zero] at this
    exact h (List.length_eq_zero_iff.1 this)
  | cons r t =>
    cases r with
    | fail => exact Or.inl ⟨rfl, fun _ _ ha => ha.1 (List.mem_cons_self ..)⟩
    | again =>
      refine Or.inr ⟨[], rfl, rfl, Nat.zero_le _, by simp, fun ha => ⟨fun h => ha.1 (List.mem_cons_of_mem _ h), ?_⟩⟩
      have := ha.2
      rw [List.countP_cons] at this
      simpa using this
    | data k =>
      simp only
      split
      · rename_i he
        refine Or.inl ⟨rfl, fun h hn _ => ?_⟩
        rw [List.take_eq_nil_iff] at he
        rcases he with he | he
        · omega
        · exact h he
      · rename_i he
        refine Or.inr ⟨_, rfl, List.take_append_drop _ _, ?_, by simp, fun ha =>
          ⟨fun h => ha.1 (List.mem_cons_of_mem _ h), ?_⟩⟩
        · rw [List.length_take]
          omega
        · have h2 := ha.2
          rw [List.countP_cons] at h2
          simp only [if_true] at h2
          have hpos : min (k + 1) n ≠ 0 := fun h => he (by rw [h]; rfl)
          simp only [List.length_drop]
          omega

private theorem header_eq (cap : Nat) (status len : Int) (tail : Bytes) :
    ∀ fuel ctx s, s.script.length + 1 < fuel → Ahead status len tail ctx s.incoming →
    (∃ s', waitHeader cap fuel ctx s = some (none, s') ∧
      (status < 400 → cap ≠ 0 → ¬ Arrives s.script s.incoming.length)) ∨
    ∃ c d s', waitHeader cap fuel ctx s = some (some (c, d), s') ∧ status < 400 ∧ c.status = status ∧
      c.contentLength = len ∧ d ++ s'.incoming = tail ∧ s'.script.length < s.script.length ∧
      (Arrives s.script s.incoming.length → Arrives s'.script s'.incoming.length) := by
  intro fuel
  induction fuel with
  | zero => intro ctx s h; omega
  | succ fuel ih =>
    intro ctx s hf ha
    have hne : s.incoming ≠ [] := by
      intro h
      obtain ⟨_, c, hc, _⟩ := ha
      rw [h] at hc
      simp [parse, steps] at hc
    rcases recv_cases s cap with ⟨h1, h0⟩ | ⟨d, h1, h2, h3, h4, h5⟩
    · left
      exact ⟨_, by rw [waitHeader, h1], fun _ hc => h0 hne hc⟩
    · rw [← h2] at ha
      rcases ahead_split ha with ⟨c, e1, e2⟩ | ⟨c, e1, e2, e3, e4, e5⟩
      · rcases ih c (recv s cap).2 (by omega) e2 with
          ⟨s', g, g0⟩ | ⟨c', d', s', g, g0, g1, g2, g3, g4, g5⟩
        · left
          exact ⟨s', by rw [waitHeader, h1]; simp only [e1]; exact g, fun a b h => g0 a b (h5 h)⟩
        · right
          exact ⟨c', d', s', by rw [waitHeader, h1]; simp only [e1]; exact g, g0, g1, g2, g3, by omega,
            fun h => g5 (h5 h)⟩
      · by_cases hst : status < 400
        · right
          refine ⟨c, d.drop c.processed, (recv s cap).2, ?_, hst, e3, e4, e5, h4, h5⟩
          rw [waitHeader, h1]
          simp only [e1]
          rw [if_neg (by simp [e2]), if_neg (by rw [e3]; omega)]
        · left
          refine ⟨(recv s cap).2, ?_, fun h => absurd h hst⟩
          rw [waitHeader, h1]
          simp only [e1]
          rw [if_neg (by simp [e2]), if_pos (by rw [e3]; omega)]

private theorem ahead_init {r : Response} (hr : r.HeadOk) (hb : announced r.headers ≠ 0) {body : Bytes}
    (hne : body ≠ []) :
    Ahead (decimal r.code) (announced r.headers) body Ctx.init (r.head ++ crlf ++ body) := by
  obtain ⟨c, rest, rfl⟩ := List.exists_cons_of_ne_nil hne
  obtain ⟨ctx, h1, h2, h3, h4⟩ := C60_header_only hr hb c rest [r.head ++ crlf ++ c :: rest] (by simp)
  refine ⟨init_wf, ctx, ?_, h2, h3, h4, ?_⟩
  · unfold feedAll at h1
    cases hp : parse true Ctx.init (r.head ++ crlf ++ c :: rest) with
    | none => rw [hp] at h1; exact absurd h1 (by simp)
    | some x =>
      obtain ⟨y, b⟩ := x
      rw [hp] at h1
      cases b with
      | true =>
        simp only [Option.some.injEq, Prod.mk.injEq, true_and] at h1
        rw [h1.1]
      | false => simp [feedAll] at h1
  · unfold feedAll at h1
    cases hp : parse true Ctx.init (r.head ++ crlf ++ c :: rest) with
    | none => rw [hp] at h1; exact absurd h1 (by simp)
    | some x =>
      obtain ⟨y, b⟩ := x
      rw [hp] at h1
      cases b with
      | true =>
        simp only [Option.some.injEq, Prod.mk.injEq, true_and] at h1
        rw [← h1.1, h1.2, List.drop_left]
      | false => simp [feedAll] at h1

/-! ## The payload -/

private theorem toSize_nat {n : Nat} (h : n < 2 ^ 32) : toSize (n : Int) = n := by
  unfold toSize
  omega

private theorem payload_loop (accept : List Call → Bool) (cap : Nat) (body : Bytes)
    (hl : body.length < 2 ^ 31) : ∀ fuel (pieces : List Bytes) (s : Sock), s.script.length + 1 < fuel →
    pieces.flatten ++ s.incoming = body →
    ∃ ok calls, payloadLoop accept cap body.length fuel
        (.available body.length :: pieces.map .data) pieces.flatten.length s = some (ok, calls) ∧
      Seen accept body calls ok ∧
      ((∀ l, accept l = true) → cap ≠ 0 → Arrives s.script s.incoming.length → ok = true) := by
  intro fuel
  induction fuel with
  | zero => intro pieces s h; omega
  | succ fuel ih =>
    intro pieces s hf hp
    have hlen : pieces.flatten.length + s.incoming.length = body.length := by
      rw [← hp, List.length_append]
    rw [payloadLoop, toSize_nat (by omega)]
    have hpre : pieces.flatten <+: body := ⟨_, hp⟩
    by_cases hd : pieces.flatten.length = body.length
    · rw [if_neg (by simp [hd])]
      refine ⟨_, _, rfl, .all pieces ?_, fun h _ _ => h _⟩
      have : s.incoming = [] := List.length_eq_zero_iff.1 (by omega)
      rw [this, List.append_nil] at hp
      exact hp
    · rw [if_pos hd]
      have hts : toSize ((body.length : Int) - (pieces.flatten.length : Int))
          = body.length - pieces.flatten.length := by
        unfold toSize
        omega
      rw [hts]
      rcases recv_cases s (min (body.length - pieces.flatten.length) cap) with
        ⟨h1, h0⟩ | ⟨d, h1, h2, h3, h4, h5⟩
      · rw [h1]
        refine ⟨_, _, rfl, .part pieces hpre, fun _ hc ha => absurd ha (h0 ?_ (by omega))⟩
        intro h
        rw [h] at hlen
        simp only [List.length_nil] at hlen
        omega
      · rw [h1]
        simp only
        have hp' : (pieces ++ [d]).flatten ++ (recv s (min (body.length - pieces.flatten.length) cap)).2.incoming
            = body := by
          rw [List.flatten_append, List.append_assoc]
          simp only [List.flatten_cons, List.flatten_nil, List.append_nil]
          rw [h2, hp]
        have hcalls : (Call.available body.length :: pieces.map Call.data) ++ [Call.data d]
            = .available body.length :: (pieces ++ [d]).map .data := by simp
        rw [hcalls]
        split
        · have hlen' : (pieces.flatten.length + d.length) % 2 ^ 32 = (pieces ++ [d]).flatten.length := by
            rw [List.flatten_append, List.length_append]
            simp only [List.flatten_cons, List.flatten_nil, List.append_nil]
            have : d.length ≤ s.incoming.length := by rw [← h2, List.length_append]; omega
            omega
          rw [hlen']
          obtain ⟨ok, calls, i1, i2, i3⟩ := ih _ _ (by omega) hp'
          exact ⟨ok, calls, i1, i2, fun a b c => i3 a b (h5 c)⟩
        · rename_i hacc
          exact ⟨_, _, rfl, .part _ ⟨_, hp'⟩, fun h => absurd (h _) hacc⟩

private theorem payload (accept : List Call → Bool) (cap : Nat) {r : Response} (hr : r.Ok)
    (hb : r.body ≠ []) (hl : r.body.length < 2 ^ 31) (script : List Recv) :
    ∃ ok calls, installPayload accept cap ⟨r.bytes, script⟩ = some (ok, calls) ∧
      Seen accept r.body calls ok ∧ (400 ≤ decimal r.code → calls = []) ∧
      (decimal r.code < 400 → (∀ l, accept l = true) → cap ≠ 0 → Arrives script r.bytes.length →
        ok = true) := by
  have hann : announced r.headers = r.body.length := hr.body.symm
  have hpos : r.body.length ≠ 0 := fun h => hb (List.length_eq_zero_iff.1 h)
  have ha := ahead_init hr.toHeadOk (by omega) hb
  unfold installPayload
  rcases header_eq cap _ _ _ (script.length + 2) Ctx.init ⟨r.bytes, script⟩ (by simp) ha
    with ⟨s', g, g0⟩ | ⟨c, d, s', g, gs, g1, g2, g3, g4, g5⟩
  · simp only
    rw [g]
    exact ⟨_, _, rfl, .nothing, fun _ => rfl, fun h _ hc h' => absurd h' (g0 (by omega) hc)⟩
  · simp only at g4 g5 ⊢
    rw [g]
    simp only
    have hcode : ¬ 400 ≤ decimal r.code := by omega
    rw [g2, hann, toSize_nat (by omega)]
    split
    · rename_i hacc
      refine ⟨_, _, rfl, .part [] (List.nil_prefix), fun h => absurd h hcode, fun _ h => ?_⟩
      simp [h] at hacc
    · split
      · split
        · rename_i hacc
          refine ⟨_, _, rfl, .part [d] ⟨s'.incoming, by simpa using g3⟩, fun h => absurd h hcode,
            fun _ h => ?_⟩
          simp [h] at hacc
        · obtain ⟨ok, calls, i1, i2, i3⟩ := payload_loop accept cap r.body hl (script.length + 2) [d] s'
            (by omega) (by simpa using g3)
          exact ⟨ok, calls, by simpa using i1, i2, fun h => absurd h hcode,
            fun _ a b c => i3 a b (g5 c)⟩
      · rename_i hd
        have hd' : d = [] := List.length_eq_zero_iff.1 (by simpa using hd)
        subst hd'
        obtain ⟨ok, calls, i1, i2, i3⟩ := payload_loop accept cap r.body hl (script.length + 2) [] s'
            (by omega) (by simpa using g3)
        exact ⟨ok, calls, by simpa using i1, i2, fun h => absurd h hcode, fun _ a b c => i3 a b (g5 c)⟩

/-- C82: for every response with a body of the announced length (up to 2 GiB), however it arrives in
pieces and whatever the handler answers: the download does not leave its buffers, the handler sees the
size of the body and bytes from the start of the body in order, and it is told of the completion only
when it has got all of them; the result is then its answer, and failure otherwise. The handler is not
called for a response with an error status. Missing: other responses (`C82_false_payload_length`,
`C82_false_payload_empty`). -/
theorem C82_payload_partial (accept : List Call → Bool) (cap : Nat) {r : Response} (hr : r.Ok)
    (hb : r.body ≠ []) (hl : r.body.length < 2 ^ 31) (script : List Recv) :
    ∃ ok calls, installPayload accept cap ⟨r.bytes, script⟩ = some (ok, calls) ∧
      Seen accept r.body calls ok ∧ (400 ≤ decimal r.code → calls = []) := by
  obtain ⟨ok, calls, h1, h2, h3, _⟩ := payload accept cap hr hb hl script
  exact ⟨ok, calls, h1, h2, h3⟩

/-- C82: and with a handler that accepts everything, a buffer that is not empty and a connection that
does not fail before all bytes have arrived, it succeeds. -/
theorem C82_payload_completes (cap : Nat) (hc : cap ≠ 0) {r : Response} (hr : r.Ok) (hb : r.body ≠ [])
    (hl : r.body.length < 2 ^ 31) (hst : decimal r.code < 400) (script : List Recv)
    (ha : Arrives script r.bytes.length) :
    ∃ pieces : List Bytes, pieces.flatten = r.body ∧
      installPayload (fun _ => true) cap ⟨r.bytes, script⟩
        = some (true, .available r.body.length :: pieces.map .data ++ [.complete]) := by
  obtain ⟨ok, calls, h1, h2, _, h4⟩ := payload (fun _ => true) cap hr hb hl script
  have := h4 hst (fun _ => rfl) hc ha
  subst this
  generalize ht : true = t at h1 h2
  cases h2 with
  | nothing => exact absurd ht (by simp)
  | part pieces h => exact absurd ht (by simp)
  | all pieces h => exact ⟨pieces, h, by rw [h1]⟩

/-! ## The URL -/

private theorem memcpyIn_front {pre d tail : Bytes} (h : d.length ≤ tail.length) :
    memcpyIn (pre ++ tail) pre.length d = some ((pre ++ d) ++ tail.drop d.length) := by
  unfold memcpyIn
  rw [if_pos (by rw [List.length_append]; omega), List.take_left, List.drop_append]
  simp

private theorem url_loop (body : Bytes) (hl : body.length < 2 ^ 31) : ∀ fuel (pre : Bytes) (s : Sock),
    s.script.length + 1 < fuel → pre ++ s.incoming = body →
    urlLoop body.length fuel (pre ++ List.replicate (body.length + 1 - pre.length) 0) pre.length s
        = some (some (body ++ [0])) ∨
      (urlLoop body.length fuel (pre ++ List.replicate (body.length + 1 - pre.length) 0) pre.length s
        = some none ∧ ¬ Arrives s.script s.incoming.length) := by
  intro fuel
  induction fuel with
  | zero => intro pre s h; omega
  | succ fuel ih =>
    intro pre s hf hp
    have hlen : pre.length + s.incoming.length = body.length := by rw [← hp, List.length_append]
    rw [urlLoop, toSize_nat (by omega)]
    by_cases hd : pre.length = body.length
    · rw [if_neg (by simp [hd])]
      left
      have : s.incoming = [] := List.length_eq_zero_iff.1 (by omega)
      rw [this, List.append_nil] at hp
      rw [hp, show body.length + 1 - body.length = 1 by omega]
      rfl
    · rw [if_pos hd]
      have hts : toSize ((body.length : Int) - (pre.length : Int)) = body.length - pre.length := by
        unfold toSize
        omega
      rw [hts]
      rcases recv_cases s (body.length - pre.length) with ⟨h1, h0⟩ | ⟨d, h1, h2, h3, h4, h5⟩
      · right
        rw [h1]
        refine ⟨rfl, h0 ?_ (by omega)⟩
        intro h
        rw [h] at hlen
        simp only [List.length_nil] at hlen
        omega
      · rw [h1]
        simp only
        rw [memcpyIn_front (by rw [List.length_replicate]; omega)]
        simp only [List.drop_replicate]
        have hx : (pre.length + d.length) % 2 ^ 32 = (pre ++ d).length := by
          rw [List.length_append]
          omega
        rw [hx, show body.length + 1 - pre.length - d.length = body.length + 1 - (pre ++ d).length by
          rw [List.length_append]; omega]
        rcases ih (pre ++ d) (recv s (body.length - pre.length)).2 (by omega) (by rw [List.append_assoc, h2, hp]) with i | ⟨i, i'⟩
        · exact Or.inl i
        · exact Or.inr ⟨i, fun h => i' (h5 h)⟩

/-- C82: for every response with a body of the announced length (up to 2 GiB), however it arrives:
asking for an update does not write outside of the allocated URL. With status 200 the URL is exactly
the body with a terminator, or the request fails; with another status under 400 there is no update; an
error status is a failure. When the connection does not fail and there is memory, it succeeds. Missing:
other responses (`C82_false_url_length`, `C82_false_url_empty`). -/
theorem C82_url_partial (alloc : Nat → Bool) {r : Response} (hr : r.Ok) (hb : r.body ≠ [])
    (hl : r.body.length < 2 ^ 31) (script : List Recv) :
    (downloadUrl alloc ⟨r.bytes, script⟩ = some (false, none) ∧
      (decimal r.code < 400 → alloc (r.body.length + 1) = true → ¬ Arrives script r.bytes.length)) ∨
    (downloadUrl alloc ⟨r.bytes, script⟩ = some (true, none) ∧ decimal r.code < 400 ∧
      decimal r.code ≠ 200) ∨
    (downloadUrl alloc ⟨r.bytes, script⟩ = some (true, some (r.body ++ [0])) ∧ decimal r.code = 200) := by
  have hann : announced r.headers = r.body.length := hr.body.symm
  have hpos : r.body.length ≠ 0 := fun h => hb (List.length_eq_zero_iff.1 h)
  have ha := ahead_init hr.toHeadOk (by omega) hb
  unfold downloadUrl
  rcases header_eq 32 _ _ _ (script.length + 2) Ctx.init ⟨r.bytes, script⟩ (by simp) ha
    with ⟨s', g, g0⟩ | ⟨c, d, s', g, gs, g1, g2, g3, g4, g5⟩
  · simp only
    rw [g]
    exact Or.inl ⟨rfl, fun h _ => g0 (by omega) (by decide)⟩
  · simp only at g4 g5 ⊢
    rw [g]
    simp only
    rw [g1, g2, hann]
    by_cases h200 : decimal r.code = 200
    · rw [if_neg (by rw [h200]; simp)]
      have hts : toSize ((r.body.length : Int) + 1) = r.body.length + 1 := by
        unfold toSize
        omega
      rw [hts]
      by_cases hal : alloc (r.body.length + 1) = true
      · rw [if_neg (by simp [hal])]
        have hdl : d.length ≤ r.body.length := by rw [← g3, List.length_append]; omega
        have hbuf : (if d.length ≠ 0 then memcpyIn (List.replicate (r.body.length + 1) 0) 0 d
            else some (List.replicate (r.body.length + 1) 0))
            = some (d ++ List.replicate (r.body.length + 1 - d.length) 0) := by
          split
          · have := memcpyIn_front (pre := []) (d := d) (tail := List.replicate (r.body.length + 1) 0)
              (by rw [List.length_replicate]; omega)
            simpa using this
          · rename_i h
            have : d = [] := List.length_eq_zero_iff.1 (by simpa using h)
            subst this
            rfl
        rw [hbuf]
        simp only
        rcases url_loop r.body hl (script.length + 2) d s' (by omega) g3 with i | ⟨i, i'⟩
        · rw [i]
          exact Or.inr (Or.inr ⟨rfl, h200⟩)
        · rw [i]
          exact Or.inl ⟨rfl, fun _ _ h => i' (g5 h)⟩
      · rw [if_pos (by simp [hal])]
        exact Or.inl ⟨rfl, fun _ h => absurd h hal⟩
    · rw [if_pos (by intro h; exact h200 (by exact_mod_cast h))]
      exact Or.inr (Or.inl ⟨rfl, by omega, h200⟩)

/-! ## An example, and what goes wrong -/

/-- "HTTP/1.1 200 OK", a header and what follows. -/
private def exOta (header body : String) : Bytes :=
  (("HTTP/1.1 200 OK\r\n" ++ header ++ "\r\n" ++ body).toList).map fun c => UInt8.ofNat c.toNat

/-- The well-formed response of C44 with any script. -/
example (script : List Recv) : ∃ ok calls,
    installPayload (fun _ => true) 16 ⟨exResponse.bytes, script⟩ = some (ok, calls) ∧
      Seen (fun _ => true) exResponse.body calls ok ∧ (400 ≤ decimal exResponse.code → calls = []) :=
  C82_payload_partial _ _ exResponse_ok (by decide) (by decide) script

example : downloadUrl (fun _ => true) ⟨exOta "Content-Length:9\r\n" "http://ab", List.replicate 9 (.data 9)⟩
    = some (true, some ([104, 116, 116, 112, 58, 47, 47, 97, 98] ++ [0])) := by decide +kernel

/-- When more bytes follow the header than it announces, asking for an update writes behind the
allocation: here 7 bytes into an allocation of 2. -/
theorem C82_false_url_length :
    downloadUrl (fun _ => true)
      ⟨exOta "Content-Length:1\r\n" "ABCDEFG", List.replicate 9 (.data 31)⟩ = none := by decide +kernel

/-- When no length is announced (as with chunked transfer encoding), the allocation has one byte and
everything that follows is written behind it. -/
theorem C82_false_url_empty :
    downloadUrl (fun _ => true) ⟨exOta "" "A", List.replicate 9 (.data 31)⟩ = none ∧
    downloadUrl (fun _ => true) ⟨exOta "" "A", [.data 18, .data 0]⟩ = none := by decide +kernel

/-- When more bytes follow the header than it announces, the handler gets more bytes than the size it
was told, and the download goes on until the connection fails. -/
theorem C82_false_payload_length :
    installPayload (fun _ => true) 64
      ⟨exOta "Content-Length:1\r\n" "ABCD", [.data 63, .again, .fail]⟩
      = some (false, [.available 1, .data [65, 66, 67, 68], .data []]) := by decide +kernel

/-- A response without a body: the handler gets the line feed of the header as a byte of the update, and
an empty update never completes. -/
theorem C82_false_payload_empty :
    installPayload (fun _ => true) 64 ⟨exOta "Content-Length:0\r\n" "", [.data 63, .fail]⟩
      = some (false, [.available 0, .data [10]]) := by decide +kernel

end Mflt.Props
