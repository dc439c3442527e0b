import Verif.Spec.ZephyrUpload
import Verif.Props.HttpRequest
import Verif.Props.ZephyrOta
import Verif.Model.Packetizer

/-! # C84: uploads of the Zephyr port -/

namespace Mflt.Props

open ZephyrUpload
open HttpRequest (startChunkPost formatInt sendAll formatInt_nat)
open Spec.ZephyrUpload (Reads Chunks Pieces Honest TakesMessage Goes NotCut)
open Spec.ZephyrOta (Arrives)
open Spec.HttpRequest (Word text)
open Spec.Http (NoBreak Response decimal)
open ZephyrOta (Sock)

/-! ## Sending bytes -/

/-- Every `send` that blocks takes all bytes. -/
private def Whole (c : Conn) : Prop := ∀ b ∈ c.blocking, b = none

private theorem sendAll_whole : ∀ (ps : List Bytes) (c : Conn), Whole c →
    ∃ c', sendAll sendData ps c = (true, c') ∧ c'.wire = c.wire ++ ps.flatten ∧ c'.sends = c.sends ∧
      c'.answers = c.answers ∧ Whole c' := by
  intro ps
  induction ps with
  | nil => intro c h; exact ⟨c, rfl, by simp, rfl, rfl, h⟩
  | cons d ps ih =>
    intro c h
    have key : ∃ c1, sendData c d = (true, c1) ∧ c1.wire = c.wire ++ d ∧ c1.sends = c.sends ∧
        c1.answers = c.answers ∧ Whole c1 := by
      unfold sendData
      cases hb : c.blocking with
      | nil => exact ⟨_, rfl, rfl, rfl, rfl, by unfold Whole; simp [hb]⟩
      | cons b t =>
        have : b = none := h b (by rw [hb]; exact List.mem_cons_self ..)
        subst this
        refine ⟨_, rfl, rfl, rfl, rfl, fun b' hb' => h b' ?_⟩
        rw [hb]
        exact List.mem_cons_of_mem _ hb'
    obtain ⟨c1, k1, k2, k3, k4, k5⟩ := key
    obtain ⟨c2, i1, i2, i3, i4, i5⟩ := ih c1 k5
    refine ⟨c2, ?_, ?_, i3.trans k3, i4.trans k4, i5⟩
    · rw [sendAll, k1]
      exact i1
    · rw [i2, k2, List.flatten_cons, List.append_assoc]

private theorem try_send : ∀ fuel (buf : Bytes) (c : Conn), c.sends.length + 1 < fuel →
    ∃ ok k c', trySend fuel buf c = some (ok, c') ∧ c'.wire = c.wire ++ buf.take k ∧
      (ok = true ↔ buf.length ≤ k) ∧ c'.blocking = c.blocking ∧ c'.answers = c.answers ∧
      (Goes c.sends buf.length → ok = true) := by
  intro fuel
  induction fuel with
  | zero => intro buf c h; omega
  | succ fuel ih =>
    intro buf c h
    rw [trySend]
    by_cases hb : buf = []
    · subst hb
      exact ⟨true, 0, c, by simp, by simp, by simp, rfl, rfl, fun _ => rfl⟩
    · have hpos : 0 < buf.length := List.length_pos_iff.2 hb
      rw [if_neg hb]
      cases hs : c.sends with
      | nil =>
        refine ⟨false, 0, c, rfl, by simp, ?_, rfl, rfl, fun g => ?_⟩
        · simp [hb]
        · have := g.2
          simp at this
          exact absurd this hb
      | cons r t =>
        rw [hs] at h
        simp only [List.length_cons] at h
        cases r with
        | fail =>
          refine ⟨false, 0, _, rfl, by simp, by simp [hb], rfl, rfl, fun g => ?_⟩
          exact absurd (List.mem_cons_self ..) g.1
        | again =>
          obtain ⟨ok, k, c', i1, i2, i3, i4, i5, i6⟩ := ih buf { c with sends := t } (by simp only; omega)
          refine ⟨ok, k, c', i1, i2, i3, i4, i5, fun g => i6 ⟨fun h => g.1 (List.mem_cons_of_mem _ h), ?_⟩⟩
          have := g.2
          rw [List.countP_cons] at this
          simpa using this
        | sent n =>
          obtain ⟨ok, k, c', i1, i2, i3, i4, i5, i6⟩ := ih (buf.drop (n + 1))
            { c with sends := t, wire := c.wire ++ buf.take (n + 1) } (by simp only; omega)
          refine ⟨ok, n + 1 + k, c', i1, ?_, ?_, i4, i5,
            fun g => i6 ⟨fun h => g.1 (List.mem_cons_of_mem _ h), ?_⟩⟩
          · rw [i2, List.append_assoc, ← List.take_add]
          · rw [i3, List.length_drop]
            omega
          · have := g.2
            rw [List.countP_cons] at this
            simp only [if_true] at this
            rw [List.length_drop]
            simp only
            omega

/-- **C84 (sending).** Whatever each `send` takes: the bytes go out in order and once, the result says
whether all of them did, and they do if no `send` fails. -/
theorem C84_send (buf : Bytes) (c : Conn) :
    ∃ ok k c', trySend (c.sends.length + 2) buf c = some (ok, c') ∧ c'.wire = c.wire ++ buf.take k ∧
      (ok = true ↔ buf.length ≤ k) ∧ (Goes c.sends buf.length → ok = true) := by
  obtain ⟨ok, k, c', h1, h2, h3, _, _, h6⟩ := try_send (c.sends.length + 2) buf c (by omega)
  exact ⟨ok, k, c', h1, h2, h3, h6⟩

example : (trySend 6 [1, 2, 3, 4, 5] { sends := [.sent 0, .again, .sent 9, .fail] }).map
    (fun r => (r.1, r.2.wire)) = some (true, [1, 2, 3, 4, 5]) := by decide

/-! ## Waiting for the answer -/

private theorem wait_feed : ∀ fuel (ctx : Http.Ctx) (s : Sock), Http.Wf ctx → s.script.length + 1 < fuel →
    ∃ ok s' pieces c n, waitResponse fuel ctx s = some (ok, s') ∧ pieces.flatten <+: s.incoming ∧
      feedAll false ctx pieces = some (c, ok, n) ∧
      (ok = false → Arrives s.script s.incoming.length → pieces.flatten = s.incoming) := by
  intro fuel
  induction fuel with
  | zero => intro ctx s _ h; omega
  | succ fuel ih =>
    intro ctx s hw hf
    rw [waitResponse]
    rcases recv_cases s 32 with ⟨h1, h0⟩ | ⟨d, h1, h2, h3, h4, h5⟩
    · rw [h1]
      refine ⟨false, _, [], ctx, 0, rfl, by simp, rfl, fun _ ha => ?_⟩
      cases hi : s.incoming with
      | nil => rfl
      | cons x xs => exact absurd ha (h0 (by rw [hi]; simp) (by decide))
    · rw [h1]
      simp only
      obtain ⟨c, dn, p1, p2⟩ : ∃ c dn, Http.parse false ctx d = some (c, dn) ∧ Http.Wf c := by
        unfold Http.parse
        exact Http.steps_wf false d _ (hw.processed 0)
      rw [p1]
      cases dn with
      | true =>
        refine ⟨true, _, [d], c, c.processed, rfl, ?_, ?_, by simp⟩
        · rw [← h2]; simp
        · rw [feedAll, p1]
      | false =>
        obtain ⟨ok, s', pieces, c', n, i1, i2, i3, i4⟩ := ih c (ZephyrOta.recv s 32).2 p2 (by omega)
        refine ⟨ok, s', d :: pieces, c', c.processed + n, i1, ?_, ?_, fun a b => ?_⟩
        · rw [← h2, List.flatten_cons]
          exact List.prefix_append_right_inj _ |>.2 i2
        · rw [feedAll, p1]
          simp only [i3, Option.map_some]
        · rw [List.flatten_cons, i4 a (h5 b), h2]

/-- **C84 (answer).** Waiting for the answer ends well when a whole response has arrived, however it
arrives, and not before that. -/
theorem C84_answer {r : Response} (hr : r.Ok) (script : List ZephyrOta.Recv) :
    (∀ extra, Arrives script (r.bytes ++ extra).length →
      ∃ s', waitResponse (script.length + 2) Http.Ctx.init ⟨r.bytes ++ extra, script⟩ = some (true, s')) ∧
    (∀ k, k < r.bytes.length →
      ∃ s', waitResponse (script.length + 2) Http.Ctx.init ⟨r.bytes.take k, script⟩ = some (false, s')) := by
  constructor
  · intro extra ha
    obtain ⟨ok, s', pieces, c, n, w1, w2, w3, w4⟩ :=
      wait_feed (script.length + 2) Http.Ctx.init ⟨r.bytes ++ extra, script⟩ Http.init_wf (by simp)
    cases ok with
    | true => exact ⟨s', w1⟩
    | false =>
      obtain ⟨c', n', h1, _⟩ := C44_response hr extra pieces (w4 rfl ha)
      rw [h1] at w3
      simp at w3
  · intro k hk
    obtain ⟨ok, s', pieces, c, n, w1, w2, w3, w4⟩ :=
      wait_feed (script.length + 2) Http.Ctx.init ⟨r.bytes.take k, script⟩ Http.init_wf (by simp)
    cases ok with
    | false => exact ⟨s', w1⟩
    | true =>
      obtain ⟨rest, hrest⟩ := w2
      simp only at hrest
      have hl : pieces.flatten.length ≤ k := by
        have := congrArg List.length hrest
        rw [List.length_append, List.length_take] at this
        omega
      have hp : pieces.flatten = r.bytes.take pieces.flatten.length := by
        have h1 : (r.bytes.take k).take pieces.flatten.length = pieces.flatten := by
          rw [← hrest, List.take_left]
        rw [List.take_take, Nat.min_eq_left hl] at h1
        exact h1.symm
      obtain ⟨c', n', h1⟩ := C44_needs_all hr _ (by omega) pieces hp
      rw [h1] at w3
      simp at w3

/-! ## Uploading -/

/-- What is asked of the configuration: a serial number that fits the request line (C70), a host and
a key without line breaks. -/
structure UploadEnv (e : Env) : Prop where
  junk : e.junk.length = 100
  serial : Word e.info.serial
  fits : e.info.serial.length < 69
  host : NoBreak (chunksHostOf e.cfg)
  key : NoBreak e.cfg.apiKey

/-- `w` is a post of `d`. -/
private def Post (e : Env) (w d : Bytes) : Prop := ∀ rest ds, Reads e rest ds → Reads e (w ++ rest) (d :: ds)

private theorem post_header {e : Env} (he : UploadEnv e) {n : Nat} (hn : n < 2 ^ 31) (c : Conn)
    (hw : Whole c) : ∃ c' request, startChunkPost e.cfg e.info e.junk sendData n c = some (true, c') ∧
      c'.wire = c.wire ++ request ∧ c'.sends = c.sends ∧ c'.answers = c.answers ∧ Whole c' ∧
      ∀ d : Bytes, d.length = n → Post e (request ++ d) d := by
  obtain ⟨d1, d2, d3, d4⟩ := formatInt_nat (n := n) (by omega)
  obtain ⟨c', s1, s2, s3, s4, s5⟩ := sendAll_whole (postPieces e.cfg e.info (formatInt (Http.wrap n))) c hw
  refine ⟨c', _, ?_, s2, s3, s4, s5, ?_⟩
  · rw [startChunkPost_eq _ _ he.junk he.fits rfl (by omega), s1]
  · intro d hd rest ds hr
    refine Reads.post _ d rest _ ds (formatInt (Http.wrap n))
      (fun body => parse_post he.serial he.host he.key (noBreak_of_digits d2) body) rfl rfl ?_ ?_ d2
      (by rw [d1, hd]) hr
    · simp [postFields]
    · simp [postFields]

/-- What the two ways to send the next message have in common. -/
private def Sends {π : Type} (e : Env) (src : Source π) (take : π → Bytes → π → Prop)
    (empty : π → π → Prop) (sendNext : π → Conn → Option (SendOut π)) : Prop :=
  ∀ p c, Whole c → ∃ o, sendNext p c = some o ∧ Whole o.conn ∧
    ((o.rv = 0 ∧ o.bytes = 0 ∧ empty p o.source ∧ o.conn = c) ∨
     (o.rv = 1 ∧ ∃ d w, take p d o.source ∧ Post e w d ∧ o.conn.wire = c.wire ++ w ∧
        o.bytes = d.length ∧ o.conn.answers = c.answers) ∨
     (o.rv = -1 ∧ ∃ d q w v, take p d q ∧ Post e w d ∧ v <+: w ∧ o.conn.wire = c.wire ++ v ∧
        ∃ q', o.source = src.abort q'))

private theorem chunk_sends {π : Type} {e : Env} (he : UploadEnv e) (src : Source π)
    (hs : ∀ p d q, src.chunk p = (some d, q) → d.length < 2 ^ 31) :
    Sends e src (fun p d q => src.chunk p = (some d, q)) (fun p q => src.chunk p = (none, q))
      (sendNextChunk e src) := by
  intro p c hw
  unfold sendNextChunk
  cases hc : src.chunk p with
  | mk od q =>
    cases od with
    | none => exact ⟨_, rfl, hw, Or.inl ⟨rfl, rfl, hc, rfl⟩⟩
    | some d =>
      obtain ⟨c1, request, s1, s2, s3, s4, s5, s6⟩ := post_header he (hs p d q hc) c hw
      simp only
      rw [s1]
      simp only
      obtain ⟨ok, k, c2, t1, t2, t3, t4, t5, _⟩ := try_send (c1.sends.length + 2) d c1 (by omega)
      rw [t1]
      have hw2 : Whole c2 := by unfold Whole; rw [t4]; exact s5
      cases ok with
      | true =>
        refine ⟨_, rfl, hw2, Or.inr (Or.inl ⟨rfl, d, request ++ d, hc, s6 d rfl, ?_, rfl, t5.trans s4⟩)⟩
        rw [t2, s2, List.take_of_length_le (t3.1 rfl), List.append_assoc]
      | false =>
        refine ⟨_, rfl, hw2, Or.inr (Or.inr ⟨rfl, d, q, request ++ d, request ++ d.take k, hc, s6 d rfl,
          ?_, ?_, q, rfl⟩)⟩
        · exact List.prefix_append_right_inj _ |>.2 (List.take_prefix _ _)
        · rw [t2, s2, List.append_assoc]

private theorem pieces_send {π : Type} (src : Source π) : ∀ fuel (p : π) (pieces : List Bytes) (q : π),
    Pieces src.next p pieces q → pieces.length < fuel → ∀ (b : Nat) (c : Conn),
    ∃ o, sendPieces src fuel b p c = some o ∧ o.conn.blocking = c.blocking ∧
      o.conn.answers = c.answers ∧
      ((o.rv = 1 ∧ o.source = q ∧ o.bytes = b + pieces.flatten.length ∧
          o.conn.wire = c.wire ++ pieces.flatten) ∨
       (o.rv = -1 ∧ (∃ q', o.source = src.abort q') ∧
          ∃ v, v <+: pieces.flatten ∧ o.conn.wire = c.wire ++ v)) := by
  intro fuel
  induction fuel with
  | zero => intro p pieces q _ h; omega
  | succ fuel ih =>
    intro p pieces q hp hf b c
    rw [sendPieces]
    have hsend : ∀ d : Bytes, ∃ ok k c', trySend (c.sends.length + 2) d c = some (ok, c') ∧
        c'.wire = c.wire ++ d.take k ∧ (ok = true ↔ d.length ≤ k) ∧ c'.blocking = c.blocking ∧
        c'.answers = c.answers := fun d => by
      obtain ⟨ok, k, c', t1, t2, t3, t4, t5, _⟩ := try_send (c.sends.length + 2) d c (by omega)
      exact ⟨ok, k, c', t1, t2, t3, t4, t5⟩
    cases hp with
    | done h =>
      rw [h]
      exact ⟨_, rfl, rfl, rfl, Or.inl ⟨rfl, rfl, by simp, by simp⟩⟩
    | @last _ _ d h =>
      rw [h]
      obtain ⟨ok, k, c', t1, t2, t3, t4, t5⟩ := hsend d
      simp only
      rw [t1]
      cases ok with
      | true =>
        refine ⟨_, rfl, t4, t5, Or.inl ⟨rfl, rfl, by simp, ?_⟩⟩
        simp only
        rw [t2, List.take_of_length_le (t3.1 rfl)]
        simp
      | false =>
        refine ⟨_, rfl, t4, t5, Or.inr ⟨rfl, ⟨_, rfl⟩, d.take k, ?_, t2⟩⟩
        simpa using List.take_prefix k d
    | @more _ q' _ d ds h t =>
      rw [h]
      simp only [List.length_cons] at hf
      obtain ⟨ok, k, c', t1, t2, t3, t4, t5⟩ := hsend d
      simp only
      rw [t1]
      cases ok with
      | true =>
        simp only [Bool.false_eq_true, if_false]
        obtain ⟨o, i1, i2, i3, i4⟩ := ih q' ds q t (by omega) (b + d.length) c'
        have hw : c'.wire = c.wire ++ d := by rw [t2, List.take_of_length_le (t3.1 rfl)]
        refine ⟨o, i1, i2.trans t4, i3.trans t5, ?_⟩
        rcases i4 with ⟨j1, j2, j3, j4⟩ | ⟨j1, j2, v, j3, j4⟩
        · refine Or.inl ⟨j1, j2, ?_, ?_⟩
          · rw [j3, List.flatten_cons, List.length_append]
            omega
          · rw [j4, hw, List.flatten_cons, List.append_assoc]
        · refine Or.inr ⟨j1, j2, d ++ v, ?_, ?_⟩
          · rw [List.flatten_cons]
            exact List.prefix_append_right_inj _ |>.2 j3
          · rw [j4, hw, List.append_assoc]
      | false =>
        refine ⟨_, rfl, t4, t5, Or.inr ⟨rfl, ⟨_, rfl⟩, d.take k, ?_, t2⟩⟩
        rw [List.flatten_cons]
        exact (List.take_prefix k d).trans (List.prefix_append _ _)

private theorem msg_sends {π : Type} {e : Env} (he : UploadEnv e) (src : Source π) (fuel : Nat)
    (hs : Honest src fuel) :
    Sends e src (TakesMessage src) (fun p q => src.begin p = (none, q)) (sendNextMsg fuel e src) := by
  intro p c hw
  unfold sendNextMsg
  cases hc : src.begin p with
  | mk on q =>
    cases on with
    | none => exact ⟨_, rfl, hw, Or.inl ⟨rfl, rfl, hc, rfl⟩⟩
    | some n =>
      obtain ⟨hn, pieces, r, hp, hl, hf⟩ := hs p n q hc
      obtain ⟨c1, request, s1, s2, s3, s4, s5, s6⟩ := post_header he hn c hw
      simp only
      rw [s1]
      simp only
      obtain ⟨o, o1, o2, o3, o4⟩ := pieces_send src fuel q pieces r hp hf 0 c1
      rw [o1]
      have hw2 : Whole o.conn := by unfold Whole; rw [o2]; exact s5
      have htake : ∀ q', Pieces src.next q pieces q' → TakesMessage src p pieces.flatten q' :=
        fun q' h => ⟨q, pieces, by rw [hc, hl], h, rfl⟩
      refine ⟨o, rfl, hw2, ?_⟩
      rcases o4 with ⟨j1, j2, j3, j4⟩ | ⟨j1, j2, v, j3, j4⟩
      · refine Or.inr (Or.inl ⟨j1, pieces.flatten, request ++ pieces.flatten, ?_, s6 _ hl, ?_, ?_,
          o3.trans s4⟩)
        · rw [j2]; exact htake r hp
        · rw [j4, s2, List.append_assoc]
        · rw [j3]; omega
      · refine Or.inr (Or.inr ⟨j1, pieces.flatten, r, request ++ pieces.flatten, request ++ v, htake r hp,
          s6 _ hl, ?_, ?_, j2⟩)
        · exact List.prefix_append_right_inj _ |>.2 j3
        · rw [j4, s2, List.append_assoc]

private theorem reads_post {e : Env} {w d : Bytes} (h : Post e w d) {v : Bytes} {ds : List Bytes}
    (hr : Reads e v ds) : Reads e (w ++ v) (d :: ds) := h v ds hr

private theorem response_cases (c : Conn) :
    ∃ ok c', response c = some (ok, c') ∧ c'.wire = c.wire ∧ c'.blocking = c.blocking ∧
      (ok = true → ∃ s, c.answers = s :: c'.answers ∧ NotCut s) := by
  unfold response
  cases ha : c.answers with
  | nil => exact ⟨_, _, rfl, rfl, rfl, by simp⟩
  | cons s t =>
    obtain ⟨ok, s', pieces, x, n, w1, _⟩ :=
      wait_feed (s.script.length + 2) Http.Ctx.init s Http.init_wf (by omega)
    simp only
    rw [w1]
    refine ⟨_, _, rfl, rfl, rfl, fun h => ⟨s, rfl, fun r hr k hk he => ?_⟩⟩
    simp only at h
    subst h
    obtain ⟨s2, h2⟩ := (C84_answer hr s.script).2 k hk
    rw [← he] at h2
    rw [show (⟨s.incoming, s.script⟩ : Sock) = s from rfl, w1] at h2
    simp at h2

private theorem upload_sends {π : Type} {e : Env} (src : Source π) {take : π → Bytes → π → Prop}
    {empty : π → π → Prop} {sendNext : π → Conn → Option (SendOut π)}
    (hs : Sends e src take empty sendNext) : ∀ (max b : Nat) (p : π) (c : Conn), Whole c →
    ∃ ok bytes p' c' ds q w, upload sendNext max b p c = some (ok, bytes, p', c') ∧
      Chunks take p ds q ∧ Reads e w ds ∧ ds.length ≤ max ∧
      (ok = true → c'.wire = c.wire ++ w ∧ bytes = b + ds.flatten.length ∧
        ((ds.length = max ∧ p' = q) ∨ empty q p') ∧ ds.length ≤ c.answers.length ∧
        ∀ a ∈ c.answers.take ds.length, NotCut a) ∧
      (ok = false → ∃ v, v <+: w ∧ c'.wire = c.wire ++ v) := by
  intro max
  induction max with
  | zero =>
    intro b p c _
    refine ⟨true, b, p, c, [], p, [], rfl, .nil p, .nothing, Nat.le_refl _, fun _ => ⟨?_, rfl, ?_, ?_, ?_⟩, by simp⟩
    · simp
    · exact Or.inl ⟨rfl, rfl⟩
    · simp
    · simp
  | succ max ih =>
    intro b p c hw
    obtain ⟨o, o1, o2, o3⟩ := hs p c hw
    rw [upload, o1]
    simp only
    rcases o3 with ⟨r1, r2, r3, r4⟩ | ⟨r1, d, w, r2, r3, r4, r5, r6⟩ | ⟨r1, d, q, w, v, r2, r3, r4, r5, r6⟩
    · rw [if_pos r1]
      refine ⟨_, _, _, _, [], p, [], rfl, .nil p, .nothing, Nat.zero_le _, fun _ => ⟨?_, rfl, Or.inr r3, by simp, by simp⟩, by simp⟩
      rw [r4]
      simp
    · rw [if_neg (by omega), if_neg (by omega)]
      obtain ⟨ok, c1, p1, p2, p3, p4⟩ := response_cases o.conn
      rw [p1]
      cases ok with
      | false =>
        refine ⟨_, _, _, _, [d], o.source, w ++ [], rfl, .cons r2 (.nil _), reads_post r3 .nothing, by simp,
          by simp, fun _ => ⟨w, by simp, ?_⟩⟩
        rw [p2, r4]
      | true =>
        have hw1 : Whole c1 := by unfold Whole; rw [p3]; exact o2
        obtain ⟨ok, bytes, p', c', ds, q, w', i1, i2, i3, i4, i5, i6⟩ := ih (b + o.bytes) o.source c1 hw1
        refine ⟨ok, bytes, p', c', d :: ds, q, w ++ w', i1, .cons r2 i2, reads_post r3 i3,
          by simp only [List.length_cons]; omega, fun h => ?_, fun h => ?_⟩
        · obtain ⟨j1, j2, j3, j4, j5⟩ := i5 h
          obtain ⟨s, g1, g2⟩ := p4 rfl
          rw [r6] at g1
          refine ⟨by rw [j1, p2, r4, List.append_assoc], ?_, ?_, ?_, ?_⟩
          · rw [j2, List.flatten_cons, List.length_append, r5]
            omega
          · rcases j3 with ⟨j3, j4⟩ | j3
            · exact Or.inl ⟨by simp only [List.length_cons]; omega, j4⟩
            · exact Or.inr j3
          · rw [g1, List.length_cons, List.length_cons]
            omega
          · intro a ha
            rw [g1, List.length_cons, List.take_succ_cons] at ha
            rcases List.mem_cons.1 ha with rfl | ha
            · exact g2
            · exact j5 a ha
        · obtain ⟨v, j1, j2⟩ := i6 h
          exact ⟨w ++ v, List.prefix_append_right_inj _ |>.2 j1, by rw [j2, p2, r4, List.append_assoc]⟩
    · rw [if_neg (by omega), if_pos (by omega)]
      refine ⟨_, _, _, _, [d], q, w ++ [], rfl, .cons r2 (.nil _), reads_post r3 .nothing, by simp,
        by simp, fun _ => ⟨v, ?_, r5⟩⟩
      simpa using r4

/-- **C84 (posts of limited size).** For every packetizer, every way the connection takes bytes and the
answers arrive, when the headers are taken whole: a server reads from the connection the chunks that
were taken from the packetizer, each in one post with its length, in order and once. After a failure it
reads a beginning of that. After a success it has got all of them, an answer that is not cut came for each, the count of
bytes is their size, and the packetizer has no more or the limit on the number of messages is reached. Missing: headers that are
cut (`C84_false_header`). -/
theorem C84_chunks_partial {π : Type} {e : Env} (he : UploadEnv e) (src : Source π)
    (hs : ∀ p d q, src.chunk p = (some d, q) → d.length < 2 ^ 31) (max : Nat) (p : π) (c : Conn)
    (hc : c.wire = []) (hb : ∀ b ∈ c.blocking, b = none) :
    ∃ ok bytes p' c' ds q w, upload (sendNextChunk e src) max 0 p c = some (ok, bytes, p', c') ∧
      Chunks (fun p d q => src.chunk p = (some d, q)) p ds q ∧ Reads e w ds ∧ ds.length ≤ max ∧
      (ok = true → c'.wire = w ∧ bytes = ds.flatten.length ∧
        ((ds.length = max ∧ p' = q) ∨ src.chunk q = (none, p')) ∧
        ds.length ≤ c.answers.length ∧ ∀ a ∈ c.answers.take ds.length, NotCut a) ∧
      (ok = false → c'.wire <+: w) := by
  obtain ⟨ok, bytes, p', c', ds, q, w, h1, h2, h3, h4, h5, h6⟩ :=
    upload_sends src (chunk_sends he src hs) max 0 p c hb
  rw [hc] at h5 h6
  refine ⟨ok, bytes, p', c', ds, q, w, h1, h2, h3, h4, fun h => ?_, fun h => ?_⟩
  · obtain ⟨a, b, c, d⟩ := h5 h
    exact ⟨by simpa using a, by omega, c, d⟩
  · obtain ⟨v, a, b⟩ := h6 h
    rw [b]
    simpa using a

/-- **C84 (messages in one post).** The same for whole messages, with a packetizer whose messages have
the length it announces (C19). Missing: headers that are cut (`C84_false_header`). -/
theorem C84_messages_partial {π : Type} {e : Env} (he : UploadEnv e) (src : Source π) (fuel : Nat)
    (hs : Honest src fuel) (max : Nat) (p : π) (c : Conn)
    (hc : c.wire = []) (hb : ∀ b ∈ c.blocking, b = none) :
    ∃ ok bytes p' c' ds q w, upload (sendNextMsg fuel e src) max 0 p c = some (ok, bytes, p', c') ∧
      Chunks (TakesMessage src) p ds q ∧ Reads e w ds ∧ ds.length ≤ max ∧
      (ok = true → c'.wire = w ∧ bytes = ds.flatten.length ∧
        ((ds.length = max ∧ p' = q) ∨ src.begin q = (none, p')) ∧
        ds.length ≤ c.answers.length ∧ ∀ a ∈ c.answers.take ds.length, NotCut a) ∧
      (ok = false → c'.wire <+: w) := by
  obtain ⟨ok, bytes, p', c', ds, q, w, h1, h2, h3, h4, h5, h6⟩ :=
    upload_sends src (msg_sends he src fuel hs) max 0 p c hb
  rw [hc] at h5 h6
  refine ⟨ok, bytes, p', c', ds, q, w, h1, h2, h3, h4, fun h => ?_, fun h => ?_⟩
  · obtain ⟨a, b, c, d⟩ := h5 h
    exact ⟨by simpa using a, by omega, c, d⟩
  · obtain ⟨v, a, b⟩ := h6 h
    rw [b]
    simpa using a

/-- **C84 (abort).** A message that could not be sent is given back: the packetizer is told to start
over. -/
theorem C84_abort {π : Type} {e : Env} (he : UploadEnv e) (src : Source π) (fuel : Nat)
    (hs : Honest src fuel) (hs' : ∀ p d q, src.chunk p = (some d, q) → d.length < 2 ^ 31)
    (p : π) (c : Conn) (hb : ∀ b ∈ c.blocking, b = none) :
    (∀ o, sendNextChunk e src p c = some o → o.rv < 0 → ∃ q, o.source = src.abort q) ∧
    (∀ o, sendNextMsg fuel e src p c = some o → o.rv < 0 → ∃ q, o.source = src.abort q) := by
  constructor
  · intro o ho hr
    obtain ⟨o', h1, _, h2⟩ := chunk_sends he src hs' p c hb
    rw [ho] at h1
    obtain rfl := Option.some.inj h1
    rcases h2 with ⟨a, _⟩ | ⟨a, _⟩ | ⟨_, d, q, w, v, _, _, _, _, h⟩
    · omega
    · omega
    · exact h
  · intro o ho hr
    obtain ⟨o', h1, _, h2⟩ := msg_sends he src fuel hs p c hb
    rw [ho] at h1
    obtain rfl := Option.some.inj h1
    rcases h2 with ⟨a, _⟩ | ⟨a, _⟩ | ⟨_, d, q, w, v, _, _, _, _, h⟩
    · omega
    · omega
    · exact h

/-- **C84 (one chunk).** `memfault_zephyr_port_http_post_chunk` does nothing without a connection; with
one, and headers taken whole, a server reads the chunk in one post when the result is 0 or says that the
answer did not come, and a beginning of that otherwise. Missing: headers that are cut (`C84_false_header`). -/
theorem C84_post_chunk_partial {e : Env} (he : UploadEnv e) (d : Bytes) (hd : d.length < 2 ^ 31) (c : Conn)
    (hc : c.wire = []) (hb : ∀ b ∈ c.blocking, b = none) :
    postChunk e false d c = some (-1, c) ∧
    ∃ rv c' w, postChunk e true d c = some (rv, c') ∧ Reads e w [d] ∧ c'.wire <+: w ∧
      (rv = 0 ∨ rv = -2 ∨ rv = -3) ∧ (rv ≠ -2 → c'.wire = w) ∧
      (Goes c.sends d.length → rv ≠ -2) ∧ (rv = 0 → ∃ a ∈ c.answers.head?, NotCut a) := by
  refine ⟨rfl, ?_⟩
  unfold postChunk
  obtain ⟨c1, request, s1, s2, s3, s4, s5, s6⟩ := post_header he hd c hb
  simp only [Bool.not_true, Bool.false_eq_true, if_false]
  rw [s1]
  simp only
  obtain ⟨ok, k, c2, t1, t2, t3, t4, t5, t6⟩ := try_send (c1.sends.length + 2) d c1 (by omega)
  rw [t1]
  have hr := reads_post (s6 d rfl) (Reads.nothing (e := e))
  rw [List.append_nil] at hr
  rw [hc, List.nil_append] at s2
  cases ok with
  | false =>
    refine ⟨_, _, request ++ d, rfl, hr, ?_, by omega, by omega, fun h => ?_, by omega⟩
    · rw [t2, s2]
      exact List.prefix_append_right_inj _ |>.2 (List.take_prefix _ _)
    · rw [← s3] at h
      exact absurd (t6 h) (by simp)
  | true =>
    have hw : c2.wire = request ++ d := by rw [t2, s2, List.take_of_length_le (t3.1 rfl)]
    simp only
    obtain ⟨ok, c3, p1, p2, _, p4⟩ := response_cases c2
    rw [p1]
    cases ok with
    | false =>
      exact ⟨_, _, request ++ d, rfl, hr, by rw [p2, hw]; exact List.prefix_refl _, by omega, fun _ => p2.trans hw, by omega, by omega⟩
    | true =>
      refine ⟨_, _, request ++ d, rfl, hr, by rw [p2, hw]; exact List.prefix_refl _, by omega, fun _ => p2.trans hw, by omega, fun _ => ?_⟩
      obtain ⟨s, g1, g2⟩ := p4 rfl
      rw [t5, s4] at g1
      exact ⟨s, by rw [g1]; rfl, g2⟩

/-! ## An example, and what goes wrong -/

/-- A packetizer that holds chunks and whole messages. -/
private def exSource : Source (List Bytes × Option Bytes) where
  chunk p := match p.1 with
    | [] => (none, p)
    | d :: ds => (some (d.take 64), (ds, none))
  «begin» p := match p.1 with
    | [] => (none, p)
    | d :: ds => (some (d.take 64).length, (ds, some (d.take 64)))
  next p := match p.2 with
    | none => (none, p)
    | some d => (some (d, true), (p.1, none))
  abort p := p

private theorem exSource_honest : Honest exSource 2 ∧
    ∀ p d q, exSource.chunk p = (some d, q) → d.length < 2 ^ 31 := by
  constructor
  · intro p n q h
    obtain ⟨l, o⟩ := p
    cases l with
    | nil => simp [exSource] at h
    | cons d ds =>
      simp only [exSource, Prod.mk.injEq, Option.some.injEq] at h
      obtain ⟨rfl, rfl⟩ := h
      refine ⟨by rw [List.length_take]; omega, [d.take 64], (ds, none), .last rfl, by simp, by simp⟩
  · intro p d q h
    obtain ⟨l, o⟩ := p
    cases l with
    | nil => simp [exSource] at h
    | cons x xs =>
      simp only [exSource, Prod.mk.injEq, Option.some.injEq] at h
      obtain ⟨rfl, rfl⟩ := h
      rw [List.length_take]
      omega

private def exEnv : Env := ⟨exHttpConfig, exHttpDevice, List.replicate 100 7⟩

private theorem exEnv_ok : UploadEnv exEnv :=
  ⟨by decide +kernel, by decide +kernel, by decide +kernel, by decide +kernel, by decide +kernel⟩

/-- "HTTP/1.1 ", the status, and an empty body. -/
private def exAnswer (status : String) : Sock :=
  ⟨(("HTTP/1.1 " ++ status ++ "\r\nContent-Length:0\r\n\r\n").toList).map fun c => UInt8.ofNat c.toNat,
    List.replicate 9 (.data 31)⟩

/-- Two chunks, sent in small pieces. -/
example : UploadEnv exEnv ∧
    (upload (sendNextChunk exEnv exSource) 5 0 ([[1, 2, 3], [4]], none)
      { sends := List.replicate 9 (.sent 1), answers := List.replicate 2 (exAnswer "202 OK") }).map
      (fun r => (r.1, r.2.1, r.2.2.1)) = some (true, 4, ([], none)) :=
  ⟨exEnv_ok, by decide +kernel⟩

example : (upload (sendNextMsg 3 exEnv exSource) 5 0 ([[1, 2, 3], [4]], none)
      { sends := List.replicate 9 (.sent 1), answers := List.replicate 2 (exAnswer "202 OK") }).map
      (fun r => (r.1, r.2.1, r.2.2.1)) = some (true, 4, ([], none)) := by decide +kernel

/-- The packetizer of the SDK, asked for chunks of up to `n` bytes. -/
def sdkSource (cfg : Packetizer.Config) (n : Nat) : Source Packetizer.State where
  chunk s := match Packetizer.getChunk cfg s (List.replicate n 0) with
    | some (true, buf, len, s) => (some (buf.take len), s)
    | some (false, _, _, s) => (none, s)
    | none => (none, s)
  «begin» s := match Packetizer.begin' cfg true s with
    | some (o, s) => (if o.ok then some o.singleChunkMessageLength else none, s)
    | none => (none, s)
  next s := match Packetizer.getNext cfg s (List.replicate 128 0) with
    | some (o, s) => (if o.status = .noMoreData then none
        else some (o.buf.take o.len, decide (o.status = .endOfChunk)), s)
    | none => (none, s)
  abort s := Packetizer.abort cfg s

/-- One event is waiting. -/
private def exPending : Packetizer.State :=
  { Packetizer.boot with queue := fun s => if s = .event then [[1, 2, 3]] else [] }

/-- A server that refuses the data (503): the upload is a success and the data is gone. -/
theorem C84_false_status :
    (upload (sendNextChunk exEnv (sdkSource ⟨false, none⟩ 64)) 5 0 exPending
      { sends := [.sent 63], answers := [exAnswer "503 Busy"] }).map
      (fun r => (r.1, r.2.2.1.queue .event)) = some (true, []) := by decide +kernel

/-- A connection that fails before any byte of the message went out: the upload fails and the message is
lost in spite of the abort, because the packetizer has given all of it already. Both with posts of limited
size and with whole messages. -/
theorem C84_false_lost :
    (upload (sendNextChunk exEnv (sdkSource ⟨false, none⟩ 64)) 5 0 exPending { sends := [.fail] }).map
      (fun r => (r.1, r.2.2.1.queue .event)) = some (false, []) ∧
    (upload (sendNextMsg 9 exEnv (sdkSource ⟨false, none⟩ 64)) 5 0 exPending { sends := [.fail] }).map
      (fun r => (r.1, r.2.2.1.queue .event)) = some (false, []) := by
  constructor <;> decide +kernel

/-- A header that is cut: the body is sent all the same, the server reads no request, and whatever it
answers is a success. -/
theorem C84_false_header :
    (upload (sendNextChunk exEnv exSource) 5 0 ([[65, 66, 67]], none)
      { blocking := [some 5], sends := [.sent 63], answers := [exAnswer "400 Bad"] }).map
      (fun r => (r.1, r.2.2.2.wire)) = some (true, text "POST ABC") := by decide +kernel

/-- The number of posts of one upload is not enough for a coredump that fills its storage, when that is
not a multiple of the size of a post (and each post carries some bytes that are not of the coredump). -/
theorem C84_false_whole_coredump (post k : Nat) (hp : 0 < post) (hk : 5 ≤ k) (chunks : List Bytes)
    (hc : ∀ d ∈ chunks, d.length ≤ post) (hl : k * post + 1 ≤ chunks.flatten.length) :
    maxMessages (some (k * post + 1)) post < chunks.length ∨ post = 1 := by
  by_cases h1 : post = 1
  · exact Or.inr h1
  · left
    have hdiv : (k * post + 1) / post = k := by
      rw [Nat.mul_comm k post, Nat.mul_add_div hp, Nat.div_eq_of_lt (by omega)]
      omega
    have hm : maxMessages (some (k * post + 1)) post = k := by
      simp only [maxMessages]
      rw [if_neg (by omega), hdiv]
      omega
    rw [hm]
    have hsum : ∀ ds : List Bytes, (∀ d ∈ ds, d.length ≤ post) → ds.flatten.length ≤ ds.length * post := by
      intro ds
      induction ds with
      | nil => intro _; simp
      | cons d ds ih =>
        intro h
        have a := h d (List.mem_cons_self ..)
        have b := ih fun x hx => h x (List.mem_cons_of_mem _ hx)
        rw [List.flatten_cons, List.length_append, List.length_cons, Nat.succ_mul]
        omega
    have := hsum chunks hc
    apply Nat.lt_of_not_le
    intro hle
    have := Nat.mul_le_mul_right post hle
    omega

/-- Seven chunks of 10 bytes for a coredump of 61 bytes. -/
example : maxMessages (some 61) 10 = 6 ∧ (List.replicate 7 (List.replicate 10 (0 : UInt8))).length = 7 := by
  decide

end Mflt.Props
