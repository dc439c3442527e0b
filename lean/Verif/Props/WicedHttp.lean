import Verif.Model.WicedHttp

/-!
# C116: uploading with the WICED HTTP client

`Spec.WicedHttp` has what can be observed of an upload and what an orderly one is.
-/

namespace Mflt.Props

open WicedHttp
open Spec.WicedHttp

/-- The messages that became available, in order. -/
def C116Added : List Action → List Spec.WicedHttp.Bytes
  | [] => []
  | .data c :: as => c :: C116Added as
  | _ :: as => C116Added as

namespace WicedHttpAux

theorem delivered_append (a b : List Ev) : delivered (a ++ b) = delivered a ++ delivered b := by
  induction a with
  | nil => rfl
  | cons e a ih => cases e <;> simp [delivered, ih]

theorem requests_append (a b : List Ev) : requests (a ++ b) = requests a + requests b := by
  induction a with
  | nil => simp [requests]
  | cons e a ih => cases e <;> simp [requests, ih] <;> omega

theorem callbacks_append (a b : List Ev) : callbacks (a ++ b) = callbacks a + callbacks b := by
  induction a with
  | nil => simp [callbacks]
  | cons e a ih => cases e <;> simp [callbacks, ih] <;> omega

theorem orderly_append (a b : List Ev) : ∀ g, orderly g (a ++ b) = (orderly g a).bind fun g => orderly g b := by
  induction a with
  | nil => intro g; cases g <;> rfl
  | cons e a ih =>
    intro g
    rw [List.cons_append]
    cases g <;> cases e with
    | returned rv => simp only [orderly] <;> (first | rfl | (split <;> first | rfl | exact ih _))
    | callback c => cases c <;> simp only [orderly] <;> first | rfl | exact ih _
    | _ => simp only [orderly] <;> first | rfl | exact ih _

/-- The last request was given up. -/
def afterCut : Bool → List Ev → Bool
  | c, [] => c
  | _, .cut _ _ :: l => afterCut true l
  | _, .sent _ _ :: l => afterCut false l
  | c, _ :: l => afterCut c l

theorem afterCut_append (a b : List Ev) : ∀ c, afterCut c (a ++ b) = afterCut (afterCut c a) b := by
  induction a with
  | nil => intro c; rfl
  | cons e a ih => intro c; cases e <;> exact ih _

theorem intact_append (msgs : List Bytes) (a b : List Ev) :
    ∀ c, Intact msgs c (a ++ b) ↔ Intact msgs c a ∧ Intact msgs (afterCut c a) b := by
  induction a with
  | nil => intro c; simp [Intact, afterCut]
  | cons e a ih => intro c; cases e <;> cases c <;> simp [Intact, afterCut, ih, and_assoc]

theorem intact_mono {m m' : List Bytes} (hm : ∀ x ∈ m, x ∈ m') (a : List Ev) : ∀ c, Intact m c a → Intact m' c a := by
  induction a with
  | nil => intro c _; trivial
  | cons e a ih =>
    intro c h
    cases e <;> cases c <;> first
      | exact ih _ h
      | exact ⟨⟨h.1.1, hm _ h.1.2⟩, ih _ h.2⟩

theorem uncut_left {a b : List Ev} (h : Uncut (a ++ b)) : Uncut a :=
  fun n c hc => h n c (List.mem_append_left _ hc)

theorem writeLoop_ok : ∀ (fuel : Nat) (rest : Bytes) (ws : List Nat), rest.length < fuel →
    ∃ r, writeLoop fuel rest ws = some r ∧ r.2.1 ≤ rest.length ∧
      (r.2.2 = true → r.1 = rest ∧ r.2.1 = rest.length) ∧
      ((∀ w ∈ ws, w = 0) → r.2.2 = true) := by
  intro fuel
  induction fuel with
  | zero => intro rest ws h; omega
  | succ fuel ih =>
    intro rest ws h
    rw [writeLoop]
    by_cases hw : ws.headD 0 ≠ 0
    · rw [if_pos hw]
      refine ⟨_, rfl, by simp; omega, by simp, fun hz => ?_⟩
      cases ws with
      | nil => exact absurd rfl hw
      | cons w ws => exact absurd (hz w (List.mem_cons_self ..)) hw
    · rw [if_neg hw]
      by_cases hl : rest.length ≤ 256
      · rw [if_pos hl]
        exact ⟨_, rfl, by simp; omega, fun _ => ⟨List.take_of_length_le hl, by simp; omega⟩, fun _ => rfl⟩
      · rw [if_neg hl]
        obtain ⟨r, h1, h2, h3, h4⟩ := ih (rest.drop 256) ws.tail (by simp; omega)
        rw [h1]
        refine ⟨_, rfl, ?_, ?_, ?_⟩
        · simp only [List.length_drop, List.length_take] at h2 ⊢; omega
        · intro hr
          obtain ⟨h5, h6⟩ := h3 hr
          exact ⟨by simp only [h5]; exact List.take_append_drop .., by simp only [h6, List.length_drop, List.length_take]; omega⟩
        · intro hz
          exact h4 fun w hm => hz w (List.mem_of_mem_tail hm)

/-- What one call of `send` does. -/
theorem send_cases (e : SendEnv) (s : St) (c : Bytes) (others : List Bytes) (hq : s.queue = c :: others) :
    (∃ rv h, rv ≠ 0 ∧ send e s = some (rv, { s with heap := h })) ∨
    (∃ q o b, (s.off ≤ c.length → (q = others ∧ o = 0) ∨ (q = c :: others ∧ o ≤ c.length)) ∧
      send e s = some (4, { s with queue := q, off := o, log := s.log ++ [.cut c.length b] })) ∨
    ∃ q o b, (s.off ≤ c.length → q = others ∧ o = 0) ∧ (s.off = 0 → b = c) ∧
      send e s = some (0, { s with queue := q, off := o, log := s.log ++ [.sent c.length b] }) := by
  obtain ⟨queue, off, pending, err, dns, heap, pc, log⟩ := s
  obtain ⟨malloc, init, header, endHeader, writes, flush⟩ := e
  cases hq
  cases malloc with
  | false => exact .inl ⟨4, heap, by decide, rfl⟩
  | true =>
  by_cases h2 : init = 0
  · by_cases h3 : header = 0
    · by_cases h4 : endHeader = 0
      · cases h2; cases h3; cases h4
        obtain ⟨⟨b, n, ok⟩, hr, hn, hok, -⟩ := writeLoop_ok (c.length + 1) (c.drop off) writes (by simp; omega)
        refine .inr ?_
        have ha : ∃ q o, advance ⟨c :: others, off, pending, err, dns, heap, pc, log⟩ c others n
            = ⟨q, o, pending, err, dns, heap, pc, log⟩ ∧
            (off ≤ c.length → (q = others ∧ o = 0) ∨ (q = c :: others ∧ o ≤ c.length)) ∧
            (off + n = c.length → q = others ∧ o = 0) := by
          unfold advance
          by_cases hn' : off + n = c.length
          · exact ⟨_, _, if_pos hn', fun _ => .inl ⟨rfl, rfl⟩, fun _ => ⟨rfl, rfl⟩⟩
          · refine ⟨_, _, if_neg hn', fun h => .inr ⟨rfl, ?_⟩, fun h => absurd h hn'⟩
            simp only [List.length_drop] at hn ⊢
            omega
        obtain ⟨q, o, ha', hq1, hq2⟩ := ha
        cases ok with
        | true =>
          by_cases h6 : flush = 0
          · cases h6
            have hs : send ⟨true, 0, 0, 0, writes, 0⟩ ⟨c :: others, off, pending, err, dns, heap, pc, log⟩
                = some (0, ⟨q, o, pending, err, dns, heap, pc, log ++ [.sent c.length b]⟩) := by
              simp [send, hr, ha']
            obtain ⟨h7, h8⟩ := hok rfl
            simp only [List.length_drop] at h8
            refine .inr ⟨q, o, b, fun h => ?_, fun h => ?_, hs⟩
            · have h' : off ≤ c.length := h
              exact hq2 (by omega)
            · have h' : off = 0 := h
              rw [h', List.drop_zero] at h7
              exact h7
          · exact .inl ⟨q, o, b, hq1, by simp [send, hr, ha', h6]⟩
        | false => exact .inl ⟨q, o, b, hq1, by simp [send, hr, ha']⟩
      · exact .inl ⟨endHeader, heap + 1, h4, by simp [send, h2, h3, h4]⟩
    · exact .inl ⟨header, heap + 1, h3, by simp [send, h2, h3]⟩
  · exact .inl ⟨init, heap + 1, h2, by simp [send, h2]⟩

/-- What a step changes: a case for each of the ways a step can go. -/
inductive Case (s t : St) : Action → Prop
  | same (a : Action) (ha : ∀ c, a ≠ .data c) (h : t = s) : Case s t a
  | data (c : Bytes) (h : t = { s with queue := s.queue ++ [c] }) : Case s t (.data c)
  | refuse (p : PostEnv) (rv : Int) (d : Bool) (hpc : s.pc = .out) (hrv : rv ≠ -5)
      (hp : rv ≠ -1 → s.pending = false)
      (h : t = ret { s with dns := d } rv) : Case s t (.post p)
  | start (p : PostEnv) (hpc : s.pc = .out) (hp : s.pending = false) (h : t = { s with dns := true, pc := .loop }) :
      Case s t (.post p)
  | done (e : SendEnv) (hpc : s.pc = .loop) (hq : s.queue = []) (h : t = ret s 0) : Case s t (.go e)
  | failed (e : SendEnv) (rv : Nat) (hp : Nat) (hpc : s.pc = .loop) (hrv : rv ≠ 0)
      (h : t = ret { s with heap := hp } (-1000 - rv)) : Case s t (.go e)
  | cut (e : SendEnv) (c : Bytes) (others q : List Bytes) (o n : Nat) (b : Bytes) (hpc : s.pc = .loop)
      (hq : s.queue = c :: others)
      (ho : s.off ≤ c.length → (q = others ∧ o = 0) ∨ (q = s.queue ∧ o ≤ c.length))
      (h : t = ret { s with queue := q, off := o, log := s.log ++ [.cut n b] } (-1004)) : Case s t (.go e)
  | sent (e : SendEnv) (c : Bytes) (others q : List Bytes) (o : Nat) (b : Bytes) (hpc : s.pc = .loop)
      (hq : s.queue = c :: others)
      (ho : s.off ≤ c.length → q = others ∧ o = 0) (h0 : s.off = 0 → b = c)
      (h : t = { s with queue := q, off := o, log := s.log ++ [.sent c.length b], pc := .flushed }) : Case s t (.go e)
  | noted (e : SendEnv) (hpc : s.pc = .flushed) (h : t = { s with pending := true, pc := .waiting 0 }) : Case s t (.go e)
  | wait (e : SendEnv) (ms : Nat) (hpc : s.pc = .waiting ms) (hp : s.pending = true) (hms : ms < 10000)
      (h : t = { s with pc := .waiting (ms + 100) }) : Case s t (.go e)
  | stop (e : SendEnv) (ms : Nat) (hpc : s.pc = .waiting ms) (hp : s.pending = true → 10000 ≤ ms) (herr : s.err = true)
      (h : t = ret { s with off := 0 } (-5)) : Case s t (.go e)
  | next (e : SendEnv) (ms : Nat) (hpc : s.pc = .waiting ms) (hp : s.pending = true → 10000 ≤ ms) (herr : s.err = false)
      (h : t = { s with pc := .loop }) : Case s t (.go e)
  | lost (hpc : s.pc ≠ .dead) (hp : s.pending = true)
      (h : t = { s with log := s.log ++ [.callback none, .reset], pc := .dead }) : Case s t .disconnected
  | answered (c : Nat) (hpc : s.pc ≠ .dead) (hp : s.pending = true)
      (h : t = { s with log := s.log ++ [.callback (some c)], err := decide (c < 200) || decide (c ≥ 300),
                        pending := false }) : Case s t (.received true true (some c))

theorem step_case (s : St) (a : Action) : ∃ t, step s a = some t ∧ Case s t a := by
  cases a with
  | data c => exact ⟨_, rfl, .data c rfl⟩
  | post p =>
    simp only [step]
    by_cases hpc : s.pc = .out
    · rw [if_pos hpc]
      refine ⟨_, rfl, ?_⟩
      obtain ⟨queue, off, pending, err, dns, heap, pc, log⟩ := s
      obtain ⟨pdns, url, connect⟩ := p
      cases pending with
      | true => exact .refuse _ (-1) dns hpc (by decide) (fun h => absurd rfl h) rfl
      | false =>
        cases queue with
        | nil => exact .refuse _ 1 dns hpc (by decide) (fun _ => rfl) rfl
        | cons c q =>
          by_cases hd : dns = false ∧ pdns = false
          · obtain ⟨h1, h2⟩ := hd
            subst h1; subst h2
            exact .refuse _ (-3) false hpc (by decide) (fun _ => rfl) rfl
          · have hd' : (!dns && !pdns) = false := by
              cases dns <;> cases pdns <;> simp_all
            cases url with
            | false => exact .refuse _ (-4) true hpc (by decide) (fun _ => rfl) (by simp [post, hd'])
            | true =>
              by_cases hc : connect = 0
              · exact .start _ hpc rfl (by simp [post, hd', hc])
              · exact .refuse _ connect true hpc (by omega) (fun _ => rfl) (by simp [post, hd', hc])
    · rw [if_neg hpc]; exact ⟨s, rfl, .same _ (by simp) rfl⟩
  | go e =>
    simp only [step, go]
    cases hpc : s.pc with
    | out => exact ⟨s, rfl, .same _ (by simp) rfl⟩
    | dead => exact ⟨s, rfl, .same _ (by simp) rfl⟩
    | loop =>
      cases hq : s.queue with
      | nil => exact ⟨_, rfl, .done e hpc hq rfl⟩
      | cons c others =>
        simp only [if_neg (List.cons_ne_nil c others)]
        rcases send_cases e s c others hq with ⟨rv, h, hrv, hs⟩ | ⟨q, o, b, hq1, hs⟩ | ⟨q, o, b, hq1, h0, hs⟩
        · rw [hs]
          exact ⟨_, rfl, .failed e rv h hpc hrv (by simp [hrv])⟩
        · rw [hs]
          exact ⟨_, rfl, .cut e c others q o c.length b hpc hq (by rw [hq]; exact hq1) rfl⟩
        · rw [hs]
          exact ⟨_, rfl, .sent e c others q o b hpc hq hq1 h0 rfl⟩
    | flushed => exact ⟨_, rfl, .noted e hpc rfl⟩
    | waiting ms =>
      by_cases hw : s.pending = true ∧ ms < 10000
      · simp only [hw.1, hw.2]
        exact ⟨_, rfl, .wait e ms hpc hw.1 hw.2 (by simp [hw.1])⟩
      · have h2 : s.pending = true → 10000 ≤ ms := fun h => Nat.le_of_not_lt fun h' => hw ⟨h, h'⟩
        have h1 : (s.pending && decide (ms < 10000)) = false := by
          cases h : s.pending
          · rfl
          · have := h2 h
            simp only [Bool.true_and, decide_eq_false_iff_not]; omega
        cases he : s.err with
        | true => exact ⟨_, by simp [h1, he, hpc], .stop e ms hpc h2 he rfl⟩
        | false => exact ⟨_, by simp [h1, he], .next e ms hpc h2 he rfl⟩
  | disconnected =>
    simp only [step]
    by_cases hpc : s.pc = .dead
    · rw [if_pos hpc]; exact ⟨s, rfl, .same _ (by simp) rfl⟩
    · rw [if_neg hpc]
      cases hp : s.pending with
      | false => exact ⟨s, by simp [finalize, hp], .same _ (by simp) rfl⟩
      | true => exact ⟨_, rfl, .lost hpc hp (by simp [finalize, hp])⟩
  | received m h st =>
    simp only [step]
    by_cases hpc : s.pc = .dead
    · rw [if_pos hpc]; exact ⟨s, rfl, .same _ (by simp) rfl⟩
    · rw [if_neg hpc]
      cases m with
      | false => exact ⟨s, rfl, .same _ (by simp) rfl⟩
      | true =>
        cases h with
        | false => exact ⟨s, rfl, .same _ (by simp) rfl⟩
        | true =>
          cases st with
          | none => exact ⟨s, rfl, .same _ (by simp) rfl⟩
          | some c =>
            cases hp : s.pending with
            | false => exact ⟨s, by simp [dataReceived, finalize, hp], .same _ (by simp) rfl⟩
            | true => exact ⟨_, rfl, .answered c hpc hp (by simp [dataReceived, finalize, hp])⟩

theorem run_append (s : St) (as bs : List Action) :
    run s (as ++ bs) = (run s as).bind fun t => run t bs := by
  induction as generalizing s with
  | nil => rfl
  | cons a as ih =>
    simp only [List.cons_append, run]
    cases step s a with
    | none => rfl
    | some t => exact ih t

/-- An invariant of all steps holds after a run; the steps may use what was done before. -/
theorem run_inv (P : List Action → St → Prop) (s0 : St) (h0 : P [] s0) (as : List Action)
    (hstep : ∀ xs a ys s t, as = xs ++ a :: ys → run s0 xs = some s → Case s t a → P xs s → P (xs ++ [a]) t)
    (s : St) (h : run s0 as = some s) : P as s := by
  suffices hs : ∀ ys xs t, as = xs ++ ys → run s0 xs = some t → run t ys = some s → P xs t → P as s by
    exact hs as [] s0 rfl rfl h h0
  intro ys
  induction ys with
  | nil =>
    intro xs t h1 _ h2 hp
    rw [List.append_nil] at h1
    cases h2
    rw [h1]; exact hp
  | cons a ys ih =>
    intro xs t h1 hx h2 hp
    obtain ⟨u, hu, hc⟩ := step_case t a
    simp only [run, hu, Option.bind_some] at h2
    refine ih (xs ++ [a]) u (by rw [h1]; simp) ?_ h2 (hstep xs a ys t u h1 hx hc hp)
    rw [run_append, hx]
    simp only [Option.bind_some, run, hu]

theorem of_map {α : Type} {f : St → α} {s : St} {as : List Action} {v : α} (h : (run s as).map f = some v) :
    ∃ t, run s as = some t ∧ f t = v := Option.map_eq_some_iff.1 h

theorem added_append (as bs : List Action) : C116Added (as ++ bs) = C116Added as ++ C116Added bs := by
  induction as with
  | nil => rfl
  | cons a as ih => cases a <;> simp [C116Added, ih]

theorem added_other {a : Action} (h : ∀ c, a ≠ .data c) : C116Added [a] = [] := by
  cases a with
  | data c => exact absurd rfl (h c)
  | _ => rfl

end WicedHttpAux

open WicedHttpAux

/-- **C116 (total).** Whatever the network does, the client goes on: no step is undefined. -/
theorem C116_total (as : List Action) : ∃ s, run fresh as = some s := by
  suffices h : ∀ t, ∃ s, run t as = some s from h fresh
  induction as with
  | nil => intro t; exact ⟨t, rfl⟩
  | cons a as ih =>
    intro t
    obtain ⟨u, hu, -⟩ := step_case t a
    simp only [run, hu]
    exact ih u

/-- **C116 (complete).** Whatever the schedule and the responses are, as long as no request was given up half way: the
server gets the messages in order, each of them once and completely, and the rest are still there to be sent. Each
request announces as many bytes as it carries. Missing: requests that were given up, see `C116_false_cut`. -/
theorem C116_complete_partial (as : List Action) (s : St) (h : run fresh as = some s) (hu : Uncut s.log) :
    delivered s.log ++ s.queue = C116Added as ∧ Honest s.log := by
  have key := run_inv (fun as s => Uncut s.log → s.off = 0 ∧ delivered s.log ++ s.queue = C116Added as ∧ Honest s.log)
    fresh (fun _ => ⟨rfl, rfl, fun n b hb => nomatch hb⟩) as ?_ s h hu
  · exact key.2
  intro xs a ys s t _ _ hc ih hu
  have honest : ∀ (l : List Ev) (e : Ev), (∀ n b, e = .sent n b → n = b.length) → Honest l → Honest (l ++ [e]) := by
    intro l e he hl n b hm
    rcases List.mem_append.1 hm with hm | hm
    · exact hl n b hm
    · exact he n b (List.mem_singleton.1 hm).symm
  rw [added_append]
  cases hc with
  | same _ ha ht => subst ht; rw [added_other ha, List.append_nil]; exact ih hu
  | data c ht =>
    subst ht
    obtain ⟨h1, h2, h3⟩ := ih hu
    refine ⟨h1, ?_, h3⟩
    show delivered s.log ++ (s.queue ++ [c]) = _
    rw [← List.append_assoc, h2]; rfl
  | refuse p rv d _ _ _ ht =>
    subst ht
    obtain ⟨h1, h2, h3⟩ := ih (uncut_left hu)
    exact ⟨h1, by simp only [ret, delivered_append, delivered, C116Added, List.append_nil]; exact h2,
      honest _ _ (by simp) h3⟩
  | start p _ _ ht => subst ht; obtain ⟨h1, h2, h3⟩ := ih hu; exact ⟨h1, by simpa [C116Added] using h2, h3⟩
  | done e _ _ ht =>
    subst ht
    obtain ⟨h1, h2, h3⟩ := ih (uncut_left hu)
    exact ⟨h1, by simp only [ret, delivered_append, delivered, C116Added, List.append_nil]; exact h2,
      honest _ _ (by simp) h3⟩
  | failed e rv hp _ _ ht =>
    subst ht
    obtain ⟨h1, h2, h3⟩ := ih (uncut_left hu)
    exact ⟨h1, by simp only [ret, delivered_append, delivered, C116Added, List.append_nil]; exact h2,
      honest _ _ (by simp) h3⟩
  | cut e c others q o n b _ _ _ ht =>
    subst ht
    exact absurd (by simp [ret]) (hu n b)
  | sent e c others q o b _ hq ho h0 ht =>
    subst ht
    obtain ⟨h1, h2, h3⟩ := ih (uncut_left hu)
    obtain ⟨h4, h5⟩ := ho (by omega)
    have h6 := h0 h1
    subst h4; subst h5; subst h6
    refine ⟨rfl, ?_, honest _ _ (by simp) h3⟩
    simp only [delivered_append, delivered, C116Added, List.append_nil, List.append_assoc, List.cons_append, List.nil_append]
    rw [← hq]; exact h2
  | noted e _ ht => subst ht; obtain ⟨h1, h2, h3⟩ := ih hu; exact ⟨h1, by simpa [C116Added] using h2, h3⟩
  | wait e ms _ _ _ ht => subst ht; obtain ⟨h1, h2, h3⟩ := ih hu; exact ⟨h1, by simpa [C116Added] using h2, h3⟩
  | stop e ms _ _ _ ht =>
    subst ht
    obtain ⟨h1, h2, h3⟩ := ih (uncut_left hu)
    exact ⟨rfl, by simp only [ret, delivered_append, delivered, C116Added, List.append_nil]; exact h2,
      honest _ _ (by simp) h3⟩
  | next e ms _ _ _ ht => subst ht; obtain ⟨h1, h2, h3⟩ := ih hu; exact ⟨h1, by simpa [C116Added] using h2, h3⟩
  | lost _ _ ht =>
    subst ht
    obtain ⟨h1, h2, h3⟩ := ih (uncut_left hu)
    refine ⟨h1, by simp only [delivered_append, delivered, C116Added, List.append_nil]; exact h2, ?_⟩
    have := honest _ .reset (by simp) (honest _ (.callback none) (by simp) h3)
    simpa using this
  | answered c _ _ ht =>
    subst ht
    obtain ⟨h1, h2, h3⟩ := ih (uncut_left hu)
    exact ⟨h1, by simp only [delivered_append, delivered, C116Added, List.append_nil]; exact h2,
      honest _ _ (by simp) h3⟩

/-- **C116 (intact).** Whatever fails, a request that does not directly follow one that was given up carries a whole
message. -/
theorem C116_intact (as : List Action) (s : St) (h : run fresh as = some s) : Intact (C116Added as) false s.log := by
  have key := run_inv (fun as s => Intact (C116Added as) false s.log ∧ (afterCut false s.log = false → s.off = 0) ∧
    (∀ c ∈ s.queue, c ∈ C116Added as) ∧ (s.queue = [] → s.off = 0) ∧ ∀ c l, s.queue = c :: l → s.off ≤ c.length)
    fresh ⟨trivial, fun _ => rfl, fun c hc => (nomatch hc), fun _ => rfl, fun c l h => nomatch h⟩ as ?_ s h
  · exact key.1
  intro xs a ys s t _ _ hc ⟨h1, h2, h3, h4, h5⟩
  have hmono : ∀ x ∈ C116Added xs, x ∈ C116Added (xs ++ [a]) := fun x hx => by
    rw [added_append]; exact List.mem_append_left _ hx
  have h1' := intact_mono hmono _ _ h1
  have h3' : ∀ c ∈ s.queue, c ∈ C116Added (xs ++ [a]) := fun c hc => hmono c (h3 c hc)
  cases hc with
  | same _ _ ht | start _ _ _ ht | noted _ _ ht | wait _ _ _ _ _ ht | next _ _ _ _ _ ht => subst ht; exact ⟨h1', h2, h3', h4, h5⟩
  | data c ht =>
    subst ht
    refine ⟨h1', h2, fun d hd => ?_, fun hh => by simp at hh, fun d l hd => ?_⟩
    rotate_left
    · cases hq : s.queue with
      | nil => have := h4 hq; simp only; omega
      | cons d' l' =>
        simp only [hq, List.cons_append, List.cons.injEq] at hd
        rw [← hd.1]
        exact h5 d' l' hq
    rcases List.mem_append.1 hd with hd | hd
    · exact h3' d hd
    · rw [added_append]; exact List.mem_append_right _ hd
  | refuse _ _ _ _ _ _ ht | done _ _ _ ht | failed _ _ _ _ _ ht | lost _ _ ht | answered _ _ _ ht =>
    subst ht
    refine ⟨(intact_append _ _ _ _).2 ⟨h1', by simp [Intact]⟩, fun hh => h2 ?_, h3', h4, h5⟩
    simpa [ret, afterCut_append, afterCut] using hh
  | stop _ _ _ _ _ ht =>
    subst ht
    exact ⟨(intact_append _ _ _ _).2 ⟨h1', by simp [Intact]⟩, fun _ => rfl, h3', fun _ => rfl, fun _ _ _ => Nat.zero_le _⟩
  | cut e c others q o n b _ hq ho ht =>
    subst ht
    have hqo := ho (h5 c others hq)
    refine ⟨?_, fun hh => ?_, fun d hd => ?_, fun hh => ?_, fun d l hd => ?_⟩
    rotate_left 2
    · rcases hqo with ⟨h6, h7⟩ | ⟨h6, h7⟩
      · exact h3' d (by rw [hq, ← h6]; exact List.mem_cons_of_mem _ hd)
      · exact h3' d (by rw [← h6]; exact hd)
    · rcases hqo with ⟨h6, h7⟩ | ⟨h6, h7⟩
      · exact h7
      · have hh' : q = [] := hh
        rw [h6, hq] at hh'
        cases hh'
    · rcases hqo with ⟨h6, h7⟩ | ⟨h6, h7⟩
      · simp only [ret, h7]; omega
      · have hd' : q = d :: l := hd
        rw [h6, hq] at hd'
        cases hd'
        exact h7
    · simp only [ret, List.append_assoc]
      refine (intact_append _ _ _ _).2 ⟨h1', by simp [Intact]⟩
    · simp [ret, afterCut_append, afterCut] at hh
  | sent e c others q o b _ hq ho h0 ht =>
    subst ht
    obtain ⟨h6, h7⟩ := ho (h5 c others hq)
    subst h6; subst h7
    refine ⟨(intact_append _ _ _ _).2 ⟨h1', ?_⟩, fun _ => rfl, fun d hd => h3' d (by rw [hq]; exact List.mem_cons_of_mem _ hd),
      fun _ => rfl, fun _ _ _ => Nat.zero_le _⟩
    cases hcut : afterCut false s.log with
    | true => trivial
    | false =>
      have := h0 (h2 hcut)
      subst this
      exact ⟨⟨rfl, h3' _ (by rw [hq]; exact List.mem_cons_self ..)⟩, trivial⟩

/-- The history of `C116_false_cut`, with another message behind the broken one, which is whole. -/
example : (run fresh [.data (List.replicate 600 1), .data [7], .post ⟨true, true, 0⟩, .go ⟨true, 0, 0, 0, [0, 2], 0⟩,
      .post ⟨true, true, 0⟩, .go .good, .go .good, .received true true (some 202), .go .good, .go .good]).map (delivered ·.log)
    = some [List.replicate 88 1, [7]] := by decide +kernel

/-- The premise of `C116_complete_partial` is met by an upload of two messages of 300 bytes and 1 byte. -/
example : ∃ s, run fresh [.data (List.replicate 300 7), .data [9], .post ⟨true, true, 0⟩, .go .good, .go .good, .go .good,
      .received true true (some 202), .go .good, .go .good] = some s ∧
    s.log = [.sent 300 (List.replicate 300 7), .callback (some 202), .sent 1 [9]] := of_map (by decide +kernel)

/-- **C116 (a request given up).** The second of two writes of a message fails. The next post goes on in the middle of
the message, but announces all of it: what the server gets is not the message, and it is gone. -/
theorem C116_false_cut : ∃ as s m, C116Added as = [m] ∧ run fresh as = some s ∧ s.queue = [] ∧
    m ∉ delivered s.log ∧ ∃ n b, Ev.sent n b ∈ s.log ∧ b.length < n := by
  have h := of_map (f := fun s => (s.queue, s.log)) (s := fresh)
    (as := [.data (List.replicate 300 1 ++ List.replicate 300 2), .post ⟨true, true, 0⟩, .go ⟨true, 0, 0, 0, [0, 2], 0⟩,
      .post ⟨true, true, 0⟩, .go .good])
    (v := ([], [.cut 600 (List.replicate 256 1), .returned (-1004), .sent 600 (List.replicate 88 2)])) (by decide +kernel)
  obtain ⟨s, hs, h2⟩ := h
  obtain ⟨hq, hl⟩ := Prod.mk.inj h2
  refine ⟨_, s, _, rfl, hs, hq, ?_, 600, List.replicate 88 2, ?_, by decide⟩
  · rw [hl]; decide +kernel
  · rw [hl]; exact .tail _ (.tail _ (.head _))

/-- **C116 (orderly).** If the connection is not lost, no response comes before the posting task has noted that a
request is under way, and each comes within ten seconds, then uploads are orderly: each request is answered before
anything else is done, the callback is called once for each with its status, and the post reports the failure if and
only if a message was refused, without sending another. Missing: the three cases that are excluded, see
`C116_false_disconnect`, `C116_false_early` and `C116_false_callback`. -/
theorem C116_orderly_partial (as : List Action) (s : St) (h : run fresh as = some s) (hlost : Action.disconnected ∉ as)
    (hearly : ∀ xs c ys t, as = xs ++ .received true true (some c) :: ys → run fresh xs = some t → t.pc ≠ .flushed)
    (htime : ∀ xs e ys t, as = xs ++ .go e :: ys → run fresh xs = some t → t.pc = .waiting 10000 → t.pending = false) :
    ∃ g, orderly .ready s.log = some g ∧ (s.pc = .out → g = .ready) := by
  let Inv : List Action → St → Prop := fun _ s => ∃ g, orderly .ready s.log = some g ∧
    match s.pc with
    | .out => g = .ready ∧ s.pending = false
    | .loop => g = .ready ∧ s.pending = false
    | .flushed => g = .waiting ∧ s.pending = false
    | .waiting ms => ms % 100 = 0 ∧ ms ≤ 10000 ∧ if s.pending then g = .waiting else g = if s.err then .refused else .ready
    | .dead => False
  have key : Inv as s := by
    refine run_inv Inv fresh ⟨.ready, rfl, rfl, rfl⟩ as ?_ s h
    intro xs a ys s t has hxs hc ⟨g, hg, hi⟩
    have app : ∀ (l : List Ev), orderly .ready (s.log ++ l) = orderly g l := fun l => by
      rw [orderly_append, hg]; rfl
    cases hc with
    | same _ _ ht => subst ht; exact ⟨g, hg, hi⟩
    | data c ht => subst ht; exact ⟨g, hg, hi⟩
    | refuse p rv d hpc hrv _ ht =>
      subst ht
      rw [hpc] at hi
      obtain ⟨h1, h2⟩ := hi
      subst h1
      exact ⟨.ready, by simp only [ret, app, orderly]; rw [if_neg hrv], rfl, h2⟩
    | start p hpc hp ht =>
      subst ht
      rw [hpc] at hi
      exact ⟨g, hg, hi⟩
    | done e hpc _ ht =>
      subst ht
      rw [hpc] at hi
      obtain ⟨h1, h2⟩ := hi
      subst h1
      exact ⟨.ready, by simp [ret, app, orderly], rfl, h2⟩
    | failed e rv _ hpc _ ht =>
      subst ht
      rw [hpc] at hi
      obtain ⟨h1, h2⟩ := hi
      subst h1
      exact ⟨.ready, by simp only [ret, app, orderly]; rw [if_neg (by omega)], rfl, h2⟩
    | cut e c others q o n b hpc _ _ ht =>
      subst ht
      rw [hpc] at hi
      obtain ⟨h1, h2⟩ := hi
      subst h1
      exact ⟨.ready, by simp [ret, app, orderly], rfl, h2⟩
    | sent e c others q o b hpc _ _ _ ht =>
      subst ht
      rw [hpc] at hi
      obtain ⟨h1, h2⟩ := hi
      subst h1
      exact ⟨.waiting, by simp [app, orderly], rfl, h2⟩
    | noted e hpc ht =>
      subst ht
      rw [hpc] at hi
      exact ⟨g, hg, rfl, by decide, hi.1⟩
    | wait e ms hpc hp hms ht =>
      subst ht
      rw [hpc] at hi
      obtain ⟨h1, h2, h3⟩ := hi
      exact ⟨g, hg, by omega, by omega, h3⟩
    | stop e ms hpc hp herr ht =>
      subst ht
      rw [hpc] at hi
      obtain ⟨h1, h2, h3⟩ := hi
      have hnp : s.pending = false := by
        cases hpd : s.pending with
        | false => rfl
        | true =>
          have := hp hpd
          have h4 : ms = 10000 := by omega
          subst h4
          rw [htime xs e ys s has hxs hpc] at hpd
          cases hpd
      rw [hnp, herr] at h3
      have h5 : g = .refused := h3
      subst h5
      exact ⟨.ready, by simp [ret, app, orderly], rfl, hnp⟩
    | next e ms hpc hp herr ht =>
      subst ht
      rw [hpc] at hi
      obtain ⟨h1, h2, h3⟩ := hi
      have hnp : s.pending = false := by
        cases hpd : s.pending with
        | false => rfl
        | true =>
          have := hp hpd
          have h4 : ms = 10000 := by omega
          subst h4
          rw [htime xs e ys s has hxs hpc] at hpd
          cases hpd
      rw [hnp, herr] at h3
      exact ⟨g, hg, h3, hnp⟩
    | lost _ _ ht => exact absurd (by rw [has]; simp) hlost
    | answered c hpc hp ht =>
      subst ht
      have hne := hearly xs c ys s has hxs
      cases hpc' : s.pc with
      | out => rw [hpc'] at hi; rw [hi.2] at hp; cases hp
      | loop => rw [hpc'] at hi; rw [hi.2] at hp; cases hp
      | flushed => exact absurd hpc' hne
      | dead => exact absurd hpc' hpc
      | waiting ms =>
        rw [hpc'] at hi
        obtain ⟨h1, h2, h3⟩ := hi
        rw [hp] at h3
        have h4 : g = .waiting := h3
        subst h4
        refine ⟨if 200 ≤ c ∧ c ≤ 299 then .ready else .refused, by simp [app, orderly], ?_⟩
        simp only [hpc']
        refine ⟨h1, h2, ?_⟩
        by_cases h5 : c < 200
        · simp [h5, show ¬ (200 ≤ c) by omega]
        · by_cases h6 : 300 ≤ c
          · simp [h6, show ¬ (c ≤ 299) by omega]
          · simp [h5, h6, show 200 ≤ c by omega, show c ≤ 299 by omega]
  obtain ⟨g, hg, hi⟩ := key
  refine ⟨g, hg, fun hpc => ?_⟩
  rw [hpc] at hi
  exact hi.1

/-- The premises of `C116_orderly_partial` are met by a run in which the second message is refused. -/
example : ∃ s, run fresh [.data [1], .data [2], .data [3], .post ⟨true, true, 0⟩, .go .good, .go .good, .go .good,
      .received true true (some 202), .go .good, .go .good, .go .good, .received true true (some 503), .go .good] = some s ∧
    (s.pc, s.queue, s.log) = (.out, [[3]],
      [.sent 1 [1], .callback (some 202), .sent 1 [2], .callback (some 503), .returned (-5)]) := of_map (by decide +kernel)

/-- **C116 (callback).** Whatever happens, the callback is not called more often than requests were sent. -/
theorem C116_callback (as : List Action) (s : St) (h : run fresh as = some s) : callbacks s.log ≤ requests s.log := by
  have key := run_inv (fun _ s => callbacks s.log + (if s.pc ≠ .dead ∧ s.pending = true then 1 else 0) +
    (if s.pc = .flushed then 1 else 0) ≤ requests s.log) fresh (by decide) as ?_ s h
  · omega
  intro xs a ys s t _ _ hc ih
  cases hc with
  | same _ _ ht => subst ht; exact ih
  | data c ht => subst ht; exact ih
  | refuse p rv d hpc _ _ ht =>
    subst ht
    simpa [ret, callbacks_append, requests_append, callbacks, requests, hpc] using ih
  | start p hpc hp ht => subst ht; simpa [hpc, hp] using ih
  | done e hpc _ ht =>
    subst ht
    simpa [ret, callbacks_append, requests_append, callbacks, requests, hpc] using ih
  | failed e rv _ hpc _ ht =>
    subst ht
    simpa [ret, callbacks_append, requests_append, callbacks, requests, hpc] using ih
  | cut e c others q o n b hpc _ _ ht =>
    subst ht
    simpa [ret, callbacks_append, requests_append, callbacks, requests, hpc] using ih
  | sent e c others q o b hpc _ _ _ ht =>
    subst ht
    simpa [callbacks_append, requests_append, callbacks, requests, hpc] using ih
  | noted e hpc ht => subst ht; simp [hpc] at ih ⊢; omega
  | wait e ms hpc hp _ ht => subst ht; simpa [hpc, hp] using ih
  | stop e ms hpc _ _ ht =>
    subst ht
    simpa [ret, callbacks_append, requests_append, callbacks, requests, hpc] using ih
  | next e ms hpc _ _ ht => subst ht; simpa [hpc] using ih
  | lost hpc hp ht =>
    subst ht
    rw [if_pos ⟨hpc, hp⟩] at ih
    simp [callbacks_append, requests_append, callbacks, requests]
    omega
  | answered c hpc hp ht =>
    subst ht
    rw [if_pos ⟨hpc, hp⟩] at ih
    simp [callbacks_append, requests_append, callbacks, requests]
    omega

/-- **C116 (no reset).** As long as the connection is not lost, no assertion fails. Missing: lost connections
(`C116_false_disconnect`). -/
theorem C116_no_reset_partial (as : List Action) (s : St) (h : run fresh as = some s) (hlost : Action.disconnected ∉ as) :
    Ev.reset ∉ s.log := by
  refine run_inv (fun _ s => Ev.reset ∉ s.log) fresh (fun h => nomatch h) as ?_ s h
  intro xs a ys s t has _ hc ih
  cases hc with
  | lost _ _ _ => exact absurd (by rw [has]; simp) hlost
  | same _ _ ht | data _ ht | refuse _ _ _ _ _ _ ht | start _ _ _ ht | done _ _ _ ht | failed _ _ _ _ _ ht
  | cut _ _ _ _ _ _ _ _ _ _ ht | sent _ _ _ _ _ _ _ _ _ _ ht | noted _ _ ht | wait _ _ _ _ _ ht | stop _ _ _ _ _ ht
  | next _ _ _ _ _ ht | answered _ _ _ ht => subst ht; simpa [ret] using ih

/-- **C116 (connection lost).** A connection that is lost while a request is under way resets the device: the callback
is told, and then the status of a response that does not exist is asked for. -/
theorem C116_false_disconnect (s : St) (hpc : s.pc ≠ .dead) (hp : s.pending = true) :
    (step s .disconnected).map St.log = some (s.log ++ [.callback none, .reset]) := by
  simp [step, hpc, finalize, hp]

/-- Such a state is reached while waiting for the answer to the first request. -/
example : ∃ s, run fresh [.data [1], .post ⟨true, true, 0⟩, .go .good, .go .good] = some s ∧
    (s.pc, s.pending) = (.waiting 0, true) := of_map (by decide +kernel)

/-- **C116 (no answer).** The callback must be called whenever the post is a success, but not if the server does not
answer within ten seconds: the post is a success then, the message is gone and the callback was not called. -/
theorem C116_false_callback : ∃ as s, run fresh as = some s ∧ Action.disconnected ∉ as ∧
    s.log = [.sent 1 [1], .returned 0] ∧ s.queue = [] ∧ s.pending = true ∧ s.pc = .out := by
  obtain ⟨s, h1, h2⟩ := of_map (f := fun s => (s.log, s.queue, s.pending, s.pc)) (s := fresh)
    (as := .data [1] :: .post ⟨true, true, 0⟩ :: List.replicate 104 (.go .good))
    (v := ([.sent 1 [1], .returned 0], [], true, .out)) (by decide +kernel)
  simp only [Prod.mk.injEq] at h2
  exact ⟨_, s, h1, by decide +kernel, h2⟩

/-- **C116 (answered at once).** The answer comes before the posting task has noted that a request is under way: it is
dropped, and the callback is not called although the message was accepted and posting was a success. -/
theorem C116_false_early : ∃ as s, run fresh as = some s ∧ Action.disconnected ∉ as ∧
    as = [.data [1], .post ⟨true, true, 0⟩, .go .good, .received true true (some 202)] ++ List.replicate 103 (.go .good) ∧
    s.log = [.sent 1 [1], .returned 0] ∧ s.pending = true ∧ s.pc = .out := by
  obtain ⟨s, h1, h2⟩ := of_map (f := fun s => (s.log, s.pending, s.pc)) (s := fresh)
    (as := [.data [1], .post ⟨true, true, 0⟩, .go .good, .received true true (some 202)] ++ List.replicate 103 (.go .good))
    (v := ([.sent 1 [1], .returned 0], true, .out)) (by decide +kernel)
  simp only [Prod.mk.injEq] at h2
  exact ⟨_, s, h1, by decide +kernel, rfl, h2⟩

/-- **C116 (stuck).** In the states `C116_false_callback` and `C116_false_early` end in, nothing is sent any more until
the network task reports something about a request that is long over: each post is refused. -/
theorem C116_false_stuck (s : St) (hp : s.pending = true) (hpc : s.pc = .out) (as : List Action) (t : St)
    (h : run s as = some t) (hd : Action.disconnected ∉ as) (hr : ∀ m k c, Action.received m k c ∉ as) :
    requests t.log = requests s.log ∧ t.queue = s.queue ++ C116Added as ∧
    ∀ p u, step t (.post p) = some u → u.log = t.log ++ [.returned (-1)] := by
  have key := run_inv (fun as t => t.pending = true ∧ t.pc = .out ∧ requests t.log = requests s.log ∧
    t.queue = s.queue ++ C116Added as) s ⟨hp, hpc, rfl, by simp [C116Added]⟩ as ?_ t h
  · obtain ⟨h1, h2, h3, h4⟩ := key
    refine ⟨h3, h4, fun p u hu => ?_⟩
    simp only [step, h2, if_true, post, h1, ret, Option.some.injEq] at hu
    rw [← hu]
  intro xs a ys u v has _ hc ⟨h1, h2, h3, h4⟩
  have h5 : a ∈ as := by rw [has]; simp
  rw [added_append]
  cases hc with
  | same _ ha ht => subst ht; exact ⟨h1, h2, h3, by rw [added_other ha]; simpa using h4⟩
  | data c ht => subst ht; exact ⟨h1, h2, h3, by simp [C116Added, h4]⟩
  | refuse p rv d _ _ _ ht =>
    subst ht
    exact ⟨h1, rfl, by simpa [ret, requests_append, requests] using h3, by simpa [ret, C116Added] using h4⟩
  | start p _ hp' _ => rw [h1] at hp'; cases hp'
  | done _ hpc' _ _ => rw [h2] at hpc'; cases hpc'
  | failed _ _ _ hpc' _ _ => rw [h2] at hpc'; cases hpc'
  | cut _ _ _ _ _ _ _ hpc' _ _ _ => rw [h2] at hpc'; cases hpc'
  | sent _ _ _ _ _ _ hpc' _ _ _ _ => rw [h2] at hpc'; cases hpc'
  | noted _ hpc' _ => rw [h2] at hpc'; cases hpc'
  | wait _ _ hpc' _ _ _ => rw [h2] at hpc'; cases hpc'
  | stop _ _ hpc' _ _ _ => rw [h2] at hpc'; cases hpc'
  | next _ _ hpc' _ _ _ => rw [h2] at hpc'; cases hpc'
  | lost _ _ _ => exact absurd h5 hd
  | answered c _ _ _ => exact absurd h5 (hr _ _ _)

/-- **C116 (wrong answer).** The first request is not answered in time; its answer comes while the second is under way,
and counts for that one. That the server refuses the second message goes unnoticed: the post is a success. -/
theorem C116_false_wrong : ∃ as s, run fresh as = some s ∧
    as = [.data [1], .data [2], .post ⟨true, true, 0⟩] ++ List.replicate 105 (.go .good) ++
      [.received true true (some 202), .go .good, .received true true (some 500), .go .good] ∧
    s.log = [.sent 1 [1], .sent 1 [2], .callback (some 202), .returned 0] := by
  obtain ⟨s, h1, h2⟩ := of_map (f := fun s => s.log) (s := fresh)
    (as := [.data [1], .data [2], .post ⟨true, true, 0⟩] ++ List.replicate 105 (.go .good) ++
      [.received true true (some 202), .go .good, .received true true (some 500), .go .good])
    (v := [.sent 1 [1], .sent 1 [2], .callback (some 202), .returned 0]) (by decide +kernel)
  exact ⟨_, s, h1, rfl, h2⟩

/-- **C116 (post).** What a post does before it sends anything: it is refused while a request is under way, there is
nothing to do without data, and each of the ways preparing the connection can fail has its result. No message is
touched. -/
theorem C116_post (s : St) (p : PostEnv) (hpc : s.pc = .out) :
    ∃ t, step s (.post p) = some t ∧ t.queue = s.queue ∧ t.off = s.off ∧ t.pending = s.pending ∧
      if s.pending then t.log = s.log ++ [.returned (-1)]
      else if s.queue = [] then t.log = s.log ++ [.returned 1]
      else if s.dns = false ∧ p.dns = false then t.log = s.log ++ [.returned (-3)]
      else if p.url = false then t.log = s.log ++ [.returned (-4)]
      else if p.connect ≠ 0 then t.log = s.log ++ [.returned p.connect]
      else t.log = s.log ∧ t.pc = .loop := by
  refine ⟨post p s, by simp only [step, if_pos hpc], ?_⟩
  unfold post
  obtain ⟨queue, off, pending, err, dns, heap, pc, log⟩ := s
  obtain ⟨pd, pu, pc'⟩ := p
  cases pending
  · by_cases hq : queue = []
    · simp [hq, ret]
    · by_cases hc : pc' = 0 <;> cases dns <;> cases pd <;> cases pu <;> simp [hq, hc, ret]
  · simp [ret]

/-- A post with a name that is not found. -/
example : (run fresh [.data [1], .post ⟨false, true, 0⟩]).map St.log = some [.returned (-3)] := by decide +kernel

/-- **C116 (memory).** If the library begins each request and takes its header, all buffers are freed. Missing:
requests that the library does not begin (`C116_false_leak`). -/
theorem C116_heap_partial (as : List Action) (s : St) (h : run fresh as = some s)
    (hok : ∀ e, Action.go e ∈ as → e.init = 0 ∧ e.header = 0 ∧ e.endHeader = 0) : s.heap = 0 := by
  suffices hs : ∀ as t, run t as = some s → (∀ e, Action.go e ∈ as → e.init = 0 ∧ e.header = 0 ∧ e.endHeader = 0) →
      t.heap = 0 → s.heap = 0 from hs as fresh h hok rfl
  intro as
  induction as with
  | nil => intro t ht _ h0; cases ht; exact h0
  | cons a as ih =>
    intro t ht hok h0
    simp only [run, Option.bind_eq_some_iff] at ht
    obtain ⟨u, hu, ht⟩ := ht
    refine ih u ht (fun e he => hok e (List.mem_cons_of_mem _ he)) ?_
    obtain ⟨v, hv, hc⟩ := step_case t a
    rw [hu] at hv
    cases hv
    cases hc with
    | failed e rv hp hpc hrv hu2 =>
      have h3 := hok e (List.mem_cons_self ..)
      simp only [step, go, hpc] at hu
      split at hu
      · cases hu; exact h0
      · simp only [Option.map_eq_some_iff] at hu
        obtain ⟨r, hr, hu⟩ := hu
        have hr0 : r.2.heap = 0 := by
          unfold send at hr
          split at hr
          · cases hr; exact h0
          · split at hr
            · cases hr; exact h0
            · rw [if_neg (by simp [h3.1]), if_neg (by simp [h3.2.1]), if_neg (by simp [h3.2.2])] at hr
              simp only [Option.map_eq_some_iff] at hr
              obtain ⟨w, -, hw⟩ := hr
              have ha : ∀ c o n, (advance t c o n).heap = 0 := by
                intro c o n; unfold advance; split <;> exact h0
              split at hw
              · cases hw; exact ha _ _ _
              · split at hw <;> (cases hw; exact ha _ _ _)
        split at hu
        · cases hu; exact hr0
        · cases hu; exact hr0
    | lost _ _ ht' => subst ht'; exact h0
    | same _ _ ht' | data _ ht' | refuse _ _ _ _ _ _ ht' | start _ _ _ ht' | done _ _ _ ht'
    | cut _ _ _ _ _ _ _ _ _ _ ht' | sent _ _ _ _ _ _ _ _ _ _ ht' | noted _ _ ht' | wait _ _ _ _ _ ht' | stop _ _ _ _ _ ht'
    | next _ _ _ _ _ ht' | answered _ _ _ ht' => subst ht'; exact h0

/-- **C116 (leak).** Each request the library does not begin costs a buffer of 256 bytes. -/
theorem C116_false_leak (n : Nat) : ∃ as s, run fresh as = some s ∧ s.heap = n ∧ s.queue = [[1]] := by
  refine ⟨.data [1] :: (List.replicate n [Action.post ⟨true, true, 0⟩, .go ⟨true, 2, 0, 0, [], 0⟩]).flatten, ?_⟩
  simp only [run, step, Option.bind_some]
  suffices h : ∀ n t, t.pc = .out → t.pending = false → t.queue = [[1]] →
      ∃ s, run t (List.replicate n [Action.post ⟨true, true, 0⟩, .go ⟨true, 2, 0, 0, [], 0⟩]).flatten = some s ∧
        s.heap = t.heap + n ∧ s.queue = [[1]] by
    obtain ⟨s, h1, h2, h3⟩ := h n { fresh with queue := fresh.queue ++ [[1]] } rfl rfl rfl
    exact ⟨s, h1, by rw [h2]; exact Nat.zero_add n, h3⟩
  intro n
  induction n with
  | zero => intro t _ _ hq; exact ⟨t, rfl, rfl, hq⟩
  | succ n ih =>
    intro t hpc hp hq
    rw [List.replicate_succ, List.flatten_cons, run_append]
    obtain ⟨queue, off, pending, err, dns, heap, pc, log⟩ := t
    cases hpc; cases hp; cases hq
    have h1 : run ⟨[[1]], off, false, err, dns, heap, .out, log⟩ [.post ⟨true, true, 0⟩, .go ⟨true, 2, 0, 0, [], 0⟩]
        = some ⟨[[1]], off, false, err, true, heap + 1, .out, log ++ [.returned (-1002)]⟩ := by
      simp [run, step, post, go, send, ret]
    rw [h1]
    obtain ⟨s, h2, h3, h4⟩ := ih ⟨[[1]], off, false, err, true, heap + 1, .out, log ++ [.returned (-1002)]⟩ rfl rfl rfl
    exact ⟨s, h2, by rw [h3]; simp; omega, h4⟩

/-- **C116 (create).** With the network up a client is made if and only if nothing fails, and nothing is left behind if
something does. Missing: a network that is down, see `C116_false_create`. -/
theorem C116_create_partial (malloc init configure : Bool) :
    create true malloc init configure =
      some (if malloc ∧ init ∧ configure then (true, 1, 1) else (false, 0, 0)) := by
  cases malloc <;> cases init <;> cases configure <;> rfl

/-- **C116 (create, network down).** Then a pointer that was never set is freed. -/
theorem C116_false_create (malloc init configure : Bool) : create false malloc init configure = none := rfl

end Mflt.Props
