import Verif.Model.Mqtt

/-!
# C117: sending chunks over MQTT from the ESP32 demo application

`Spec.Mqtt` says which messages are left after a number of chunks was taken, and where sending stops.
-/

namespace Mflt.Props

open Mqtt
open Spec.Mqtt

namespace MqttAux

theorem published_append (a b : List Ev) : published (a ++ b) = published a ++ published b := by
  induction a with
  | nil => rfl
  | cons e a ih => cases e <;> simp [published, ih]

theorem left_zero {q : List (List Bytes)} (h : ∀ m ∈ q, m ≠ []) : left 0 q = q := by
  cases q with
  | nil => rfl
  | cons m ms =>
    have := List.length_pos_iff.2 (h m (List.mem_cons_self ..))
    rw [left, if_neg (by omega)]

/-- The result of the last of `n` publishes. -/
def lastRv (rv : Int) (n : Nat) (rs : List Int) : Int := if n = 0 then rv else rs.getD (n - 1) 1

theorem lastRv_succ (rv : Int) (n : Nat) (rs : List Int) : lastRv rv (n + 1) rs = lastRv (rs.headD 1) n rs.tail := by
  unfold lastRv
  rw [if_neg (Nat.succ_ne_zero n), Nat.add_sub_cancel]
  cases rs with
  | nil => cases n <;> simp
  | cons r rs => cases n <;> simp

theorem tries_neg {k : Nat} {rs : List Int} (h : rs.headD 1 < 0) : tries (k + 1) rs = 1 := by
  cases rs with
  | nil => exact absurd h (by decide)
  | cons r rs => simp only [tries]; exact if_pos h

theorem tries_pos {k : Nat} {rs : List Int} (h : ¬ rs.headD 1 < 0) : tries (k + 1) rs = tries k rs.tail + 1 := by
  cases rs with
  | nil => cases k <;> rfl
  | cons r rs => simp only [tries]; exact if_neg h

theorem left_end {pos n : Nat} {m : List Bytes} (ms : List (List Bytes)) (h : pos + 1 = m.length) :
    left (pos + (n + 1)) (m :: ms) = left n ms := by
  rw [left, if_pos (by omega)]
  congr 1
  omega

theorem left_mid {pos : Nat} {m : List Bytes} (ms : List (List Bytes)) (h : pos < m.length) :
    left pos (m :: ms) = m :: ms := by
  rw [left, if_neg (by omega)]

/-- What the loop does. -/
theorem sendLoop_eq : ∀ (fuel : Nat) (rs : List Int) (rv : Int) (s : St) (n : Nat), (∀ m ∈ s.queue, m ≠ []) →
    (∀ m ms, s.queue = m :: ms → s.pos < m.length) → (s.queue = [] → s.pos = 0) →
    s.queue.flatten.length < fuel + s.pos → n = tries (s.queue.flatten.length - s.pos) rs →
    ∃ l, sendLoop fuel rs rv s = some (lastRv rv n rs,
        { s with queue := left (s.pos + n) s.queue, pos := 0, log := s.log ++ l }) ∧
      published l = (s.queue.flatten.drop s.pos).take n ∧
      ∀ e ∈ l, ∃ c r, e = .publish s.up s.topic c r := by
  intro fuel
  induction fuel with
  | zero =>
    intro rs rv s n _ hpos hnil hf _
    cases hq : s.queue with
    | nil => rw [hq, hnil hq] at hf; simp at hf
    | cons m ms =>
      have := hpos m ms hq
      rw [hq] at hf
      simp only [List.flatten_cons, List.length_append] at hf
      omega
  | succ fuel ih =>
    intro rs rv s n hne hpos hnil hf hn
    obtain ⟨client, up, sem, topic, queue, pos, log⟩ := s
    simp only at hne hpos hnil hf hn ⊢
    cases queue with
    | nil =>
      cases hnil rfl
      subst hn
      refine ⟨[], ?_, rfl, by simp⟩
      simp [sendLoop, tries, left, lastRv]
    | cons m ms =>
      have hp := hpos m ms rfl
      obtain ⟨c, hc⟩ : ∃ c, m[pos]? = some c := ⟨m[pos], List.getElem?_eq_getElem hp⟩
      have hne' : ∀ x ∈ ms, x ≠ [] := fun x hx => hne x (List.mem_cons_of_mem _ hx)
      have hlen : (m :: ms).flatten.length = m.length + ms.flatten.length := by simp
      obtain ⟨k, hk⟩ : ∃ k, (m :: ms).flatten.length - pos = k + 1 := ⟨m.length + ms.flatten.length - pos - 1, by omega⟩
      have hdrop : ((m :: ms).flatten.drop pos) = c :: (m :: ms).flatten.drop (pos + 1) := by
        have h1 : (m :: ms).flatten[pos]? = some c := by
          rw [List.flatten_cons, List.getElem?_append_left hp, hc]
        obtain ⟨h2, h3⟩ := List.getElem?_eq_some_iff.1 h1
        rw [List.drop_eq_getElem_cons h2, h3]
      rw [hk] at hn
      rw [hdrop]
      simp only [sendLoop, getChunk, hc, if_neg (List.cons_ne_nil m ms), Option.bind_some]
      by_cases hr : rs.headD 1 < 0
      · rw [tries_neg hr] at hn
        subst hn
        simp only [if_pos hr, lastRv_succ]
        refine ⟨[.publish up topic c (rs.headD 1)], ?_, rfl, by simp⟩
        by_cases hend : pos + 1 = m.length
        · have := left_end (n := 0) ms hend
          simp only [Nat.zero_add] at this
          simp only [if_pos hend, this, left_zero hne', lastRv, if_true]
        · simp only [if_neg hend, left_mid ms (show pos + 1 < m.length by omega), lastRv, if_true]
      · rw [tries_pos hr] at hn
        by_cases hend : pos + 1 = m.length
        · obtain ⟨l, h1, h2, h3⟩ := ih rs.tail (rs.headD 1)
            ⟨client, up, sem, topic, ms, 0, log ++ [.publish up topic c (rs.headD 1)]⟩ (tries k rs.tail) hne'
            (fun x xs hx => List.length_pos_iff.2 (hne' x (by simp only at hx; rw [hx]; exact List.mem_cons_self ..)))
            (fun _ => rfl) (by simp only; omega) (by rw [show ms.flatten.length - 0 = k by omega])
          refine ⟨.publish up topic c (rs.headD 1) :: l, ?_, ?_, ?_⟩
          · rw [hn]
            simp only [if_neg hr, if_pos hend, h1, lastRv_succ, left_end ms hend, Nat.zero_add, List.append_assoc,
              List.cons_append, List.nil_append]
          · rw [hn, published, List.take_succ_cons, h2, List.flatten_cons, hend, List.drop_left]
            rfl
          · intro x hx
            rcases List.mem_cons.1 hx with rfl | hx
            · exact ⟨c, _, rfl⟩
            · exact h3 x hx
        · obtain ⟨l, h1, h2, h3⟩ := ih rs.tail (rs.headD 1)
            ⟨client, up, sem, topic, m :: ms, pos + 1, log ++ [.publish up topic c (rs.headD 1)]⟩ (tries k rs.tail)
            hne (fun x xs hx => by cases hx; simp only; omega) (fun hx => nomatch hx) (by simp only; omega)
            (by rw [show (m :: ms).flatten.length - (pos + 1) = k by omega])
          refine ⟨.publish up topic c (rs.headD 1) :: l, ?_, ?_, ?_⟩
          · rw [hn, show pos + (tries k rs.tail + 1) = pos + 1 + tries k rs.tail by omega]
            simp only [if_neg hr, if_neg hend, h1, lastRv_succ, List.append_assoc, List.cons_append, List.nil_append]
          · rw [hn, published, List.take_succ_cons, h2]
          · intro x hx
            rcases List.mem_cons.1 hx with rfl | hx
            · exact ⟨c, _, rfl⟩
            · exact h3 x hx

theorem flatten_length (q : List (List Bytes)) : (q.map List.length).sum = q.flatten.length := by
  rw [List.length_flatten]

theorem left_subset (n : Nat) (q : List (List Bytes)) : ∀ m ∈ left n q, m ∈ q := by
  induction q generalizing n with
  | nil => intro m hm; exact hm
  | cons x xs ih =>
    intro m hm
    rw [left] at hm
    split at hm
    · exact List.mem_cons_of_mem _ (ih _ m hm)
    · exact hm

/-- What one call does if there is a client. -/
theorem sendChunks_eq (e : Env) (s s1 : St) (hc : createClient e s = (0, s1)) (hp : s1.pos = 0) (hne : ∀ m ∈ s1.queue, m ≠ []) :
    ∃ l, sendChunks e s = some { close e (buildTopic e s1) with
        queue := left (tries s1.queue.flatten.length e.publishes) s1.queue, pos := 0,
        log := s1.log ++ l ++ [.returned (lastRv 0 (tries s1.queue.flatten.length e.publishes) e.publishes)] } ∧
      published l = s1.queue.flatten.take (tries s1.queue.flatten.length e.publishes) ∧
      ∀ x ∈ l, ∃ c r, x = .publish s1.up (buildTopic e s1).topic c r := by
  have hb : (buildTopic e s1).queue = s1.queue ∧ (buildTopic e s1).pos = 0 ∧ (buildTopic e s1).up = s1.up ∧
      (buildTopic e s1).log = s1.log := by
    unfold buildTopic
    split
    · exact ⟨rfl, hp, rfl, rfl⟩
    · exact ⟨rfl, hp, rfl, rfl⟩
  obtain ⟨b1, b2, b3, b4⟩ := hb
  obtain ⟨l, h1, h2, h3⟩ := sendLoop_eq ((s1.queue.map List.length).sum + 1) e.publishes 0 (buildTopic e s1)
    (tries s1.queue.flatten.length e.publishes) (by rw [b1]; exact hne)
    (fun m ms h => by rw [b2]; rw [b1] at h; exact List.length_pos_iff.2 (hne m (by rw [h]; exact List.mem_cons_self ..)))
    (fun _ => b2) (by rw [b1, b2, flatten_length]; omega) (by rw [b1, b2]; rfl)
  rw [b1, b2, List.drop_zero] at h2
  rw [b3] at h3
  refine ⟨l, ?_, h2, h3⟩
  simp only [sendChunks, hc, b1, h1, b2, b4]
  simp [close]

theorem prefix_length : "memfault/my_project/".toList.length = 20 := by decide

theorem take_topic (p x q : List Char) : (p ++ x ++ q).take 127 = p ++ x ++ q ↔ p.length + x.length + q.length ≤ 127 := by
  constructor
  · intro h
    have := congrArg List.length h
    simp only [List.length_take, List.length_append] at this
    omega
  · intro h
    exact List.take_of_length_le (by simp only [List.length_append]; omega)

theorem topic_pos (p x q : List Char) (h : p.length = 20) : (p ++ x ++ q).length > 0 := by
  simp only [List.length_append]
  omega

theorem suffix_length : "/chunks".toList.length = 7 := by decide

theorem run_append (s : St) (as bs : List Action) :
    run s (as ++ bs) = (run s as).bind fun t => run t bs := by
  induction as generalizing s with
  | nil => rfl
  | cons a as ih =>
    simp only [List.cons_append, run]
    cases step s a with
    | none => rfl
    | some t => exact ih t

/-- Making a client: it fails and leaves the queue and the log alone, or it does not. -/
theorem create_cases (e : Env) (s : St) : ∃ s1 rv, createClient e s = (rv, s1) ∧ (rv = 0 ∨ rv = -1) ∧
    s1.queue = s.queue ∧ s1.pos = s.pos ∧ s1.log = s.log ∧ s1.topic = s.topic := by
  unfold createClient
  split
  · exact ⟨_, _, rfl, .inl rfl, rfl, rfl, rfl, rfl⟩
  split
  · exact ⟨_, _, rfl, .inr rfl, rfl, rfl, rfl, rfl⟩
  dsimp only
  split
  · exact ⟨_, _, rfl, .inr rfl, rfl, rfl, rfl, rfl⟩
  split
  · exact ⟨_, _, rfl, .inl rfl, rfl, rfl, rfl, rfl⟩
  split
  · exact ⟨_, _, rfl, .inl rfl, rfl, rfl, rfl, rfl⟩
  · exact ⟨_, _, rfl, .inr rfl, rfl, rfl, rfl, rfl⟩

structure Idle (s : St) : Prop where
  pos : s.pos = 0
  ne : ∀ m ∈ s.queue, m ≠ []

theorem inv_step {s t : St} {a : Action} (hi : Idle s) (ha : ∀ m, a = .message m → m ≠ []) (h : step s a = some t) : Idle t := by
  cases a with
  | message m =>
    cases h
    refine ⟨hi.pos, fun x hx => ?_⟩
    rcases List.mem_append.1 hx with hx | hx
    · exact hi.ne x hx
    · rw [List.mem_singleton.1 hx]; exact ha m rfl
  | send e =>
    obtain ⟨s1, rv, h1, hrv, hq, hp, hl, -⟩ := create_cases e s
    rcases hrv with rfl | rfl
    · obtain ⟨l, h2, -, -⟩ := sendChunks_eq e s s1 h1 (by rw [hp, hi.pos]) (by rw [hq]; exact hi.ne)
      rw [step, h2] at h
      cases h
      exact ⟨rfl, fun m hm => hi.ne m (by rw [← hq]; exact left_subset _ _ m hm)⟩
    · simp only [step, sendChunks, h1] at h
      cases h
      exact ⟨by rw [← hi.pos]; exact hp, fun m hm => hi.ne m (by rw [← hq]; exact hm)⟩

theorem inv_run {as : List Action} {s : St} (h : run fresh as = some s) (hne : ∀ m, Action.message m ∈ as → m ≠ []) : Idle s := by
  suffices hs : ∀ as t, run t as = some s → (∀ m, Action.message m ∈ as → m ≠ []) → Idle t → Idle s from
    hs as fresh h hne ⟨rfl, fun m hm => nomatch hm⟩
  intro as
  induction as with
  | nil => intro t ht _ hi; cases ht; exact hi
  | cons a as ih =>
    intro t ht hne hi
    simp only [run, Option.bind_eq_some_iff] at ht
    obtain ⟨u, hu, ht⟩ := ht
    exact ih u ht (fun m hm => hne m (List.mem_cons_of_mem _ hm))
      (inv_step hi (fun m hm => hne m (by rw [hm]; exact List.mem_cons_self ..)) hu)

theorem tries_le (n : Nat) : ∀ rs, tries n rs ≤ n := by
  induction n with
  | zero => intro rs; exact Nat.le_refl _
  | succ n ih =>
    intro rs
    cases rs with
    | nil => exact Nat.le_refl _
    | cons r rs =>
      simp only [tries]
      split
      · omega
      · have := ih rs; omega

theorem tries_all (n : Nat) : ∀ rs : List Int, (∀ r ∈ rs, 0 ≤ r) → tries n rs = n := by
  induction n with
  | zero => intro rs _; rfl
  | succ n ih =>
    intro rs h
    cases rs with
    | nil => rfl
    | cons r rs =>
      have := h r (List.mem_cons_self ..)
      simp only [tries, if_neg (show ¬ r < 0 by omega), ih rs fun x hx => h x (List.mem_cons_of_mem _ hx)]

theorem left_all (q : List (List Bytes)) : left q.flatten.length q = [] := by
  induction q with
  | nil => rfl
  | cons m ms ih =>
    rw [left, if_pos (by simp), ← ih]
    congr 1
    simp

theorem left_split (q : List (List Bytes)) : ∀ n, ∃ gone, q = gone ++ left n q ∧ gone.flatten.length ≤ n := by
  induction q with
  | nil => intro n; exact ⟨[], rfl, by simp⟩
  | cons m ms ih =>
    intro n
    rw [left]
    split
    · rename_i h
      obtain ⟨g, h1, h2⟩ := ih (n - m.length)
      refine ⟨m :: g, ?_, ?_⟩
      · rw [List.cons_append, ← h1]
      · simp only [List.flatten_cons, List.length_append]; omega
    · exact ⟨[], rfl, by simp⟩

theorem lastRv_neg (n : Nat) : ∀ (rv : Int) (rs : List Int), 0 ≤ rv →
    (lastRv rv (tries n rs) rs < 0 ↔ ∃ i r, i < n ∧ rs[i]? = some r ∧ r < 0) := by
  induction n with
  | zero => intro rv rs h; simp [tries, lastRv]; omega
  | succ n ih =>
    intro rv rs h
    by_cases hr : rs.headD 1 < 0
    · rw [tries_neg hr]
      cases rs with
      | nil => exact absurd hr (by decide)
      | cons r rs => exact ⟨fun _ => ⟨0, r, by omega, rfl, hr⟩, fun _ => hr⟩
    · rw [tries_pos hr, lastRv_succ, ih _ _ (by omega)]
      constructor
      · rintro ⟨i, r, h1, h2, h3⟩
        refine ⟨i + 1, r, by omega, ?_, h3⟩
        cases rs with
        | nil => simp at h2
        | cons x rs => exact h2
      · rintro ⟨i, r, h1, h2, h3⟩
        cases rs with
        | nil => simp at h2
        | cons x rs =>
          cases i with
          | zero => cases h2; exact absurd h3 hr
          | succ i => exact ⟨i, r, by omega, h2, h3⟩

end MqttAux

open MqttAux

/-- **C117 (total).** Every history of messages and calls is defined: each call ends. -/
theorem C117_total (as : List Action) (hne : ∀ m, Action.message m ∈ as → m ≠ []) : ∃ s, run fresh as = some s := by
  suffices hs : ∀ t, Idle t → ∃ s, run t as = some s from hs fresh ⟨rfl, fun m hm => nomatch hm⟩
  induction as with
  | nil => intro t _; exact ⟨t, rfl⟩
  | cons a as ih =>
    intro t hi
    have hu : ∃ u, step t a = some u := by
      cases a with
      | message m => exact ⟨_, rfl⟩
      | send e =>
        obtain ⟨s1, rv, h1, hrv, hq, hp, -, -⟩ := create_cases e t
        rcases hrv with rfl | rfl
        · obtain ⟨l, h2, -, -⟩ := sendChunks_eq e t s1 h1 (by rw [hp, hi.pos]) (by rw [hq]; exact hi.ne)
          exact ⟨_, h2⟩
        · exact ⟨_, by simp only [step, sendChunks, h1]; rfl⟩
    obtain ⟨u, hu⟩ := hu
    simp only [run, hu, Option.bind_some]
    exact ih (fun m hm => hne m (List.mem_cons_of_mem _ hm)) u
      (inv_step hi (fun m hm => hne m (by rw [hm]; exact List.mem_cons_self ..)) hu)

/-- **C117 (a call).** After any history: either there is no client, the result is -1 and all messages are kept, or the
chunks of the messages are handed over in order up to the first that is refused, the messages whose last chunk was taken
are gone, and the result is that of the last publish, or 0 if there was nothing to send. -/
theorem C117_send (as : List Action) (s : St) (h : run fresh as = some s) (hne : ∀ m, Action.message m ∈ as → m ≠ []) (e : Env) :
    ∃ t l, step s (.send e) = some t ∧ t.log = s.log ++ l ∧
      ((l = [.returned (-1)] ∧ t.queue = s.queue) ∨
        ∃ n, n = tries s.queue.flatten.length e.publishes ∧ published l = s.queue.flatten.take n ∧
          t.queue = left n s.queue ∧
          l.getLast? = some (.returned (if n = 0 then 0 else e.publishes.getD (n - 1) 1))) := by
  have hi := inv_run h hne
  obtain ⟨s1, rv, h1, hrv, hq, hp, hl, -⟩ := create_cases e s
  rcases hrv with rfl | rfl
  · obtain ⟨l, h2, h3, -⟩ := sendChunks_eq e s s1 h1 (by rw [hp, hi.pos]) (by rw [hq]; exact hi.ne)
    rw [hq, hl] at h2
    rw [hq] at h3
    refine ⟨_, l ++ [.returned _], h2, List.append_assoc .., .inr ⟨_, rfl, ?_, rfl, ?_⟩⟩
    · rw [published_append, h3]; simp [published]
    · rw [List.getLast?_concat]; rfl
  · exact ⟨_, [.returned (-1)], by simp only [step, sendChunks, h1]; rfl, by simp [hl], .inl ⟨rfl, by simp [hq]⟩⟩

/-- Two messages, of two chunks and of one; the third publish fails. -/
example : (run fresh [.message [[1], [2]], .message [[3]], .send ⟨true, 0, 0, true, [5, 6, -1], false, ['x']⟩]).map
    (fun s => (s.queue, published s.log, s.log.getLast?)) = some ([], [[1], [2], [3]], some (.returned (-1))) := by decide +kernel

/-- **C117 (nothing skipped).** A message that is no longer there has been handed over completely, in the call that
removed it. -/
theorem C117_kept (as : List Action) (s : St) (h : run fresh as = some s) (hne : ∀ m, Action.message m ∈ as → m ≠ []) (e : Env) :
    ∃ t l gone, step s (.send e) = some t ∧ t.log = s.log ++ l ∧ s.queue = gone ++ t.queue ∧
      gone.flatten <+: published l := by
  obtain ⟨t, l, h1, h2, h3⟩ := C117_send as s h hne e
  rcases h3 with ⟨h3, h4⟩ | ⟨n, -, h3, h4, -⟩
  · exact ⟨t, l, [], h1, h2, by simp [h4], by simp⟩
  · obtain ⟨g, h5, h6⟩ := left_split s.queue n
    refine ⟨t, l, g, h1, h2, by rw [h4]; exact h5, ?_⟩
    rw [h3]
    rw [List.prefix_take_iff]
    exact ⟨by conv => rhs; rw [h5]
              rw [List.flatten_append]; exact List.prefix_append .., h6⟩

/-- **C117 (exactly once).** As long as no publish fails, the chunks handed over so far and those of the messages that
are left are together the chunks of all messages, in order. Missing: publishes that fail (`C117_false_lost`). -/
theorem C117_once_partial (as : List Action) (s : St) (h : run fresh as = some s) (hne : ∀ m, Action.message m ∈ as → m ≠ [])
    (hok : ∀ e, Action.send e ∈ as → ∀ r ∈ e.publishes, 0 ≤ r) :
    published s.log ++ s.queue.flatten =
      (as.filterMap fun a => match a with | .message m => some m | .send _ => none).flatten := by
  suffices hs : ∀ as t, run t as = some s → (∀ m, Action.message m ∈ as → m ≠ []) →
      (∀ e, Action.send e ∈ as → ∀ r ∈ e.publishes, 0 ≤ r) → Idle t →
      published s.log ++ s.queue.flatten = published t.log ++ t.queue.flatten ++
        (as.filterMap fun a => match a with | .message m => some m | .send _ => none).flatten by
    have := hs as fresh h hne hok ⟨rfl, fun m hm => nomatch hm⟩
    simpa [fresh, published] using this
  intro as
  induction as with
  | nil => intro t ht _ _ _; cases ht; simp
  | cons a as ih =>
    intro t ht hne hok hi
    simp only [run, Option.bind_eq_some_iff] at ht
    obtain ⟨u, hu, ht⟩ := ht
    have hi' := inv_step hi (fun m hm => hne m (by rw [hm]; exact List.mem_cons_self ..)) hu
    rw [ih u ht (fun m hm => hne m (List.mem_cons_of_mem _ hm)) (fun e he => hok e (List.mem_cons_of_mem _ he)) hi']
    cases a with
    | message m =>
      cases hu
      simp
    | send e =>
      simp only [List.filterMap_cons]
      congr 1
      obtain ⟨s1, rv, h1, hrv, hq, hp, hl, -⟩ := create_cases e t
      rcases hrv with rfl | rfl
      · obtain ⟨l, h2, h3, -⟩ := sendChunks_eq e t s1 h1 (by rw [hp, hi.pos]) (by rw [hq]; exact hi.ne)
        rw [step, h2] at hu
        cases hu
        rw [tries_all _ _ (hok e (List.mem_cons_self ..))] at h3 ⊢
        simp only [published_append, h3, left_all, hl, hq, published, List.take_length]
        simp
      · simp only [step, sendChunks, h1] at hu
        cases hu
        simp [published_append, published, hl, hq]

/-- **C117 (lost).** If the publish of the last chunk of a message is refused, the message is gone. -/
theorem C117_false_lost : ∃ s, run fresh [.message [[1], [2]], .send ⟨true, 0, 0, true, [5, -1], false, ['x']⟩] = some s ∧
    s.queue = [] ∧ s.log = [.publish true (topic ['x']) [1] 5, .publish true (topic ['x']) [2] (-1), .returned (-1)] :=
  ⟨_, rfl, rfl, rfl⟩

/-- **C117 (result).** A negative result is a failure: there was no client or a publish was refused. Missing: success is
0, see `C117_false_result`. -/
theorem C117_result_partial (as : List Action) (s : St) (h : run fresh as = some s) (hne : ∀ m, Action.message m ∈ as → m ≠ [])
    (e : Env) : ∃ t rv, step s (.send e) = some t ∧ t.log.getLast? = some (.returned rv) ∧
      (rv < 0 ↔ (t.log = s.log ++ [.returned (-1)] ∧ t.queue = s.queue) ∨
        ∃ i r, i < s.queue.flatten.length ∧ e.publishes[i]? = some r ∧ r < 0) := by
  have hi := inv_run h hne
  obtain ⟨s1, rv, h1, hrv, hq, hp, hl, -⟩ := create_cases e s
  rcases hrv with rfl | rfl
  · obtain ⟨l, h2, h3, -⟩ := sendChunks_eq e s s1 h1 (by rw [hp, hi.pos]) (by rw [hq]; exact hi.ne)
    rw [hq, hl] at h2
    refine ⟨_, _, h2, List.getLast?_concat .., ?_⟩
    rw [lastRv_neg _ _ _ (Int.le_refl 0)]
    refine ⟨.inr, fun hx => ?_⟩
    rcases hx with ⟨hx, -⟩ | hx
    · rw [List.append_assoc, List.append_cancel_left_eq] at hx
      have h4 : l = [] := by
        have := congrArg List.length hx
        simp at this
        exact this
      rw [h4] at hx
      have h5 : lastRv 0 (tries s.queue.flatten.length e.publishes) e.publishes = -1 := by
        simpa using hx
      exact (lastRv_neg _ 0 _ (Int.le_refl 0)).1 (by rw [h5]; decide)
    · exact hx
  · exact ⟨_, -1, by simp only [step, sendChunks, h1]; rfl, by simp, by simp [hl, hq]⟩

/-- **C117 (result of a success).** It should be 0, but is the id of the last publish. -/
theorem C117_false_result : ∃ s, run fresh [.message [[1]], .send ⟨true, 0, 0, true, [7], false, ['x']⟩] = some s ∧
    s.queue = [] ∧ s.log = [.publish true (topic ['x']) [1] 7, .returned 7] := ⟨_, rfl, rfl, rfl⟩

/-- **C117 (connected).** If clients can always be started and the broker is not connected to again while a client is in
use or given up, chunks are only handed over while there is a connection. Missing: the other cases, see
`C117_false_start` and `C117_false_again`. -/
theorem C117_connected_partial (as : List Action) (s : St) (h : run fresh as = some s) (hne : ∀ m, Action.message m ∈ as → m ≠ [])
    (hok : ∀ e, Action.send e ∈ as → e.start = 0 ∧ e.again = false) :
    ∀ up t c r, Ev.publish up t c r ∈ s.log → up = true := by
  suffices hs : ∀ as t, run t as = some s → (∀ m, Action.message m ∈ as → m ≠ []) →
      (∀ e, Action.send e ∈ as → e.start = 0 ∧ e.again = false) → Idle t → t.client = false → t.sem = false →
      (∀ up tt c r, Ev.publish up tt c r ∈ t.log → up = true) → ∀ up tt c r, Ev.publish up tt c r ∈ s.log → up = true from
    hs as fresh h hne hok ⟨rfl, fun m hm => nomatch hm⟩ rfl rfl (fun up tt c r hm => nomatch hm)
  intro as
  induction as with
  | nil => intro t ht _ _ _ _ _ hl; cases ht; exact hl
  | cons a as ih =>
    intro t ht hne hok hi hcl hsem hl
    simp only [run, Option.bind_eq_some_iff] at ht
    obtain ⟨u, hu, ht⟩ := ht
    have hi' := inv_step hi (fun m hm => hne m (by rw [hm]; exact List.mem_cons_self ..)) hu
    have key : u.client = false ∧ u.sem = false ∧ ∀ up tt c r, Ev.publish up tt c r ∈ u.log → up = true := by
      cases a with
      | message m => cases hu; exact ⟨hcl, hsem, hl⟩
      | send e =>
        obtain ⟨hst, hag⟩ := hok e (List.mem_cons_self ..)
        have hcr : (∃ s1, createClient e t = (-1, s1) ∧ s1.client = false ∧ s1.sem = false ∧ s1.log = t.log) ∨
            ∃ s1, createClient e t = (0, s1) ∧ s1.up = true ∧ s1.sem = false ∧ s1.queue = t.queue ∧ s1.pos = t.pos ∧ s1.log = t.log := by
          unfold createClient
          simp only [hcl, hsem, hst]
          cases e.init
          · exact .inl ⟨_, rfl, rfl, rfl, rfl⟩
          · cases hcc : (e.connects && e.register == 0)
            · exact .inl ⟨_, rfl, rfl, by simp [close, hag], rfl⟩
            · exact .inr ⟨_, rfl, rfl, rfl, rfl, rfl, rfl⟩
        rcases hcr with ⟨s1, h1, h2, h3, h4⟩ | ⟨s1, h1, h2, h3, h4, h5, h6⟩
        · simp only [step, sendChunks, h1] at hu
          cases hu
          refine ⟨h2, h3, fun up tt c r hm => ?_⟩
          simp only [h4, List.mem_append, List.mem_singleton, reduceCtorEq, or_false] at hm
          exact hl up tt c r hm
        · obtain ⟨l, h7, -, h8⟩ := sendChunks_eq e t s1 h1 (by rw [h5, hi.pos]) (by rw [h4]; exact hi.ne)
          rw [step, h7] at hu
          cases hu
          have h9 : (buildTopic e s1).sem = false := by
            unfold buildTopic; split <;> exact h3
          refine ⟨rfl, by simp [close, hag, h9], fun up tt c r hm => ?_⟩
          simp only [List.mem_append, List.mem_singleton, reduceCtorEq, or_false] at hm
          rcases hm with hm | hm
          · rw [h6] at hm; exact hl up tt c r hm
          · obtain ⟨c', r', he⟩ := h8 _ hm
            cases he
            exact h2
    obtain ⟨k1, k2, k3⟩ := key
    exact ih u ht (fun m hm => hne m (List.mem_cons_of_mem _ hm)) (fun e he => hok e (List.mem_cons_of_mem _ he)) hi' k1 k2 k3

/-- The premises of `C117_connected_partial` are met by a call without a connection and one with it. -/
example : (run fresh [.message [[1]], .send ⟨true, 0, 0, false, [], false, ['x']⟩, .send ⟨true, 0, 0, true, [], false, ['x']⟩]).map
    St.log = some [.returned (-1), .publish true (topic ['x']) [1] 1, .returned 1] := by decide +kernel

/-- **C117 (failed start).** A client that could not be started is kept. The next call takes it for connected, hands the
message over without a connection and deletes it. -/
theorem C117_false_start : ∃ s, run fresh [.message [[1]], .send ⟨true, 0, -1, false, [], false, ['x']⟩,
      .send ⟨true, 0, 0, false, [], false, ['x']⟩] = some s ∧
    s.queue = [] ∧ s.log = [.returned (-1), .publish false (topic ['x']) [1] 1, .returned 1] := ⟨_, rfl, rfl, rfl⟩

/-- **C117 (connected again).** The broker is connected to again during a call, or just after the wait was given up: the
next call does not wait for its own connection. -/
theorem C117_false_again : ∃ s, run fresh [.message [[1]], .send ⟨true, 0, 0, true, [], true, ['x']⟩, .message [[2]],
      .send ⟨true, 0, 0, false, [], false, ['x']⟩] = some s ∧
    s.queue = [] ∧ s.log = [.publish true (topic ['x']) [1] 1, .returned 1, .publish false (topic ['x']) [2] 1, .returned 1] :=
  ⟨_, rfl, rfl, rfl⟩

/-- **C117 (topic).** Every chunk goes to the topic of the device, if its serial number has at most 100 characters.
Missing: longer ones, see `C117_false_topic`. -/
theorem C117_topic_partial (serial : List Char) (hs : serial.length ≤ 100) (as : List Action) (s : St) (h : run fresh as = some s)
    (hne : ∀ m, Action.message m ∈ as → m ≠ []) (hser : ∀ e, Action.send e ∈ as → e.serial = serial) :
    ∀ up t c r, Ev.publish up t c r ∈ s.log → t = topic serial := by
  suffices hs : ∀ as t, run t as = some s → (∀ m, Action.message m ∈ as → m ≠ []) →
      (∀ e, Action.send e ∈ as → e.serial = serial) → Idle t → (t.topic = [] ∨ t.topic = topic serial) →
      (∀ up tt c r, Ev.publish up tt c r ∈ t.log → tt = topic serial) →
      ∀ up tt c r, Ev.publish up tt c r ∈ s.log → tt = topic serial from
    hs as fresh h hne hser ⟨rfl, fun m hm => nomatch hm⟩ (.inl rfl) (fun up tt c r hm => nomatch hm)
  have hbuild : ∀ (e : Env) (t : St), e.serial = serial → (t.topic = [] ∨ t.topic = topic serial) →
      (buildTopic e t).topic = topic serial := by
    intro e t he ht
    unfold buildTopic
    rcases ht with ht | ht
    · rw [if_neg (by rw [ht]; decide), he]
      exact (take_topic _ _ _).2 (by rw [prefix_length, suffix_length]; omega)
    · rw [if_pos (by rw [ht]; exact topic_pos _ _ _ prefix_length)]
      exact ht
  intro as
  induction as with
  | nil => intro t ht _ _ _ _ hl; cases ht; exact hl
  | cons a as ih =>
    intro t ht hne hok hi htop hl
    simp only [run, Option.bind_eq_some_iff] at ht
    obtain ⟨u, hu, ht⟩ := ht
    have hi' := inv_step hi (fun m hm => hne m (by rw [hm]; exact List.mem_cons_self ..)) hu
    have key : (u.topic = [] ∨ u.topic = topic serial) ∧ ∀ up tt c r, Ev.publish up tt c r ∈ u.log → tt = topic serial := by
      cases a with
      | message m => cases hu; exact ⟨htop, hl⟩
      | send e =>
        obtain ⟨s1, rv, h1, hrv, hq, hp, hlog, htp⟩ := create_cases e t
        rcases hrv with rfl | rfl
        · obtain ⟨l, h7, -, h8⟩ := sendChunks_eq e t s1 h1 (by rw [hp, hi.pos]) (by rw [hq]; exact hi.ne)
          rw [step, h7] at hu
          cases hu
          have hb := hbuild e s1 (hok e (List.mem_cons_self ..)) (by rw [htp]; exact htop)
          refine ⟨.inr hb, fun up tt c r hm => ?_⟩
          simp only [List.mem_append, List.mem_singleton, reduceCtorEq, or_false] at hm
          rcases hm with hm | hm
          · rw [hlog] at hm; exact hl up tt c r hm
          · obtain ⟨c', r', he⟩ := h8 _ hm
            cases he
            exact hb
        · simp only [step, sendChunks, h1] at hu
          cases hu
          refine ⟨by rw [← htp] at htop; exact htop, fun up tt c r hm => ?_⟩
          simp only [hlog, List.mem_append, List.mem_singleton, reduceCtorEq, or_false] at hm
          exact hl up tt c r hm
    exact ih u ht (fun m hm => hne m (List.mem_cons_of_mem _ hm)) (fun e he => hok e (List.mem_cons_of_mem _ he)) hi' key.1 key.2

/-- **C117 (long serial numbers).** With a longer one the topic is cut: it does not end in `/chunks`. -/
theorem C117_false_topic (serial : List Char) (hs : 100 < serial.length) (e : Env) (he : e.serial = serial) :
    (buildTopic e fresh).topic ≠ topic serial := by
  intro h
  have h1 := (take_topic "memfault/my_project/".toList e.serial "/chunks".toList).1 (by rw [he]; rw [← he] at h ⊢; exact h)
  rw [prefix_length, suffix_length, he] at h1
  omega

end Mflt.Props
