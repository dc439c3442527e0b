import Verif.Model.CypressMqtt

/-!
# C136: the MQTT demo for the Cypress kit
-/

namespace Mflt.Props

open Mflt.Spec.CypressMqtt Mflt.CypressMqtt

namespace CypressMqttAux

variable {S : Type} {p : Packetizer S} {size : Nat}

theorem published_append (a b : List Ev) : published (a ++ b) = published a ++ published b := List.filterMap_append

theorem tries_append (a b : List Ev) : tries (a ++ b) = tries a + tries b := by
  unfold tries
  rw [List.filter_append, List.length_append]

theorem getChunk_none {s : S} (h : p.more s = false) (len : Nat) : getChunk p s len = (none, len) := by
  unfold getChunk
  rw [h, Bool.not_false, if_pos rfl]

theorem getChunk_short {s : S} (h : p.more s = true) {len : Nat} (hl : len < 9) : getChunk p s len = (none, 0) := by
  unfold getChunk
  rw [h, Bool.not_true, if_neg (by decide), if_pos hl]

theorem getChunk_some {s : S} (h : p.more s = true) {len : Nat} (hl : 9 ≤ len) :
    getChunk p s len = (some (p.chunk s len), (p.chunk s len).1.length) := by
  unfold getChunk
  rw [h, Bool.not_true, if_neg (by decide), if_neg (by omega)]

theorem finish_published (e s c : Bool) : published (finish e s c).1 = [] := by
  cases e <;> cases s <;> rfl

theorem finish_tries (e s c : Bool) : tries (finish e s c).1 = 0 := by
  cases e <;> cases s <;> rfl

theorem finish_fail (e c : Bool) : (finish e false c).2 = false := rfl

/-- Nothing fails: all chunks are published, and the length is as at first. -/
theorem send_good (h9 : 9 ≤ size) : ∀ (outs : List Bool) (s : S) (r : List Ev × S × Nat × Bool), (∀ o ∈ outs, o = true) →
    sendAll p size outs s size = some r →
      ∃ cs, Drains p size s cs ∧ published r.1 = cs.map (fun c => (c, true)) ∧ p.more r.2.1 = false ∧ r.2.2.1 = size ∧
        r.2.2.2 = true := by
  intro outs
  induction outs with
  | nil =>
    intro s r _ h
    cases hm : p.more s with
    | false =>
      rw [sendAll, getChunk_none hm] at h
      injection h with h
      subst h
      exact ⟨[], .nil hm, rfl, hm, rfl, rfl⟩
    | true =>
      rw [sendAll, getChunk_some hm h9] at h
      exact nomatch h
  | cons o outs ih =>
    intro s r ho h
    cases hm : p.more s with
    | false =>
      rw [sendAll, getChunk_none hm] at h
      injection h with h
      subst h
      exact ⟨[], .nil hm, rfl, hm, rfl, rfl⟩
    | true =>
      rw [sendAll, getChunk_some hm h9, ho o (List.mem_cons_self ..)] at h
      simp only [if_true] at h
      obtain ⟨q, hq, rfl⟩ := Option.map_eq_some_iff.1 h
      obtain ⟨cs, h1, h2, h3, h4, h5⟩ := ih _ q (fun o' ho' => ho o' (List.mem_cons_of_mem _ ho')) hq
      refine ⟨_, .cons hm h1, ?_, h3, h4, h5⟩
      show ((p.chunk s size).1, true) :: published q.1 = _
      rw [h2]
      rfl

/-- Whatever happens: the chunks follow each other. -/
theorem send_follows (h9 : 9 ≤ size) (hc : ∀ s n, (p.chunk s n).1.length ≤ n) : ∀ (outs : List Bool) (s : S) (len : Nat)
    (r : List Ev × S × Nat × Bool), len ≤ size → sendAll p size outs s len = some r →
      r.2.2.1 ≤ size ∧ tries r.1 = 0 ∧
        ∀ rest, Follows p size r.2.1 rest → Follows p size s ((published r.1).map Prod.fst ++ rest) := by
  intro outs
  have dry : ∀ (s : S) (len l : Nat) (r : List Ev × S × Nat × Bool), l ≤ size → some (([], s, l, true) : List Ev × S × Nat × Bool) = some r →
      r.2.2.1 ≤ size ∧ tries r.1 = 0 ∧
        ∀ rest, Follows p size r.2.1 rest → Follows p size s ((published r.1).map Prod.fst ++ rest) := by
    intro s len l r hl h
    injection h with h
    subst h
    exact ⟨hl, rfl, fun rest hr => hr⟩
  induction outs with
  | nil =>
    intro s len r hl h
    rw [sendAll] at h
    cases hm : p.more s with
    | false => rw [getChunk_none hm] at h; exact dry s len len r hl h
    | true =>
      by_cases h9' : len < 9
      · rw [getChunk_short hm h9'] at h; exact dry s len 0 r (Nat.zero_le _) h
      · rw [getChunk_some hm (by omega)] at h; exact nomatch h
  | cons o outs ih =>
    intro s len r hl h
    rw [sendAll] at h
    cases hm : p.more s with
    | false => rw [getChunk_none hm] at h; exact dry s len len r hl h
    | true =>
      by_cases h9' : len < 9
      · rw [getChunk_short hm h9'] at h; exact dry s len 0 r (Nat.zero_le _) h
      · rw [getChunk_some hm (by omega)] at h
        cases o with
        | false =>
          injection h with h
          subst h
          refine ⟨Nat.le_trans (hc s len) hl, rfl, fun rest hr => ?_⟩
          exact .cons (by omega) hl hm hr
        | true =>
          simp only [if_true] at h
          obtain ⟨q, hq, rfl⟩ := Option.map_eq_some_iff.1 h
          obtain ⟨h1, h2, h3⟩ := ih _ size q (Nat.le_refl _) hq
          exact ⟨h1, h2, fun rest hr => .cons (by omega) hl hm (h3 rest hr)⟩

/-- A round with a connection. -/
theorem round_up {a : Round} {st : St S} {r : List Ev × St S × Bool} (h : round p size a st = some r) (hu : (a.tls && a.mqtt) = true) :
    ∃ q, sendAll p size a.publishes st.source st.len = some q ∧ published r.1 = published q.1 ∧ tries r.1 = 1 + tries q.1 ∧
      r.2.1.source = q.2.1 ∧ r.2.1.len = q.2.2.1 ∧ (r.2.2 = true → q.2.2.2 = true) := by
  unfold round at h
  simp only [hu, if_true] at h
  obtain ⟨q, hq, rfl⟩ := Option.map_eq_some_iff.1 h
  refine ⟨q, hq, ?_, ?_, rfl, rfl, ?_⟩
  · show published (q.1 ++ _) = _
    rw [published_append, finish_published, List.append_nil]
  · show tries ([Ev.connect true] ++ (q.1 ++ _)) = _
    rw [tries_append, tries_append, finish_tries]
    rfl
  · intro hf
    exact (Bool.and_eq_true_iff.1 hf).1

/-- A round without one. -/
theorem round_down {a : Round} {st : St S} {r : List Ev × St S × Bool} (h : round p size a st = some r)
    (hu : (a.tls && a.mqtt) = false) :
    published r.1 = [] ∧ tries r.1 = 1 ∧ r.2.1.source = st.source ∧ r.2.1.len = st.len ∧ r.2.2 = false := by
  unfold round at h
  simp only [hu, Bool.false_eq_true, if_false] at h
  injection h with h
  subst h
  refine ⟨?_, ?_, rfl, rfl, rfl⟩
  · show published (finish _ _ _).1 = _
    rw [finish_published]
  · show tries ([Ev.connect a.tls] ++ (finish _ _ _).1) = _
    rw [tries_append, finish_tries]
    rfl

theorem run_good (h9 : 9 ≤ size) : ∀ (script : List Round) (st : St S) (n : Nat) (evs : List Ev), st.len = size →
    (∀ a ∈ script, ∀ o ∈ a.publishes, o = true) → run p size script st n = some (evs, true) →
      ∃ cs, Drains p size st.source cs ∧ published evs = cs.map fun c => (c, true) := by
  intro script
  induction script with
  | nil => intro st n evs _ _ h; exact nomatch h
  | cons a l ih =>
    intro st n evs hl ho h
    rw [run] at h
    obtain ⟨r, hr, h⟩ := Option.bind_eq_some_iff.1 h
    cases hu : a.tls && a.mqtt with
    | true =>
      obtain ⟨q, hq, h1, h2, h3, h4, h5⟩ := round_up hr hu
      rw [hl] at hq
      obtain ⟨cs, g1, g2, g3, g4, g5⟩ := send_good h9 _ _ q (ho a (List.mem_cons_self ..)) hq
      split at h
      · injection h with h
        injection h with h _
        subst h
        exact ⟨cs, g1, by rw [h1, g2]⟩
      · split at h
        · injection h with h
          injection h with _ h
          exact nomatch h
        · obtain ⟨v, hv, e⟩ := Option.map_eq_some_iff.1 h
          injection e with e1 e2
          obtain ⟨ds, d1, d2⟩ := ih r.2.1 (n + 1) v.1 (h4.trans g4) (fun b hb => ho b (List.mem_cons_of_mem _ hb))
            (by rw [hv, ← e2])
          rw [h3] at d1
          have hd : ds = [] := by
            cases d1 with
            | nil _ => rfl
            | cons hm _ => rw [g3] at hm; exact nomatch hm
          refine ⟨cs, g1, ?_⟩
          rw [← e1, published_append, h1, g2, d2, hd]
          simp
    | false =>
      obtain ⟨h1, h2, h3, h4, h5⟩ := round_down hr hu
      rw [h5, if_neg (by decide)] at h
      split at h
      · injection h with h
        injection h with _ h
        exact nomatch h
      · obtain ⟨v, hv, e⟩ := Option.map_eq_some_iff.1 h
        injection e with e1 e2
        obtain ⟨ds, d1, d2⟩ := ih r.2.1 (n + 1) v.1 (h4.trans hl) (fun b hb => ho b (List.mem_cons_of_mem _ hb))
          (by rw [hv, ← e2])
        rw [h3] at d1
        refine ⟨ds, d1, ?_⟩
        rw [← e1, published_append, h1, d2]
        rfl

theorem run_follows (h9 : 9 ≤ size) (hc : ∀ s n, (p.chunk s n).1.length ≤ n) : ∀ (script : List Round) (st : St S) (n : Nat)
    (x : List Ev × Bool), st.len ≤ size → n ≤ 3 → run p size script st n = some x →
      Follows p size st.source ((published x.1).map Prod.fst) ∧ tries x.1 + n ≤ 4 := by
  intro script
  induction script with
  | nil => intro st n x _ _ h; exact nomatch h
  | cons a l ih =>
    intro st n x hl hn h
    rw [run] at h
    obtain ⟨r, hr, h⟩ := Option.bind_eq_some_iff.1 h
    obtain ⟨g1, g2, g3⟩ : tries r.1 = 1 ∧ r.2.1.len ≤ size ∧
        ∀ rest, Follows p size r.2.1.source rest → Follows p size st.source ((published r.1).map Prod.fst ++ rest) := by
      cases hu : a.tls && a.mqtt with
      | true =>
        obtain ⟨q, hq, h1, h2, h3, h4, _⟩ := round_up hr hu
        obtain ⟨k1, k2, k3⟩ := send_follows h9 hc _ _ _ q hl hq
        exact ⟨by rw [h2, k2], by rw [h4]; exact k1, fun rest hrest => by rw [h1]; exact k3 rest (h3 ▸ hrest)⟩
      | false =>
        obtain ⟨h1, h2, h3, h4, _⟩ := round_down hr hu
        exact ⟨h2, by rw [h4]; exact hl, fun rest hrest => by rw [h1]; exact h3 ▸ hrest⟩
    have g4 := g3 [] .nil
    rw [List.append_nil] at g4
    split at h
    · injection h with h
      subst h
      exact ⟨g4, by rw [show tries r.1 = 1 from g1]; omega⟩
    · split at h
      · injection h with h
        subst h
        exact ⟨g4, by rw [show tries r.1 = 1 from g1]; omega⟩
      · obtain ⟨v, hv, rfl⟩ := Option.map_eq_some_iff.1 h
        obtain ⟨i1, i2⟩ := ih r.2.1 (n + 1) v g2 (by omega) hv
        show Follows p size st.source ((published (r.1 ++ v.1)).map Prod.fst) ∧ tries (r.1 ++ v.1) + n ≤ 4
        rw [published_append, List.map_append, tries_append, g1]
        exact ⟨g3 _ i1, by omega⟩

end CypressMqttAux

open CypressMqttAux

/-- C136. However often connecting and closing fail: if the demo is successful and no publishing failed, it published all chunks
that were there, in order and each once. Missing: when publishing fails (`C136_false_lost`, `C136_false_success`). -/
theorem C136_all_partial {S : Type} (p : Packetizer S) (size : Nat) (h9 : 9 ≤ size) (script : List Round) (source : S) (evs : List Ev)
    (ho : ∀ a ∈ script, ∀ o ∈ a.publishes, o = true) (h : demo p size script source = some (evs, true)) :
    ∃ cs, Drains p size source cs ∧ published evs = cs.map fun c => (c, true) :=
  run_good h9 script ⟨source, size, false⟩ 0 evs rfl ho h

/-- C136. Whatever fails: what is published are chunks that follow each other, each once, for buffers of at most the size of the one
that is there. -/
theorem C136_once {S : Type} (p : Packetizer S) (size : Nat) (h9 : 9 ≤ size) (hc : ∀ s n, (p.chunk s n).1.length ≤ n)
    (script : List Round) (source : S) (evs : List Ev) (ok : Bool) (h : demo p size script source = some (evs, ok)) :
    Follows p size source ((published evs).map Prod.fst) :=
  (run_follows h9 hc script ⟨source, size, false⟩ 0 (evs, ok) (Nat.le_refl _) (by omega) h).1

/-- C136. Whatever fails: a connection is tried at most four times. -/
theorem C136_tries {S : Type} (p : Packetizer S) (size : Nat) (h9 : 9 ≤ size) (hc : ∀ s n, (p.chunk s n).1.length ≤ n)
    (script : List Round) (source : S) (evs : List Ev) (ok : Bool) (h : demo p size script source = some (evs, ok)) :
    tries evs ≤ 4 :=
  (run_follows h9 hc script ⟨source, size, false⟩ 0 (evs, ok) (Nat.le_refl _) (by omega) h).2

namespace CypressMqttAux

/-- Messages that are sent in chunks of up to the size of the buffer. -/
def sample : Packetizer (List Bytes) where
  more s := !s.isEmpty
  chunk s n :=
    match s with
    | [] => ([], [])
    | m :: rest => (m.take n, if m.length ≤ n then rest else m.drop n :: rest)

end CypressMqttAux

example : demo sample 10 [⟨false, false, [], true⟩, ⟨true, false, [], true⟩, ⟨true, true, [true, true, true], true⟩]
    [List.replicate 12 1, [2, 3]] = some ([.connect false, .connect true, .close, .connect true, .publish (List.replicate 10 1) true,
      .publish [1, 1] true, .publish [2, 3] true, .disconnect, .close], true) := by decide +kernel

/-- C136 is false if publishing fails: the chunk is lost although the demo goes on and is successful. -/
theorem C136_false_lost : ∃ (m : Bytes) (n : Bytes), m ≠ n ∧
    demo sample 10 [⟨true, true, [false], true⟩, ⟨true, true, [true], true⟩] [m, n] = some
      ([.connect true, .publish m false, .close, .connect true, .publish n true, .disconnect, .close], true) :=
  ⟨List.replicate 10 1, List.replicate 9 2, by decide, by decide +kernel⟩

/-- C136 is false if publishing a chunk of less than nine bytes fails: the demo is successful at once, with nothing sent. -/
theorem C136_false_success : ∃ m n : Bytes,
    demo sample 10 [⟨true, true, [false], true⟩, ⟨true, true, [], true⟩] [m, n] = some
      ([.connect true, .publish m false, .close, .connect true, .disconnect, .close], true) :=
  ⟨[1, 2], [3, 4], by decide +kernel⟩

/-- C136: after one connection, each round closes one, also if none was made. -/
theorem C136_false_close : ∃ evs, demo sample 10 [⟨true, false, [], true⟩, ⟨false, false, [], true⟩, ⟨false, false, [], true⟩,
    ⟨false, false, [], true⟩] [] = some (evs, false) ∧
    evs = [.connect true, .close, .connect false, .close, .connect false, .close, .connect false, .close] :=
  ⟨_, rfl, by decide +kernel⟩

end Mflt.Props
