import Verif.Spec.DeviceSerial

/-!
# Serial numbers of the Zephyr and ESP-IDF ports, whoever asks and whenever (C101)
-/

namespace Mflt.Props

open Mflt.DeviceSerial (Port Op World Job Source start run step body reads snprintf size setJob isFree digit)
open Spec.DeviceSerial (serial digits fits told quiet)

private theorem digit_eq (port : Port) (n : Nat) (h : n < 16) :
    digit port n = (digits port).getD n 0 ∧ digit port n ≠ 0 := by
  have h0 : ∀ p : Port, ∀ n : Fin 16, digit p n = (digits p).getD n 0 ∧ digit p n ≠ 0 := by
    intro p; cases p <;> decide
  exact h0 port ⟨n, h⟩

private theorem serial_get (port : Port) : ∀ (id : Bytes) (i : Nat) (b : UInt8), id[i]? = some b →
    (serial port id)[2 * i]? = some ((digits port).getD (b.toNat / 16) 0) ∧
    (serial port id)[2 * i + 1]? = some ((digits port).getD (b.toNat % 16) 0) := by
  intro id
  induction id with
  | nil => intro i b h; simp at h
  | cons x id ih =>
    intro i b h
    cases i with
    | zero =>
      simp only [List.getElem?_cons_zero, Option.some.injEq] at h
      subst h
      exact ⟨rfl, rfl⟩
    | succ i =>
      simp only [List.getElem?_cons_succ] at h
      have := ih i b h
      exact this

private theorem serial_length (port : Port) (id : Bytes) : (serial port id).length = 2 * id.length := by
  induction id with
  | nil => rfl
  | cons x id ih =>
    simp only [serial, List.flatMap_cons, List.length_append, List.length_cons, List.length_nil] at ih ⊢
    omega

private theorem serial_ne_zero (port : Port) (id : Bytes) : ∀ b ∈ serial port id, b ≠ 0 := by
  intro b hb
  simp only [serial, List.mem_flatMap, List.mem_cons, List.not_mem_nil, or_false] at hb
  obtain ⟨x, -, hx⟩ := hb
  have hlt := x.toNat_lt
  rcases hx with rfl | rfl
  · rw [← (digit_eq port _ (by omega)).1]; exact (digit_eq port _ (by omega)).2
  · rw [← (digit_eq port _ (by omega)).1]; exact (digit_eq port _ (by omega)).2

private theorem fits_size {port : Port} {id : Bytes} (h : fits port id) : 2 * id.length < size port ∧ 0 < id.length := by
  cases port with
  | zephyr =>
    obtain ⟨h1, h2⟩ := h
    simp only [size]; omega
  | espIdf =>
    have h1 : id.length = 6 := h
    simp only [size]; omega

private theorem splice_get (buf : Bytes) (a : Nat) (x y z : UInt8) (h : a + 3 ≤ buf.length) (p : Nat) :
    (buf.take a ++ [x, y, z] ++ buf.drop (a + 3))[p]? =
      if p = a then some x else if p = a + 1 then some y else if p = a + 2 then some z else buf[p]? := by
  have hl : (buf.take a).length = a := by rw [List.length_take]; omega
  rw [List.append_assoc, List.getElem?_append]
  by_cases h1 : p < a
  · rw [if_pos (by omega), List.getElem?_take_of_lt h1, if_neg (by omega), if_neg (by omega), if_neg (by omega)]
  · rw [if_neg (by omega), hl, List.getElem?_append]
    by_cases h2 : p = a
    · subst h2
      simp
    · by_cases h3 : p = a + 1
      · subst h3
        rw [if_pos (by simp), show a + 1 - a = 1 by omega]
        simp
      · by_cases h4 : p = a + 2
        · subst h4
          rw [if_pos (by simp), show a + 2 - a = 2 by omega]
          simp
        · rw [if_neg (by simp; omega), if_neg h2, if_neg h3, if_neg h4, List.getElem?_drop]
          congr 1
          simp only [List.length_cons, List.length_nil]
          omega

private theorem body_eq {port : Port} {id buf : Bytes} (hf : fits port id) (hl : buf.length = size port) {i : Nat}
    (hi : i < id.length) : ∃ buf', body port id buf i = some (buf', true) ∧ buf'.length = size port ∧
      (∀ p, buf'[p]? = if p = 2 * i ∨ p = 2 * i + 1 then (serial port id)[p]? else if p = 2 * i + 2 then some 0
        else buf[p]?) := by
  obtain ⟨b, hb⟩ : ∃ b, id[i]? = some b := ⟨_, List.getElem?_eq_getElem hi⟩
  have hsz := fits_size hf
  obtain ⟨s1, s2⟩ := serial_get port id i b hb
  have hlt := b.toNat_lt
  have d1 := (digit_eq port (b.toNat / 16) (by omega)).1
  have d2 := (digit_eq port (b.toNat % 16) (by omega)).1
  have key : ∀ room, 3 ≤ room → snprintf port buf (2 * i) room b =
      some (buf.take (2 * i) ++ [digit port (b.toNat / 16), digit port (b.toNat % 16), 0] ++ buf.drop (2 * i + 3)) := by
    intro room hr
    unfold snprintf
    rw [List.take_of_length_le (by simp; omega)]
    simp only [List.cons_append, List.nil_append, List.length_cons, List.length_nil]
    rw [if_neg (by omega), if_pos (by omega)]
  refine ⟨buf.take (2 * i) ++ [digit port (b.toNat / 16), digit port (b.toNat % 16), 0] ++ buf.drop (2 * i + 3), ?_, ?_, ?_⟩
  · unfold body
    rw [hb]
    cases port with
    | zephyr =>
      simp only [Option.bind_some]
      rw [key _ (by simp only [size]; omega)]
      rfl
    | espIdf =>
      have h6 : id.length = 6 := hf
      simp only [Option.bind_some]
      rw [key _ (by simp only [size]; omega), Option.map_some]
      rw [decide_eq_true (by simp only [size]; omega)]
  · simp only [List.length_append, List.length_take, List.length_drop, List.length_cons, List.length_nil]
    omega
  · intro p
    rw [splice_get _ _ _ _ _ (by omega)]
    by_cases h1 : p = 2 * i
    · rw [if_pos h1, if_pos (.inl h1), h1, s1, d1]
    · by_cases h2 : p = 2 * i + 1
      · rw [if_neg h1, if_pos h2, if_pos (.inr h2), h2, s2, d2]
      · rw [if_neg h1, if_neg h2, if_neg (show ¬ (p = 2 * i ∨ p = 2 * i + 1) by omega)]

/-- The invariant: every byte of the buffer is the right one or 0, and 0 only if somebody is going to write it. -/
private structure Good (port : Port) (id : Bytes) (w : World) : Prop where
  len : w.buf.length = size port
  tail : ∀ p, 2 * id.length ≤ p → p < size port → w.buf[p]? = some 0
  right : ∀ p, p < 2 * id.length → w.buf[p]? = some 0 ∨ w.buf[p]? = (serial port id)[p]?
  idx : ∀ (t i : Nat), w.jobs[t]? = some (.rendering i) → i < id.length
  src : ∀ t : Nat, w.jobs[t]? ≠ some (.has .initial) ∧ (w.jobs[t]? = some .returning → w.devStr ≠ .initial)
  full : ((∀ p, p < 2 * id.length → w.buf[p]? = some 0) ∧ w.devStr ≠ .buffer ∧
      (∀ t : Nat, w.jobs[t]? ≠ some (.has .buffer)) ∧ ∀ t i : Nat, w.jobs[t]? ≠ some (.rendering i)) ∨
    ∀ p, p < 2 * id.length → w.buf[p]? = some 0 → ∃ t i : Nat, w.jobs[t]? = some (.rendering i) ∧ 2 * i ≤ p

private theorem get_set' {l : List Job} {t u : Nat} {j j' : Job} (h : (l.set t j')[u]? = some j) :
    (u = t ∧ j = j') ∨ (u ≠ t ∧ l[u]? = some j) := by
  rw [List.getElem?_set] at h
  split at h
  · rename_i hti
    split at h
    · simp only [Option.some.injEq] at h
      exact .inl ⟨hti.symm, h.symm⟩
    · cases h
  · rename_i hti
    exact .inr ⟨fun hx => hti hx.symm, h⟩

private theorem start_good (port : Port) (id : Bytes) (hf : fits port id) (callers : Nat) :
    Good port id (start port callers) := by
  have hj : ∀ (t : Nat) (j : Job), (start port callers).jobs[t]? = some j → j = .idle := by
    intro t j h
    have := List.mem_of_getElem? h
    simp only [start, List.mem_replicate] at this
    exact this.2
  have hb : ∀ p, p < size port → (start port callers).buf[p]? = some 0 := by
    intro p hp
    simp only [start]
    rw [List.getElem?_replicate, if_pos hp]
  have hs := fits_size hf
  refine ⟨by simp [start], fun p _ hp => hb p hp, fun p hp => .inl (hb p (by omega)), ?_, ?_, .inl ⟨fun p hp => hb p (by omega), (by simp [start]), ?_, ?_⟩⟩
  · intro t i h; have := hj t _ h; cases this
  · intro t
    exact ⟨(fun h => by have := hj t _ h; cases this), (fun h => by have := hj t _ h; cases this)⟩
  · intro t h; have := hj t _ h; cases this
  · intro t i h; have := hj t _ h; cases this

/-- A caller that is not in the loop goes somewhere that is not in the loop either, or to its beginning. -/
private theorem Good.move {port : Port} {id : Bytes} {w w' : World} (h : Good port id w) {t : Nat} {j : Job}
    (hlt : t < w.jobs.length) (hold : ∀ i, w.jobs[t]? ≠ some (.rendering i)) (hbuf : w'.buf = w.buf) (hjobs : w'.jobs = w.jobs.set t j)
    (h1 : ∀ i, j = .rendering i → i = 0 ∧ 0 < id.length) (h2 : j ≠ .has .initial)
    (h3 : (w'.devStr = w.devStr ∧ j ≠ .returning) ∨ w'.devStr = .fallback)
    (h4 : j = .has .buffer → w.buf[0]? ≠ some 0 ∨ w.devStr = .buffer) (hpos : 0 < id.length) : Good port id w' := by
  refine ⟨by rw [hbuf]; exact h.len, by rw [hbuf]; exact h.tail, by rw [hbuf]; exact h.right, ?_, ?_, ?_⟩
  · intro u i hu
    rw [hjobs] at hu
    rcases get_set' hu with ⟨-, hx⟩ | ⟨-, hx⟩
    · have := h1 i hx.symm; omega
    · exact h.idx u i hx
  · intro u
    constructor
    · intro hu
      rw [hjobs] at hu
      rcases get_set' hu with ⟨-, hx⟩ | ⟨-, hx⟩
      · exact h2 hx.symm
      · exact (h.src u).1 hx
    · intro hu
      rcases h3 with ⟨h3, h5⟩ | h3
      · rw [hjobs] at hu
        rcases get_set' hu with ⟨-, hx⟩ | ⟨-, hx⟩
        · exact absurd hx.symm h5
        · rw [h3]; exact (h.src u).2 hx
      · rw [h3]; decide
  · rcases h.full with ⟨a, b, c, d⟩ | a
    · by_cases hr : ∃ i, j = .rendering i
      · obtain ⟨i, rfl⟩ := hr
        obtain ⟨rfl, -⟩ := h1 i rfl
        exact .inr fun p hp _ => ⟨t, 0, by rw [hjobs, List.getElem?_set_self hlt], by omega⟩
      · left
        refine ⟨by rw [hbuf]; exact a, ?_, ?_, ?_⟩
        · rcases h3 with h3 | h3
          · rw [h3.1]; exact b
          · rw [h3]; decide
        · intro u hu
          rw [hjobs] at hu
          rcases get_set' hu with ⟨-, hx⟩ | ⟨-, hx⟩
          · rcases h4 hx.symm with hx | hx
            · exact hx (a 0 (by omega))
            · exact b hx
          · exact c u hx
        · intro u i hu
          rw [hjobs] at hu
          rcases get_set' hu with ⟨-, hx⟩ | ⟨-, hx⟩
          · exact hr ⟨i, hx.symm⟩
          · exact d u i hx
    · right
      intro p hp hz
      rw [hbuf] at hz
      obtain ⟨u, i, hu, hi⟩ := a p hp hz
      refine ⟨u, i, ?_, hi⟩
      rw [hjobs, List.getElem?_set_ne]
      · exact hu
      · rintro rfl; exact hold i hu

private theorem step_good {port : Port} {id : Bytes} (hf : fits port id) {w : World} (h : Good port id w) (op : Op)
    (ht : port = .espIdf → told op) : ∃ w', step port id w op = some w' ∧ Good port id w' := by
  obtain ⟨hs, hpos⟩ := fits_size hf
  cases op with
  | call t isr ok =>
    simp only [step]
    split
    · rename_i hfree
      have hlt : t < w.jobs.length := by
        cases hx : w.jobs[t]? with
        | none => rw [hx] at hfree; cases hfree
        | some j => exact (List.getElem?_eq_some_iff.1 hx).1
      have hold : ∀ i, w.jobs[t]? ≠ some (.rendering i) := by
        intro i hx
        rw [hx] at hfree
        cases hfree
      cases port with
      | zephyr =>
        dsimp only
        split
        · exact ⟨_, rfl, h.move (t := t) hlt hold rfl rfl (fun i hi => by cases hi; exact ⟨rfl, hpos⟩) (by decide)
            (.inl ⟨rfl, by decide⟩) (fun hx => by cases hx) hpos⟩
        · exact ⟨_, rfl, h.move (t := t) hlt hold rfl rfl (fun i hi => by cases hi) (by decide)
            (.inr rfl) (fun hx => by cases hx) hpos⟩
      | espIdf =>
        have hok : ok = true := ht rfl
        subst hok
        have hb : ∃ b, w.buf[0]? = some b := ⟨_, List.getElem?_eq_getElem (by rw [h.len]; simp [size])⟩
        obtain ⟨b, hb⟩ := hb
        simp only [hb, Option.bind_some]
        split
        · split
          · exact ⟨_, rfl, h.move (t := t) hlt hold rfl rfl (fun i hi => by cases hi) (by decide)
              (.inl ⟨rfl, by decide⟩) (fun hx => by cases hx) hpos⟩
          · exact ⟨_, rfl, h.move (t := t) hlt hold rfl rfl (fun i hi => by cases hi; exact ⟨rfl, hpos⟩) (by decide)
              (.inl ⟨rfl, by decide⟩) (fun hx => by cases hx) hpos⟩
        · rename_i hb0
          exact ⟨_, rfl, h.move (t := t) hlt hold rfl rfl (fun i hi => by cases hi) (by decide)
              (.inl ⟨rfl, by decide⟩) (fun _ => .inl (by rw [hb]; exact fun hx => hb0 (by cases hx; rfl))) hpos⟩
    · exact ⟨w, rfl, h⟩
  | step t =>
    simp only [step]
    cases hj : w.jobs[t]? with
    | none => exact ⟨w, rfl, h⟩
    | some j =>
      have hlt : t < w.jobs.length := (List.getElem?_eq_some_iff.1 hj).1
      cases j with
      | idle => exact ⟨w, rfl, h⟩
      | has s => exact ⟨w, rfl, h⟩
      | returning =>
        refine ⟨_, rfl, h.move (t := t) (j := .has w.devStr) hlt (fun i hx => by rw [hj] at hx; cases hx) rfl rfl
          (fun i hi => by cases hi) ?_ (.inl ⟨rfl, by simp⟩) (fun hx => .inr ?_) hpos⟩
        · intro hx
          injection hx with hx
          exact (h.src t).2 hj hx
        · injection hx
      | rendering i =>
        have hi := h.idx t i hj
        obtain ⟨buf', e1, e2, e3⟩ := body_eq hf h.len hi
        have hser : ∀ p, p < 2 * id.length → ∃ b, (serial port id)[p]? = some b ∧ b ≠ 0 := by
          intro p hp
          have hp' : p < (serial port id).length := by rw [serial_length]; exact hp
          exact ⟨_, List.getElem?_eq_getElem hp', serial_ne_zero port id _ (List.getElem_mem hp')⟩
        -- whatever the job becomes, if the loop goes on where it has to
        have key : ∀ (w' : World) (j' : Job), w'.buf = buf' → w'.jobs = w.jobs.set t j' →
            (i + 1 < id.length → j' = .rendering (i + 1)) → (¬ i + 1 < id.length → ∀ k, j' ≠ .rendering k) →
            j' ≠ .has .initial → (j' ≠ .returning ∧ w'.devStr = w.devStr ∨ w'.devStr = .buffer) → Good port id w' := by
          intro w' j' g1 g2 g3 g4 g5 g6
          refine ⟨by rw [g1]; exact e2, ?_, ?_, ?_, ?_, .inr ?_⟩
          · intro p hp1 hp2
            rw [g1, e3, if_neg (by omega)]
            split
            · rfl
            · exact h.tail p hp1 hp2
          · intro p hp
            rw [g1, e3]
            split
            · exact .inr rfl
            · split
              · exact .inl rfl
              · exact h.right p hp
          · intro u k hu
            rw [g2] at hu
            rcases get_set' hu with ⟨-, hx⟩ | ⟨-, hx⟩
            · by_cases hc : i + 1 < id.length
              · rw [g3 hc] at hx; cases hx; exact hc
              · exact absurd hx.symm (g4 hc k)
            · exact h.idx u k hx
          · intro u
            constructor
            · intro hu
              rw [g2] at hu
              rcases get_set' hu with ⟨-, hx⟩ | ⟨-, hx⟩
              · exact g5 hx.symm
              · exact (h.src u).1 hx
            · intro hu
              rcases g6 with ⟨g6, g7⟩ | g6
              · rw [g2] at hu
                rcases get_set' hu with ⟨-, hx⟩ | ⟨-, hx⟩
                · exact absurd hx.symm g6
                · rw [g7]; exact (h.src u).2 hx
              · rw [g6]; decide
          · intro p hp hz
            rw [g1, e3] at hz
            by_cases hc : p = 2 * i ∨ p = 2 * i + 1
            · rw [if_pos hc] at hz
              obtain ⟨b, hb, hb0⟩ := hser p hp
              rw [hb] at hz
              cases hz
              exact absurd rfl hb0
            · rw [if_neg hc] at hz
              -- a caller that will write it
              have hself : 2 * (i + 1) ≤ p → ∃ t i : Nat, w'.jobs[t]? = some (.rendering i) ∧ 2 * i ≤ p := by
                intro hp2
                refine ⟨t, i + 1, ?_, hp2⟩
                rw [g2, List.getElem?_set_self hlt, g3 (by omega)]
              by_cases hp2 : 2 * (i + 1) ≤ p
              · exact hself hp2
              · rw [if_neg (by omega)] at hz
                have hlow : p < 2 * i := by omega
                rcases h.full with ⟨-, -, -, d⟩ | a
                · exact absurd hj (d t i)
                · obtain ⟨u, k, hu, hk⟩ := a p hp hz
                  refine ⟨u, k, ?_, hk⟩
                  rw [g2, List.getElem?_set_ne]
                  · exact hu
                  · rintro rfl
                    rw [hj] at hu
                    cases hu
                    omega
        simp only [e1, Option.map_some, Bool.true_and]
        by_cases hc : i + 1 < id.length
        · simp only [hc, decide_true, if_true]
          exact ⟨_, rfl, key _ (.rendering (i + 1)) rfl rfl (fun _ => rfl) (fun hx => absurd hc hx) (by simp)
            (.inl ⟨by simp, rfl⟩)⟩
        · simp only [hc, decide_false, Bool.false_eq_true, if_false]
          cases port with
          | zephyr =>
            exact ⟨_, rfl, key _ .returning rfl rfl (fun hx => absurd hx hc) (fun _ k => by simp) (by decide) (.inr rfl)⟩
          | espIdf =>
            exact ⟨_, rfl, key _ (.has .buffer) rfl rfl (fun hx => absurd hx hc) (fun _ k => by simp) (by decide)
              (.inl ⟨by decide, rfl⟩)⟩

private theorem run_good {port : Port} {id : Bytes} (hf : fits port id) : ∀ (ops : List Op) {w : World}, Good port id w →
    (port = .espIdf → ∀ op ∈ ops, told op) → ∃ w', run port id w ops = some w' ∧ Good port id w' := by
  intro ops
  induction ops with
  | nil => intro w h _; exact ⟨w, rfl, h⟩
  | cons op ops ih =>
    intro w h ht
    obtain ⟨w1, a1, a2⟩ := step_good hf h op (fun hx => ht hx op List.mem_cons_self)
    obtain ⟨w2, b1, b2⟩ := ih a2 (fun hx o ho => ht hx o (List.mem_cons_of_mem _ ho))
    exact ⟨w2, by simp only [run, a1, Option.bind_some, b1], b2⟩

private theorem takeWhile_prefix : ∀ (l s : Bytes), (∀ (p : Nat) (b : UInt8), l[p]? = some b → b = 0 ∨ s[p]? = some b) →
    l.takeWhile (· ≠ 0) <+: s := by
  intro l
  induction l with
  | nil => intro s _; exact List.nil_prefix
  | cons a l ih =>
    intro s h
    by_cases ha : a = 0
    · rw [List.takeWhile_cons_of_neg (by simp [ha])]; exact List.nil_prefix
    · rw [List.takeWhile_cons_of_pos (by simpa using ha)]
      cases s with
      | nil =>
        rcases h 0 a rfl with hx | hx
        · exact absurd hx ha
        · cases hx
      | cons x s =>
        rcases h 0 a rfl with hx | hx
        · exact absurd hx ha
        · simp only [List.getElem?_cons_zero, Option.some.injEq] at hx
          subst hx
          rw [List.cons_prefix_cons]
          exact ⟨rfl, ih s fun p b hb => h (p + 1) b hb⟩

private theorem takeWhile_full : ∀ (s l : Bytes), (∀ p, p < s.length → l[p]? = s[p]?) → (∀ b ∈ s, b ≠ 0) →
    l[s.length]? = some 0 → l.takeWhile (· ≠ 0) = s := by
  intro s
  induction s with
  | nil =>
    intro l _ _ h
    cases l with
    | nil => rfl
    | cons a l =>
      simp only [List.length_nil, List.getElem?_cons_zero, Option.some.injEq] at h
      subst h
      rfl
  | cons x s ih =>
    intro l h h0 hz
    cases l with
    | nil => cases hz
    | cons a l =>
      have := h 0 (by simp)
      simp only [List.getElem?_cons_zero, Option.some.injEq] at this
      subst this
      rw [List.takeWhile_cons_of_pos (by simpa using h0 a List.mem_cons_self)]
      rw [ih l (fun p hp => by have := h (p + 1) (by simp; omega); simpa using this)
        (fun b hb => h0 b (List.mem_cons_of_mem _ hb)) (by simpa using hz)]

/-- Whoever asks and whoever is preempted, at every moment: no access is out of bounds, and what a caller reads is the
beginning of the serial number of the device, or the text for a device without one. With ESP-IDF as long as the hardware
tells its address. -/
theorem C101_beginning {port : Port} {id : Bytes} (hf : fits port id) (callers : Nat) (fallback : Bytes) {ops : List Op}
    (ht : port = .espIdf → ∀ op ∈ ops, told op) :
    ∃ w, run port id (start port callers) ops = some w ∧
      ∀ t text, reads w t fallback = some text → text <+: serial port id ∨ text = fallback := by
  obtain ⟨w, a1, a2⟩ := run_good hf ops (start_good port id hf callers) ht
  refine ⟨w, a1, fun t text hr => ?_⟩
  unfold reads at hr
  split at hr
  · rename_i hx; exact absurd hx (a2.src t).1
  · cases hr; exact .inr rfl
  · cases hr
    left
    refine takeWhile_prefix _ _ fun p b hb => ?_
    by_cases hp : p < 2 * id.length
    · rcases a2.right p hp with hx | hx
      · rw [hb] at hx; cases hx; exact .inl rfl
      · exact .inr (hx.symm.trans hb)
    · have hlt := (List.getElem?_eq_some_iff.1 hb).1
      have := a2.tail p (by omega) (by rw [← a2.len]; exact hlt)
      rw [hb] at this
      cases this
      exact .inl rfl
  · cases hr

/-- When no call is in progress every caller reads the whole serial number, or the text for a device without one. The
claim is about every moment; that is false, see `C101_false_zephyr` and `C101_false_esp`. -/
theorem C101_whole_partial {port : Port} {id : Bytes} (hf : fits port id) (callers : Nat) (fallback : Bytes)
    {ops : List Op} (ht : port = .espIdf → ∀ op ∈ ops, told op) :
    ∃ w, run port id (start port callers) ops = some w ∧
      (quiet w → ∀ t text, reads w t fallback = some text → text = serial port id ∨ text = fallback) := by
  obtain ⟨w, a1, a2⟩ := run_good hf ops (start_good port id hf callers) ht
  refine ⟨w, a1, fun hq t text hr => ?_⟩
  unfold reads at hr
  split at hr
  · rename_i hx; exact absurd hx (a2.src t).1
  · cases hr; exact .inr rfl
  · rename_i hx
    cases hr
    left
    have hs := fits_size hf
    have hnz : ∀ p, p < 2 * id.length → w.buf[p]? ≠ some 0 := by
      intro p hp hz
      rcases a2.full with ⟨-, -, c, -⟩ | a
      · exact c t hx
      · obtain ⟨u, i, hu, -⟩ := a p hp hz
        rcases hq _ (List.mem_of_getElem? hu) with hj | ⟨s, hj⟩ <;> cases hj
    refine takeWhile_full _ _ (fun p hp => ?_) (serial_ne_zero port id) ?_
    · rw [serial_length] at hp
      exact (a2.right p hp).resolve_left (hnz p hp)
    · rw [serial_length]
      exact a2.tail _ (Nat.le_refl _) hs.1
  · cases hr

/-- Different devices have different serial numbers, of two digits per byte, and no serial number is empty. -/
theorem C101_distinct (port : Port) {a b : Bytes} (h : serial port a = serial port b) : a = b := by
  induction a generalizing b with
  | nil =>
    cases b with
    | nil => rfl
    | cons y b => simp [serial] at h
  | cons x a ih =>
    cases b with
    | nil => simp [serial] at h
    | cons y b =>
      simp only [serial, List.flatMap_cons, List.cons_append, List.nil_append, List.cons.injEq] at h
      obtain ⟨h1, h2, h3⟩ := h
      have hinj : ∀ p : Port, ∀ m n : Fin 16, (digits p).getD m 0 = (digits p).getD n 0 → m = n := by
        intro p; cases p <;> decide
      have hx := x.toNat_lt
      have hy := y.toNat_lt
      have e1 := hinj port ⟨x.toNat / 16, by omega⟩ ⟨y.toNat / 16, by omega⟩ h1
      have e2 := hinj port ⟨x.toNat % 16, by omega⟩ ⟨y.toNat % 16, by omega⟩ h2
      simp only [Fin.mk.injEq] at e1 e2
      have e : x = y := UInt8.toNat_inj.1 (by omega)
      rw [e, ih h3]

example : fits .zephyr [0xab, 0x12, 0xff] ∧ fits .espIdf [0xa4, 0xcf, 0x12, 0x00, 0x0e, 0xff] := by
  constructor
  · exact ⟨by decide, by decide⟩
  · exact (rfl : [0xa4, 0xcf, 0x12, 0x00, 0x0e, 0xff].length = 6)

/-- Two callers with Zephyr, one of them preempted in the loop, at the end both read "ab12ff". -/
example :
    ((run .zephyr [0xab, 0x12, 0xff] (start .zephyr 2) [.call 0 false true, .step 0, .call 1 true true, .step 1, .step 1,
      .step 0, .step 1, .step 1, .step 0, .step 0]).map fun w => (w.jobs, reads w 0 [], reads w 1 [])) =
      some ([.has .buffer, .has .buffer], some [97, 98, 49, 50, 102, 102], some [97, 98, 49, 50, 102, 102]) := by
  decide +kernel

/-- Zephyr: a caller that has its serial number reads only its beginning while another one asks for it. -/
theorem C101_false_zephyr :
    ((run .zephyr [0xab, 0x12, 0xff] (start .zephyr 2) [.call 0 false true, .step 0, .step 0, .step 0, .step 0,
      .call 1 false true, .step 1]).map fun w => reads w 0 []) = some (some [97, 98]) := by
  decide +kernel

/-- ESP-IDF: while the first caller is preempted others read the beginning of the serial number. -/
theorem C101_false_esp :
    ((run .espIdf [0xa4, 0xcf, 0x12, 0, 0x0e, 0xff] (start .espIdf 2) [.call 0 false true, .step 0, .step 0,
      .call 1 true true]).map fun w => reads w 1 []) = some (some [65, 52, 67, 70]) := by
  decide +kernel

/-- ESP-IDF: if the address cannot be read, memory that was never written is used. -/
theorem C101_false_esp_error (id : Bytes) :
    run .espIdf id (start .espIdf 1) [.call 0 false false] = none := by
  rfl

end Mflt.Props
