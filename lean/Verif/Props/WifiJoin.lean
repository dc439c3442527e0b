import Verif.Model.WifiJoin

/-!
# C124: joining a Wi-Fi network in the ESP32 demo application
-/

namespace Mflt.Props

open Mflt.Spec.WifiJoin Mflt.WifiJoin

namespace WifiJoinAux

/-- The bits are set for a reason. -/
structure Why (s : St) : Prop where
  retry : s.retry = min 10 (losses s.log)
  conn : s.connBit = true → Item.heard .address ∈ s.log
  been : s.connected = true → Item.heard .address ∈ s.log
  fail : s.failBit = true → ∃ p q, s.log = p ++ q ∧ 11 ≤ losses q

/-- Each loss is followed by a new attempt exactly if it is one of the first ten. -/
def Tries (l : List Item) : Prop :=
  ∀ after before, l = after ++ Item.heard .lost :: before → (after.getLast? = some .connect ↔ losses before < 10)

/-- What was told has a reason. -/
def Told (l : List Item) : Prop :=
  (∀ after before, l = after ++ Item.told true :: before → Item.heard .address ∈ before) ∧
  (∀ after before, l = after ++ Item.told false :: before →
    (∃ p q, before = p ++ q ∧ 11 ≤ losses q) ∨ before.head? = some .connect)

theorem tries_cons {x : Item} {l : List Item} (h : Tries l) (hx : x ≠ .heard .lost)
    (hl : l.head? ≠ some (.heard .lost) ∨ (x ≠ .connect ∧ 10 ≤ losses l.tail)) : Tries (x :: l) := by
  intro after before e
  cases after with
  | nil => simp at e; exact absurd e.1 hx
  | cons y after =>
    simp at e
    obtain ⟨rfl, e⟩ := e
    have := h after before e
    cases after with
    | nil =>
      subst e
      rcases hl with hl | ⟨hl, hn⟩
      · simp at hl
      · have hn : 10 ≤ losses before := hn
        simp only [List.getLast?_singleton, Option.some.injEq, hl, false_iff]
        omega
    | cons z after => simpa [List.getLast?_cons_cons] using this

theorem told_cons {x : Item} {l : List Item} (h : Told l) (hx : ∀ b, x ≠ .told b) : Told (x :: l) := by
  refine ⟨?_, ?_⟩
  · intro after before e
    cases after with
    | nil => simp at e; exact absurd e.1 (hx _)
    | cons y after => simp at e; exact h.1 after before e.2
  · intro after before e
    cases after with
    | nil => simp at e; exact absurd e.1 (hx _)
    | cons y after => simp at e; exact h.2 after before e.2

theorem told_true {l : List Item} (h : Told l) (hl : Item.heard .address ∈ l) : Told (.told true :: l) := by
  refine ⟨?_, ?_⟩
  · intro after before e
    cases after with
    | nil => simp at e; exact e ▸ hl
    | cons y after => simp at e; exact h.1 after before e.2
  · intro after before e
    cases after with
    | nil => simp at e
    | cons y after => simp at e; exact h.2 after before e.2

theorem told_false {l : List Item} (h : Told l)
    (hl : (∃ p q, l = p ++ q ∧ 11 ≤ losses q) ∨ l.head? = some .connect) : Told (.told false :: l) := by
  refine ⟨?_, ?_⟩
  · intro after before e
    cases after with
    | nil => simp at e
    | cons y after => simp at e; exact h.1 after before e.2
  · intro after before e
    cases after with
    | nil => simp at e; exact e ▸ hl
    | cons y after => simp at e; exact h.2 after before e.2

theorem tries_lost {l : List Item} (h : Tries l) (hn : losses l < 10) : Tries (.connect :: .heard .lost :: l) := by
  intro after before e
  cases after with
  | nil => simp at e
  | cons y after =>
    simp at e
    obtain ⟨rfl, e⟩ := e
    cases after with
    | nil => simp at e; subst e; simpa using hn
    | cons z after =>
      simp at e
      have := h after before e.2
      cases after with
      | nil =>
        simp at e
        obtain ⟨rfl, e⟩ := e
        have hn' : losses before + 1 < 10 := by rw [e] at hn; exact hn
        simp at this
        omega
      | cons w after => simpa using this

theorem tries_given {l : List Item} (h : Tries l) (hn : 10 ≤ losses l) (hl : l.head? = some (.heard .lost) → 10 ≤ losses l.tail) :
    Tries (.heard .lost :: l) := by
  intro after before e
  cases after with
  | nil => simp at e; subst e; simp; omega
  | cons y after =>
    simp at e
    obtain ⟨rfl, e⟩ := e
    have := h after before e
    cases after with
    | nil =>
      subst e
      simp at hl
      simp
      exact hl
    | cons z after => simpa using this

/-- After a loss that nothing followed, there were ten before. -/
theorem head_lost {l : List Item} (h : Tries l) (hl : l.head? = some (.heard .lost)) : 10 ≤ losses l.tail := by
  cases l with
  | nil => simp at hl
  | cons x l =>
    simp at hl
    subst hl
    have := h [] l rfl
    simp at this
    exact this

theorem tries_any {x : Item} {l : List Item} (h : Tries l) (hx : x ≠ .heard .lost) (hc : x ≠ .connect) : Tries (x :: l) := by
  refine tries_cons h hx ?_
  by_cases hl : l.head? = some (.heard .lost)
  · exact Or.inr ⟨hc, head_lost h hl⟩
  · exact Or.inl hl

structure All (s : St) : Prop where
  why : Why s
  tries : Tries s.log
  told : Told s.log

theorem fail_cons {x : Item} {l : List Item} (h : ∃ p q, l = p ++ q ∧ 11 ≤ losses q) :
    ∃ p q, x :: l = p ++ q ∧ 11 ≤ losses q := by
  obtain ⟨p, q, rfl, hq⟩ := h
  exact ⟨x :: p, q, rfl, hq⟩

/-- An item that is neither a report nor told. -/
theorem all_cons {s : St} {x : Item} (h : All s) (hx : ∀ e, x ≠ .heard e) (ht : ∀ b, x ≠ .told b)
    (hc : x = .connect → s.log.head? ≠ some (.heard .lost)) : All { s with log := x :: s.log } := by
  have hlos : losses (x :: s.log) = losses s.log := by
    cases x with
    | heard e => exact absurd rfl (hx e)
    | _ => rfl
  refine ⟨⟨?_, ?_, ?_, ?_⟩, ?_, told_cons h.told ht⟩
  · simp only [hlos]; exact h.why.retry
  · exact fun hb => List.mem_cons_of_mem _ (h.why.conn hb)
  · exact fun hb => List.mem_cons_of_mem _ (h.why.been hb)
  · exact fun hb => fail_cons (h.why.fail hb)
  · by_cases hcc : x = .connect
    · exact tries_cons h.tries (hx _) (Or.inl (hc hcc))
    · exact tries_any h.tries (hx _) hcc

theorem all_handle {s : St} (h : All s) (e : Ev) : All (handle s e) := by
  obtain ⟨c, f, r, k, l⟩ := s
  obtain ⟨⟨hr, hc, hk, hf⟩, ht, hd⟩ := h
  simp only at hr hc hk hf ht hd
  cases e with
  | started =>
    refine ⟨⟨hr, ?_, ?_, ?_⟩, ?_, ?_⟩
    · exact fun hb => List.mem_cons_of_mem _ (List.mem_cons_of_mem _ (hc hb))
    · exact fun hb => List.mem_cons_of_mem _ (List.mem_cons_of_mem _ (hk hb))
    · exact fun hb => fail_cons (fail_cons (hf hb))
    · exact tries_cons (tries_any ht (by simp) (by simp)) (by simp) (Or.inl (by simp))
    · exact told_cons (told_cons hd (by simp)) (by simp)
  | associated =>
    refine ⟨⟨hr, ?_, ?_, ?_⟩, ?_, ?_⟩
    · exact fun hb => List.mem_cons_of_mem _ (hc hb)
    · exact fun hb => List.mem_cons_of_mem _ (hk hb)
    · exact fun hb => fail_cons (hf hb)
    · exact tries_any ht (by simp) (by simp)
    · exact told_cons hd (by simp)
  | address =>
    refine ⟨⟨by simp [handle, losses], ?_, ?_, ?_⟩, ?_, ?_⟩
    · exact fun _ => List.mem_cons_self
    · exact fun _ => List.mem_cons_self
    · exact fun hb => fail_cons (hf hb)
    · exact tries_any ht (by simp) (by simp)
    · exact told_cons hd (by simp)
  | lost =>
    simp only [handle]
    split
    · rename_i hlt
      refine ⟨⟨?_, ?_, ?_, ?_⟩, ?_, ?_⟩
      · simp only [losses]; omega
      · exact fun hb => List.mem_cons_of_mem _ (List.mem_cons_of_mem _ (hc hb))
      · exact fun hb => List.mem_cons_of_mem _ (List.mem_cons_of_mem _ (hk hb))
      · exact fun hb => fail_cons (fail_cons (hf hb))
      · exact tries_lost ht (by omega)
      · exact told_cons (told_cons hd (by simp)) (by simp)
    · rename_i hlt
      refine ⟨⟨?_, ?_, ?_, ?_⟩, ?_, ?_⟩
      · simp only [losses]; omega
      · exact fun hb => List.mem_cons_of_mem _ (hc hb)
      · exact fun hb => List.mem_cons_of_mem _ (hk hb)
      · refine fun _ => ⟨[], _, rfl, ?_⟩
        simp only [losses]; omega
      · exact tries_given ht (by omega) (head_lost ht)
      · exact told_cons hd (by simp)

theorem all_wait : ∀ (evs : List Ev) {s : St}, All s → All (wait s evs).2.1
  | [], _, h => h
  | e :: l, s, h => by
    simp only [wait]
    split
    · exact h
    · exact all_wait l (all_handle h e)

theorem wait_bit : ∀ (evs : List Ev) {s t : St} {l : List Ev}, wait s evs = (true, t, l) →
    t.connBit = true ∨ t.failBit = true
  | [], s, t, l, h => by simp [wait] at h; obtain ⟨h, rfl, _⟩ := h; exact h
  | e :: evs, s, t, l, h => by
    simp only [wait] at h
    split at h
    · rename_i hb; simp at h; obtain ⟨rfl, _⟩ := h; simpa using hb
    · exact wait_bit evs h

theorem strncpy_some (src : Bytes) (n m : Nat) (h : n ≤ m) :
    Settings.strncpy src n (List.replicate m 0) =
      some (src.take n ++ List.replicate (n - src.length) 0 ++ (List.replicate m (0 : BitVec 8)).drop n) := by
  simp [Settings.strncpy, h]

theorem all_foldl : ∀ (evs : List Ev) {s : St}, All s → All (evs.foldl handle s)
  | [], _, h => h
  | e :: l, _, h => all_foldl l (all_handle h e)

/-- The rest of `wifi_join`, behind the two ways into it. -/
theorem all_finish {s : St} {pass : Bytes} {evs : List Ev} (h : All s) :
    All (finish pass evs s).2.1 := by
  have hw := all_wait evs h
  unfold finish
  rcases hb : wait s evs with ⟨b, t, l⟩
  rw [hb] at hw
  cases b with
  | false => exact hw
  | true =>
    have hb := wait_bit evs hb
    simp only at hw
    simp only
    split
    · rename_i hc
      refine ⟨⟨hw.why.retry, ?_, ?_, ?_⟩, ?_, ?_⟩
      · exact fun _ => List.mem_cons_of_mem _ (hw.why.conn hc)
      · exact fun _ => List.mem_cons_of_mem _ (hw.why.conn hc)
      · exact fun hb => fail_cons (hw.why.fail hb)
      · exact tries_any hw.tries (by simp) (by simp)
      · exact told_true hw.told (hw.why.conn hc)
    · rename_i hc
      have hf : t.failBit = true := by simpa [hc] using hb
      rw [if_pos hf]
      refine ⟨⟨hw.why.retry, ?_, ?_, ?_⟩, ?_, ?_⟩
      · exact fun h => absurd h hc
      · exact fun h => List.mem_cons_of_mem _ (List.mem_cons_of_mem _ (hw.why.been h))
      · exact fun hb => fail_cons (fail_cons (hw.why.fail hb))
      · exact tries_any (tries_any hw.tries (by simp) (by simp)) (by simp) (by simp)
      · exact told_false (told_cons hw.told (by simp)) (Or.inl (fail_cons (hw.why.fail hf)))

theorem all_join {s t : St} {a b : Bytes} {c : Bool} {evs l : List Ev} {r : Option Bool} (h : All s)
    (hj : join a b c evs s = some (r, t, l)) : All t := by
  have h := all_cons (x := .asked a b) h (by simp) (by simp) (by simp)
  unfold join at hj
  dsimp only at hj
  split at hj
  · have h := all_cons (all_cons (x := .disconnect) h (by simp) (by simp) (by simp)) (x := .connect) (by simp) (by simp)
      (by simp)
    split at hj
    · have := all_finish (pass := b) (evs := evs) h
      simp only [Option.some.injEq] at hj
      rw [hj] at this
      exact this
    · simp only [Option.some.injEq, Prod.mk.injEq] at hj
      obtain ⟨_, rfl, _⟩ := hj
      unfold tell
      refine ⟨⟨h.why.retry, ?_, ?_, ?_⟩, ?_, ?_⟩
      · exact fun hb => List.mem_cons_of_mem _ (h.why.conn hb)
      · exact fun hb => List.mem_cons_of_mem _ (h.why.been hb)
      · exact fun hb => fail_cons (h.why.fail hb)
      · exact tries_any h.tries (by simp) (by simp)
      · exact told_false h.told (Or.inr rfl)
  · rw [strncpy_some _ _ _ (by omega), strncpy_some _ _ _ (by omega)] at hj
    simp only [Option.bind_eq_bind, Option.bind_some, Option.some.injEq] at hj
    have h := all_cons (all_cons (x := .configure
      (a.take 31 ++ List.replicate (31 - a.length) 0 ++ (List.replicate 32 (0 : BitVec 8)).drop 31)
      (b.take 63 ++ List.replicate (63 - b.length) 0 ++ (List.replicate 64 (0 : BitVec 8)).drop 63))
      h (by simp) (by simp) (by simp)) (x := .start) (by simp) (by simp) (by simp)
    have := all_finish (pass := b) (evs := evs) h
    rw [hj] at this
    exact this

theorem join_some (a b : Bytes) (c : Bool) (evs : List Ev) (s : St) : ∃ r, join a b c evs s = some r := by
  unfold join
  dsimp only
  split
  · split <;> exact ⟨_, rfl⟩
  · rw [strncpy_some _ _ _ (by omega), strncpy_some _ _ _ (by omega)]
    exact ⟨_, rfl⟩

theorem all_run : ∀ (ops : List Op) {s : St}, All s → ∃ t, run s ops = some t ∧ All t
  | [], s, h => ⟨s, rfl, h⟩
  | .event e :: l, s, h => all_run l (all_handle h e)
  | .join a b c evs :: l, s, h => by
    obtain ⟨⟨r, t, k⟩, hj⟩ := join_some a b c evs s
    have := all_run l (all_foldl k (all_join h hj))
    obtain ⟨u, hu, hall⟩ := this
    refine ⟨u, ?_, hall⟩
    simp only [run, step, hj, Option.map_some, Option.bind_some]
    exact hu

/-! ### The first join -/

theorem wait_spec : ∀ (evs : List Ev) {s : St}, s.connBit = false → s.failBit = false → s.retry ≤ 10 →
    ((wait s evs).1 = true ∧ (wait s evs).2.1.connBit = true ↔
      ∃ pre post, evs = pre ++ .address :: post ∧ Ev.address ∉ pre ∧ s.retry + pre.count .lost ≤ 10) ∧
    ((wait s evs).1 = true ∧ (wait s evs).2.1.connBit = false ↔
      ∃ pre post, evs = pre ++ .lost :: post ∧ Ev.address ∉ pre ∧ s.retry + pre.count .lost = 10)
  | [], s, hc, hf, _ => by simp [wait, hc, hf]
  | e :: l, s, hc, hf, hr => by
    have skip : ∀ (t : St) (x : Ev), e = x → x ≠ .address → t.connBit = false → t.failBit = false →
        t.retry = s.retry + (if x = .lost then 1 else 0) → t.retry ≤ 10 → handle s e = t →
        ((wait s (e :: l)).1 = true ∧ (wait s (e :: l)).2.1.connBit = true ↔
          ∃ pre post, e :: l = pre ++ .address :: post ∧ Ev.address ∉ pre ∧ s.retry + pre.count .lost ≤ 10) ∧
        ((wait s (e :: l)).1 = true ∧ (wait s (e :: l)).2.1.connBit = false ↔
          ∃ pre post, e :: l = pre ++ .lost :: post ∧ Ev.address ∉ pre ∧ s.retry + pre.count .lost = 10) := by
      intro t x hx hne tc tf tr tl ht
      have ih := wait_spec l (s := t) tc tf tl
      simp only [wait, hc, hf, Bool.or_self, Bool.false_eq_true, if_false, ht]
      have hcount : ∀ pre : List Ev, (e :: pre).count .lost = pre.count .lost + (if x = .lost then 1 else 0) := by
        intro pre; subst hx; simp [List.count_cons]
      rw [ih.1, ih.2]
      refine ⟨⟨?_, ?_⟩, ⟨?_, ?_⟩⟩
      · rintro ⟨pre, post, rfl, hn, hb⟩
        refine ⟨e :: pre, post, rfl, ?_, ?_⟩
        · simp only [List.mem_cons, not_or]; exact ⟨fun h => hne (hx ▸ h.symm), hn⟩
        · rw [hcount]; omega
      · rintro ⟨pre, post, heq, hn, hb⟩
        cases pre with
        | nil => simp at heq; exact absurd (hx ▸ heq.1) hne
        | cons y pre =>
          simp at heq
          obtain ⟨rfl, heq⟩ := heq
          refine ⟨pre, post, heq, fun h => hn (List.mem_cons_of_mem _ h), ?_⟩
          rw [hcount] at hb; omega
      · rintro ⟨pre, post, rfl, hn, hb⟩
        refine ⟨e :: pre, post, rfl, ?_, ?_⟩
        · simp only [List.mem_cons, not_or]; exact ⟨fun h => hne (hx ▸ h.symm), hn⟩
        · rw [hcount]; omega
      · rintro ⟨pre, post, heq, hn, hb⟩
        cases pre with
        | nil =>
          simp at heq
          have hl : x = .lost := hx ▸ heq.1
          rw [if_pos hl] at tr
          simp at hb
          omega
        | cons y pre =>
          simp at heq
          obtain ⟨rfl, heq⟩ := heq
          refine ⟨pre, post, heq, fun h => hn (List.mem_cons_of_mem _ h), ?_⟩
          rw [hcount] at hb; omega
    cases e with
    | started => exact skip (handle s .started) .started rfl (by simp) hc hf (by simp [handle]) hr rfl
    | associated => exact skip (handle s .associated) .associated rfl (by simp) hc hf (by simp [handle]) hr rfl
    | address =>
      have hw : ∀ l, wait (handle s .address) l = (true, handle s .address, l) := by
        intro l; cases l <;> simp [wait, handle]
      simp only [wait, hc, hf, Bool.or_self, Bool.false_eq_true, if_false, hw]
      refine ⟨⟨fun _ => ⟨[], l, rfl, by simp, by simpa using hr⟩, fun _ => ⟨trivial, rfl⟩⟩, ⟨fun h => ?_, ?_⟩⟩
      · simp [handle] at h
      · rintro ⟨pre, post, heq, hn, _⟩
        cases pre with
        | nil => simp at heq
        | cons y pre => simp at heq; exact absurd (by simp [heq.1]) hn
    | lost =>
      by_cases hlt : s.retry < 10
      · refine skip { s with retry := s.retry + 1, log := .connect :: .heard .lost :: s.log } .lost rfl (by simp) hc hf
          (by simp) ?_ (by simp [handle, hlt])
        show s.retry + 1 ≤ 10
        omega
      · have hw : ∀ l, wait (handle s .lost) l = (true, handle s .lost, l) := by
          intro l; cases l <;> simp [wait, handle, hlt]
        simp only [wait, hc, hf, Bool.or_self, Bool.false_eq_true, if_false, hw]
        refine ⟨⟨fun h => ?_, ?_⟩, ⟨fun _ => ⟨[], l, rfl, by simp, by simp; omega⟩, fun _ => ⟨trivial, ?_⟩⟩⟩
        · simp [handle, hlt, hc] at h
        · rintro ⟨pre, post, heq, hn, hb⟩
          cases pre with
          | nil => simp at heq
          | cons y pre =>
            simp at heq
            obtain ⟨rfl, _⟩ := heq
            rw [List.count_cons_self] at hb
            omega
        · simp [handle, hlt, hc]

theorem finish_result (pass : Bytes) (evs : List Ev) (s : St) :
    ((finish pass evs s).1 = some true ↔ (wait s evs).1 = true ∧ (wait s evs).2.1.connBit = true) ∧
    ((finish pass evs s).1 = some false ↔ (wait s evs).1 = true ∧ (wait s evs).2.1.connBit = false) := by
  unfold finish
  rcases wait s evs with ⟨b, t, l⟩
  cases b with
  | false => simp
  | true =>
    dsimp only
    cases hc : t.connBit <;> cases hf : t.failBit <;> simp

/-- The networks the driver was given. -/
def given (l : List Item) : List (Bytes × Bytes) :=
  l.filterMap fun | .configure a b => some (a, b) | _ => none

theorem given_handle (s : St) (e : Ev) : given (handle s e).log = given s.log := by
  cases e with
  | lost => simp only [handle]; split <;> rfl
  | _ => rfl

theorem given_wait : ∀ (evs : List Ev) (s : St), given (wait s evs).2.1.log = given s.log
  | [], _ => rfl
  | e :: l, s => by
    simp only [wait]
    split
    · rfl
    · rw [given_wait l, given_handle]

theorem given_finish (pass : Bytes) (evs : List Ev) (s : St) : given (finish pass evs s).2.1.log = given s.log := by
  have := given_wait evs s
  unfold finish
  rcases hw : wait s evs with ⟨b, t, l⟩
  rw [hw] at this
  cases b with
  | false => exact this
  | true =>
    dsimp only
    split
    · exact this
    · split <;> exact this

theorem field_pad (s : Bytes) (hs : 0 ∉ s) (k : Nat) : field (s ++ List.replicate (k + 1) 0) = s := by
  induction s with
  | nil => simp [field, List.replicate_succ]
  | cons b s ih =>
    simp at hs
    simp only [List.cons_append, field]
    rw [if_neg (fun h => hs.1 h.symm), ih hs.2]

/-- The first join begins to wait. -/
def begun (a b : Bytes) : St :=
  ⟨false, false, 0, false, [.start, .configure (a.take 31 ++ List.replicate (31 - a.length) 0 ++ [0])
    (b.take 63 ++ List.replicate (63 - b.length) 0 ++ [0]), .asked a b]⟩

theorem finish_false {pass : Bytes} {evs : List Ev} {s : St} (h : (finish pass evs s).1 = some false) :
    Item.logged pass ∈ (finish pass evs s).2.1.log := by
  have hb := wait_bit evs (s := s) (t := (wait s evs).2.1) (l := (wait s evs).2.2)
  revert h
  unfold finish
  rcases hw : wait s evs with ⟨b, t, l⟩
  rw [hw] at hb
  cases b with
  | false => simp
  | true =>
    have hb := hb rfl
    dsimp only at hb ⊢
    cases hc : t.connBit with
    | true => simp
    | false =>
      have hf : t.failBit = true := by simpa [hc] using hb
      simp [hf, tell]

theorem join_fresh (a b : Bytes) (c : Bool) (evs : List Ev) :
    join a b c evs fresh = some (finish b evs (begun a b)) := by
  unfold join
  dsimp only [fresh]
  rw [strncpy_some _ _ _ (by omega), strncpy_some _ _ _ (by omega)]
  rfl

theorem field_short {s : Bytes} {n : Nat} (h0 : 0 ∉ s) (h : s.length ≤ n) :
    field (s.take n ++ List.replicate (n - s.length) 0 ++ [0]) = s := by
  rw [List.take_of_length_le h, List.append_assoc, ← List.replicate_succ']
  exact field_pad s h0 _

theorem all_fresh : All fresh :=
  ⟨⟨rfl, by simp [fresh], by simp [fresh], by simp [fresh]⟩, by intro a b e; simp [fresh] at e,
    by intro a b e; simp [fresh] at e, by intro a b e; simp [fresh] at e⟩

/-- What was asked first, and nothing else was asked since. -/
def Last (x y : Bytes) (l : List Item) : Prop := ∃ after, l = after ++ [.asked x y] ∧ ∀ a b, Item.asked a b ∉ after

theorem last_cons {x y : Bytes} {l : List Item} {i : Item} (h : Last x y l) (hi : ∀ a b, i ≠ .asked a b) :
    Last x y (i :: l) := by
  obtain ⟨after, rfl, ha⟩ := h
  refine ⟨i :: after, rfl, fun a b hm => ?_⟩
  rcases List.mem_cons.1 hm with e | e
  · exact hi a b e.symm
  · exact ha a b e

theorem last_handle {x y : Bytes} {s : St} (e : Ev) (h : Last x y s.log) : Last x y (handle s e).log := by
  have h1 := last_cons (i := .heard e) h (by simp)
  cases e with
  | started => exact last_cons h1 (by simp)
  | lost =>
    simp only [handle]
    split
    · exact last_cons h1 (by simp)
    · exact h1
  | _ => exact h1

theorem last_foldl {x y : Bytes} : ∀ (evs : List Ev) {s : St}, Last x y s.log → Last x y (evs.foldl handle s).log
  | [], _, h => h
  | e :: l, _, h => last_foldl l (last_handle e h)

theorem last_wait {x y : Bytes} : ∀ (evs : List Ev) {s : St}, Last x y s.log → Last x y (wait s evs).2.1.log
  | [], _, h => h
  | e :: l, s, h => by
    simp only [wait]
    split
    · exact h
    · exact last_wait l (last_handle e h)

theorem last_finish {x y : Bytes} (pass : Bytes) (evs : List Ev) {s : St} (h : Last x y s.log) :
    Last x y (finish pass evs s).2.1.log := by
  have := last_wait evs h
  unfold finish
  rcases hw : wait s evs with ⟨b, t, l⟩
  rw [hw] at this
  cases b with
  | false => exact this
  | true =>
    dsimp only
    split
    · exact last_cons this (by simp)
    · split
      · exact last_cons (last_cons this (by simp)) (by simp)
      · exact last_cons this (by simp)

theorem last_begun (x y : Bytes) : Last x y (begun x y).log :=
  ⟨[.start, .configure (x.take 31 ++ List.replicate (31 - x.length) 0 ++ [0])
    (y.take 63 ++ List.replicate (63 - y.length) 0 ++ [0])], rfl, by simp⟩

/-! ### Credentials -/

def n0 : List Char := "wifi_ssid".toList

def n1 : List Char := "wifi_password".toList

theorem n01 : (n0 == n1) = false := by decide +kernel

theorem n10 : (n1 == n0) = false := by decide +kernel

/-- A store holds credentials. -/
def Stored (st : Settings.Store) (cr : Bytes × Bytes) : Prop :=
  (st.lookup n0).getD (.text []) = .text cr.1 ∧ (st.lookup n1).getD (.text []) = .text cr.2

/-- A copy of 65 bytes ends with 0; it is empty or holds a text. -/
def Copy (b t : Bytes) : Prop := (∃ l, b = l ++ [0] ∧ l.length = 64) ∧ (field b = [] ∨ field b = t)

structure Kept (c : Creds) : Prop where
  cur : Stored c.nvs.cur (credentials c.log)
  saved : Stored c.nvs.saved (credentials c.log)
  ssid : Copy c.ssid (credentials c.log).1
  pass : Copy c.pass (credentials c.log).2
  short : (credentials c.log).1.length ≤ 32 ∧ (credentials c.log).2.length ≤ 64
  plain : 0 ∉ (credentials c.log).1 ∧ 0 ∉ (credentials c.log).2

theorem copy_blank (t : Bytes) : Copy blank t :=
  ⟨⟨List.replicate 64 0, by decide +kernel, by simp⟩, Or.inl (by decide +kernel)⟩

theorem field_zero {t : Bytes} (h : 0 ∉ t) (x : Bytes) : field (t ++ 0 :: x) = t := by
  induction t with
  | nil => simp [field]
  | cons b t ih =>
    simp at h
    simp only [List.cons_append, field]
    rw [if_neg (fun e => h.1 e.symm), ih h.2]

theorem table0 (d : Build) : Settings.table d 0 = some (n0, .text []) := rfl

theorem table1 (d : Build) : Settings.table d 1 = some (n1, .text []) := rfl

theorem table_other {d : Build} {k : Nat} {n : List Char} {v : Spec.Settings.Value} (h : Settings.table d k = some (n, v))
    (h0 : k ≠ 0) (h1 : k ≠ 1) : (n0 == n) = false ∧ (n1 == n) = false := by
  match k, h0, h1 with
  | 2, _, _ => cases h; exact ⟨by decide +kernel, by decide +kernel⟩
  | 3, _, _ => cases h; exact ⟨by decide +kernel, by decide +kernel⟩
  | 4, _, _ => cases h; exact ⟨by decide +kernel, by decide +kernel⟩
  | 5, _, _ => cases h; exact ⟨by decide +kernel, by decide +kernel⟩
  | 6, _, _ => cases h; exact ⟨by decide +kernel, by decide +kernel⟩
  | _ + 7, _, _ => simp [Settings.table] at h

theorem set_ok (d : Build) {e : Nvs} {k : Nat} {n : List Char} {w : Spec.Settings.Value} (v : Spec.Settings.Value)
    (s : Settings.St) (ht : Settings.table d k = some (n, w)) (h1 : e.opened.first = .ok) (h2 : e.opened.opened = 0)
    (h3 : e.rw = 0) (h4 : e.commit = 0) :
    Settings.settingsSet d e.opened e.rw e.commit k v s = (some 0, ⟨(n, v) :: s.cur, (n, v) :: s.cur, s.log⟩) := by
  simp [Settings.settingsSet, ht, Settings.openNvs, h1, h2, h3, h4]

theorem stored_cons {st : Settings.Store} {cr : Bytes × Bytes} {n : List Char} {v : Spec.Settings.Value} (h : Stored st cr)
    (h0 : (n0 == n) = false) (h1 : (n1 == n) = false) : Stored ((n, v) :: st) cr := by
  simpa [Stored, List.lookup_cons, h0, h1] using h

theorem set_other (d : Build) {e : Nvs} {k : Nat} (v : Spec.Settings.Value) {s : Settings.St} {cr : Bytes × Bytes}
    (hc : Stored s.cur cr) (hs : Stored s.saved cr) (h1 : e.opened.first = .ok) (k0 : k ≠ 0) (k1 : k ≠ 1) :
    ∃ r t, Settings.settingsSet d e.opened e.rw e.commit k v s = (some r, t) ∧ Stored t.cur cr ∧ Stored t.saved cr := by
  unfold Settings.settingsSet
  split
  · exact ⟨_, _, rfl, hc, hs⟩
  · rename_i n w ht
    obtain ⟨a, b⟩ := table_other ht k0 k1
    have ho : Settings.openNvs e.opened s = (some e.opened.opened, s) := by simp [Settings.openNvs, h1]
    rw [ho]
    dsimp only
    split
    · exact ⟨_, _, rfl, hc, hs⟩
    · by_cases hw : e.rw = 0 <;> by_cases hm : e.commit = 0 <;> simp only [hw, hm, if_true, if_false]
      · exact ⟨_, _, rfl, stored_cons hc a b, stored_cons hc a b⟩
      · exact ⟨_, _, rfl, stored_cons hc a b, hs⟩
      · exact ⟨_, _, rfl, hc, hc⟩
      · exact ⟨_, _, rfl, hc, hs⟩

theorem nvsGet_text {t l : Bytes} (ht : t.length ≤ 64) (h0 : 0 ∉ t) (hl : l.length = 64) :
    ∃ b n, Settings.nvsGet (.text t) (l ++ [0]) 65 = some (0, b, n) ∧ (∃ m, b = m ++ [0] ∧ m.length = 64) ∧ field b = t := by
  have hlt : ¬(65 < t.length + 1) := by omega
  have hcp : (t ++ [0]).length ≤ (l ++ [0]).length := by simp; omega
  refine ⟨t ++ [0] ++ (l ++ [0]).drop (t ++ [0]).length, t.length + 1, ?_, ?_, ?_⟩
  · simp only [Settings.nvsGet, hlt, if_false, Settings.copy, hcp, if_true, Option.map_some]
  · by_cases h : t.length = 64
    · refine ⟨t, ?_, h⟩
      rw [List.drop_of_length_le (by simp; omega)]
      simp
    · refine ⟨t ++ [0] ++ l.drop (t.length + 1), ?_, by simp; omega⟩
      rw [List.drop_append_of_le_length (by simp; omega)]
      simp
  · rw [List.append_assoc]
    exact field_zero h0 _

theorem loadDefault_empty {l : Bytes} (hl : l.length = 64) :
    ∃ b n, Settings.loadDefault (.text []) (l ++ [0]) 65 = some (0, b, n) ∧ (∃ m, b = m ++ [0] ∧ m.length = 64) ∧
      field b = [] := by
  refine ⟨List.replicate 64 0 ++ [0], 0, ?_, ⟨_, rfl, by simp⟩, by decide +kernel⟩
  have h64 : (65 + (2 ^ 32 - 1)) % 2 ^ 32 = 64 := by decide
  have hle : 64 ≤ (l ++ [(0 : BitVec 8)]).length := by simp; omega
  simp only [Settings.loadDefault, h64, Settings.strncpy, hle, if_true, Option.map_some]
  rw [List.drop_append_of_le_length (by omega), List.drop_of_length_le (by omega)]
  simp

theorem get_ok (d : Build) (e : Nvs) {k : Nat} {n : List Char} {b t : Bytes} {s : Settings.St}
    (hk : Settings.table d k = some (n, .text [])) (hs : (s.cur.lookup n).getD (.text []) = .text t)
    (ht : t.length ≤ 64) (h0 : 0 ∉ t) (hb : ∃ l, b = l ++ [0] ∧ l.length = 64) (h1 : e.opened.first = .ok) :
    ∃ r b' m, Settings.settingsGet d e.opened e.rw k b 65 s = some (some r, b', m, s) ∧
      (r ≠ 0 ∧ b' = b ∨ r = 0 ∧ (∃ l, b' = l ++ [0] ∧ l.length = 64) ∧ field b' = t) ∧
      (e.opened.opened = 0 → e.rw = 0 → r = 0) := by
  obtain ⟨l, rfl, hl⟩ := hb
  have ho : Settings.openNvs e.opened s = (some e.opened.opened, s) := by simp [Settings.openNvs, h1]
  unfold Settings.settingsGet
  simp only [hk, ho]
  by_cases h2 : e.opened.opened = 0
  · by_cases h3 : e.rw = 0
    · simp only [h2, h3, ne_eq, not_true_eq_false, if_false]
      cases hv : s.cur.lookup n with
      | none =>
        rw [hv] at hs
        simp at hs
        subst hs
        obtain ⟨b', m, hg, hm, hf⟩ := loadDefault_empty hl
        exact ⟨0, b', m, by dsimp only; rw [hg]; rfl, Or.inr ⟨rfl, hm, hf⟩, fun _ _ => rfl⟩
      | some v =>
        rw [hv] at hs
        simp at hs
        subst hs
        obtain ⟨b', m, hg, hm, hf⟩ := nvsGet_text ht h0 hl
        exact ⟨0, b', m, by dsimp only; rw [hg]; rfl, Or.inr ⟨rfl, hm, hf⟩, fun _ _ => rfl⟩
    · exact ⟨e.rw, l ++ [0], 65, by simp [h2, h3], Or.inl ⟨h3, rfl⟩, fun _ h => absurd h h3⟩
  · exact ⟨e.opened.opened, l ++ [0], 65, by simp [h2], Or.inl ⟨h2, rfl⟩, fun h => absurd h h2⟩

theorem load_ok (d : Build) {e1 e2 : Nvs} {c : Creds} (h : Kept c) (h1 : e1.opened.first = .ok)
    (h2 : e2.opened.first = .ok) :
    ∃ r c', load d e1 e2 c = some (some r, c') ∧ Kept c' ∧ c'.log = c.log ∧
      (∀ a b, r = some (a, b) → field a = (credentials c.log).1 ∧ field b = (credentials c.log).2) ∧
      (e1.opened.opened = 0 → e1.rw = 0 → e2.opened.opened = 0 → e2.rw = 0 → r ≠ none) := by
  obtain ⟨nvs, ssid, pass, log⟩ := c
  obtain ⟨hc, hs, ⟨ha, ha'⟩, ⟨hb, hb'⟩, hl, hp⟩ := h
  simp only at hc hs ha ha' hb hb' hl hp
  unfold load
  dsimp only
  split
  · rename_i hn
    refine ⟨_, _, rfl, ⟨hc, hs, ⟨ha, ha'⟩, ⟨hb, hb'⟩, hl, hp⟩, rfl, ?_, fun _ _ _ _ => by simp⟩
    intro a b e
    simp at e
    obtain ⟨rfl, rfl⟩ := e
    refine ⟨ha'.resolve_left fun e => ?_, hb'.resolve_left fun e => ?_⟩
    · rw [e] at hn; simp at hn
    · rw [e] at hn; simp at hn
  · obtain ⟨r1, b1, m1, g1, o1, z1⟩ := get_ok d e1 (table0 d) hc.1 (by omega) hp.1 ha h1
    rw [g1]
    dsimp only
    by_cases hr : r1 = 0
    · rcases o1 with o1 | ⟨_, w1, f1⟩
      · exact absurd hr o1.1
      obtain ⟨r2, b2, m2, g2, o2, z2⟩ := get_ok d e2 (table1 d) hc.2 hl.2 hp.2 hb h2
      simp only [hr, ne_eq, not_true_eq_false, if_false, g2]
      by_cases hq : r2 = 0
      · rcases o2 with o2 | ⟨_, w2, f2⟩
        · exact absurd hq o2.1
        simp only [hq, ne_eq, not_true_eq_false, if_false]
        refine ⟨_, _, rfl, ⟨hc, hs, ⟨w1, Or.inr f1⟩, ⟨w2, Or.inr f2⟩, hl, hp⟩, rfl, ?_, fun _ _ _ _ => by simp⟩
        intro a b e
        simp at e
        obtain ⟨rfl, rfl⟩ := e
        exact ⟨f1, f2⟩
      · rcases o2 with ⟨_, rfl⟩ | o2
        · simp only [hq, ne_eq, not_false_eq_true, if_true]
          exact ⟨_, _, rfl, ⟨hc, hs, ⟨w1, Or.inr f1⟩, ⟨hb, hb'⟩, hl, hp⟩, rfl, by simp, fun _ _ x y => absurd (z2 x y) hq⟩
        · exact absurd o2.1 hq
    · rcases o1 with ⟨_, rfl⟩ | o1
      · simp only [hr, ne_eq, not_false_eq_true, if_true]
        exact ⟨_, _, rfl, ⟨hc, hs, ⟨ha, ha'⟩, ⟨hb, hb'⟩, hl, hp⟩, rfl, by simp, fun x y _ _ => absurd (z1 x y) hr⟩
      · exact absurd o1.1 hr

theorem strncpy_copy {t b : Bytes} (ht : t.length ≤ 64) (h0 : 0 ∉ t) (hb : ∃ l, b = l ++ [0] ∧ l.length = 64) :
    ∃ b', Settings.strncpy t 64 b = some b' ∧ Copy b' t := by
  obtain ⟨l, rfl, hl⟩ := hb
  have hle : 64 ≤ (l ++ [(0 : BitVec 8)]).length := by simp; omega
  refine ⟨t ++ List.replicate (64 - t.length) 0 ++ [0], ?_, ⟨_, rfl, by simp; omega⟩, Or.inr ?_⟩
  · simp only [Settings.strncpy, hle, if_true]
    rw [List.drop_append_of_le_length (by omega), List.drop_of_length_le (l := l) (by omega), List.take_of_length_le ht]
    simp
  · rw [List.append_assoc, ← List.replicate_succ']
    exact field_pad t h0 _

theorem kept_restart {c : Creds} (h : Kept c) (kept : Bool) : Kept (restart kept c) := by
  refine ⟨?_, h.saved, copy_blank _, copy_blank _, h.short, h.plain⟩
  cases kept
  · exact h.saved
  · exact h.cur

end WifiJoinAux

open WifiJoinAux

/-- C124 (retries): whatever is joined and whatever the driver reports, all calls are in bounds, and each time the network
is lost or cannot be joined the driver is asked to connect again at once, exactly if that happened at most ten times
since the station last had an address. -/
theorem C124_retries (ops : List Op) :
    ∃ s, run fresh ops = some s ∧
      ∀ after before, s.log = after ++ Item.heard .lost :: before →
        (after.getLast? = some .connect ↔ losses before < 10) := by
  obtain ⟨s, hs, h⟩ := all_run ops all_fresh
  exact ⟨s, hs, h.tries⟩

/-- C124 (answers, in part): who is told that a network is joined, the station did get an address before that; who is
told that it is not, the network was lost eleven times in a row at some time before, or the driver refused to connect
again. Missing: that this happened since the call and with the network that was asked for; see `C124_false_network` and
`C124_false_again`. -/
theorem C124_told_partial (ops : List Op) {s : St} (hs : run fresh ops = some s) :
    (∀ after before, s.log = after ++ Item.told true :: before → Item.heard .address ∈ before) ∧
    (∀ after before, s.log = after ++ Item.told false :: before →
      (∃ p q, before = p ++ q ∧ 11 ≤ losses q) ∨ before.head? = some .connect) := by
  obtain ⟨t, ht, h⟩ := all_run ops all_fresh
  rw [ht] at hs
  cases hs
  exact h.told

/-- C124 (first join, in part): the first join after a start gives the driver exactly the network and the password, of
at most 31 and 63 characters. It reports success exactly if the station gets an address before the network was lost
eleven times, and failure exactly if it is lost for the eleventh time before that. Missing: networks of 32 characters
and passwords of 64 (`C124_false_length`), and later joins (`C124_false_network`, `C124_false_again`). -/
theorem C124_first_partial (ssid pass : Bytes) (again : Bool) (evs : List Ev) :
    ∃ r s l, join ssid pass again evs fresh = some (r, s, l) ∧
      (r = some true ↔ ∃ pre post, evs = pre ++ .address :: post ∧ Ev.address ∉ pre ∧ pre.count .lost ≤ 10) ∧
      (r = some false ↔ ∃ pre post, evs = pre ++ .lost :: post ∧ Ev.address ∉ pre ∧ pre.count .lost = 10) ∧
      (0 ∉ ssid → 0 ∉ pass → ssid.length ≤ 31 → pass.length ≤ 63 →
        ∃ a b, (s.log.filterMap fun | .configure a b => some (a, b) | _ => none) = [(a, b)] ∧
          a.length = 32 ∧ b.length = 64 ∧ field a = ssid ∧ field b = pass) := by
  refine ⟨(finish pass evs (begun ssid pass)).1, (finish pass evs (begun ssid pass)).2.1,
    (finish pass evs (begun ssid pass)).2.2, join_fresh ssid pass again evs, ?_, ?_, ?_⟩
  · rw [(finish_result _ _ _).1, (wait_spec evs rfl rfl (by simp [begun])).1]
    simp [begun]
  · rw [(finish_result _ _ _).2, (wait_spec evs rfl rfl (by simp [begun])).2]
    simp [begun]
  · intro h0 h1 h2 h3
    refine ⟨_, _, given_finish _ _ _, ?_, ?_, field_short h0 h2, field_short h1 h3⟩
    · simp; omega
    · simp; omega

/-- C124 (first join): the hypotheses are met, and both answers occur. -/
example : (join [97] [98] true [.started, .lost, .associated, .address] fresh).map (·.1) = some (some true) ∧
    (join [97] [98] true (.started :: List.replicate 11 .lost) fresh).map (·.1) = some (some false) ∧
    (join [97] [98] true (.started :: List.replicate 10 .lost) fresh).map (·.1) = some none := by decide +kernel

/-- C124 fails: once a network was joined, a join of another one is answered with success at once. The driver is never
told about the other network, the station is disconnected, and nothing was heard from the driver since. -/
theorem C124_false_network :
    (run fresh [.join [97] [98] true [.started, .associated, .address], .join [99] [100] true []]).map (·.log) =
      some [.told true, .connect, .disconnect, .asked [99] [100],
        .told true, .heard .address, .heard .associated, .connect, .heard .started, .start,
        .configure ([97] ++ List.replicate 31 0) ([98] ++ List.replicate 63 0), .asked [97] [98]] := by decide +kernel

/-- C124 fails: once a join failed, later ones are answered with failure at once, and the driver is not asked to connect
(it is up already, so it does not report its start again). -/
theorem C124_false_again : ∃ s,
    run fresh [.join [97] [98] true (.started :: List.replicate 11 .lost), .join [99] [100] true []] = some s ∧
      s.log.take 5 = [.told false, .logged [100], .start, .configure ([99] ++ List.replicate 31 0)
        ([100] ++ List.replicate 63 0), .asked [99] [100]] := ⟨_, rfl, by decide +kernel⟩

/-- C124 fails: the command that saves credentials takes networks of 32 characters and passwords of 64, as the standard
allows, but the driver gets 31 and 63 of them. -/
theorem C124_false_length : ∃ (ssid pass : Bytes) (s : St), ssid.length = 32 ∧ pass.length = 64 ∧
    run fresh [.join ssid pass true []] = some s ∧
      s.log = [.start, .configure (List.replicate 31 97 ++ [0]) (List.replicate 63 98 ++ [0]), .asked ssid pass] :=
  ⟨List.replicate 32 97, List.replicate 64 98, _, by decide, by decide, rfl, by decide +kernel⟩

/-- C124 fails: when a join fails, the password is logged. -/
theorem C124_false_secret (ssid pass : Bytes) : ∃ r s l,
    join ssid pass true (.started :: List.replicate 11 .lost) fresh = some (r, s, l) ∧ Item.logged pass ∈ s.log := by
  have hc : ∃ pre post, (.started :: List.replicate 11 .lost : List Ev) = pre ++ .lost :: post ∧ Ev.address ∉ pre ∧
      (begun ssid pass).retry + pre.count .lost = 10 :=
    ⟨.started :: List.replicate 10 .lost, [], rfl, by decide, by simp [begun, List.count_cons]⟩
  generalize (.started :: List.replicate 11 .lost : List Ev) = evs at hc
  refine ⟨(finish pass evs (begun ssid pass)).1, (finish pass evs (begun ssid pass)).2.1,
    (finish pass evs (begun ssid pass)).2.2, join_fresh ssid pass true evs, finish_false ?_⟩
  rw [(finish_result _ _ _).2, (wait_spec evs rfl rfl (by simp [begun])).2]
  exact hc

/-! ## Credentials -/

/-- NVS takes and keeps what it is given. -/
def WifiWrites (e : Nvs) : Prop := e.opened.first = .ok ∧ e.opened.opened = 0 ∧ e.rw = 0 ∧ e.commit = 0

/-- NVS can be initialised; opening and reading may fail. -/
def WifiReads (e : Nvs) : Prop := e.opened.first = .ok

/-- Credentials are saved with success, by their own command; they may be read with or without success, other settings
may be changed with or without success, and the device may restart at any time. -/
def WifiWorks : COp → Prop
  | .config e1 e2 ssid pass => WifiWrites e1 ∧ WifiWrites e2 ∧ 0 ∉ ssid ∧ 0 ∉ pass
  | .load e1 e2 => WifiReads e1 ∧ WifiReads e2
  | .setting e key _ => WifiReads e ∧ key ≠ 0 ∧ key ≠ 1
  | .restart _ => True

namespace WifiJoinAux

theorem kept_step (d : Build) {c : Creds} {o : COp} (h : Kept c) (ho : WifiWorks o) :
    ∃ c', cstep d c o = some c' ∧ Kept c' := by
  cases o with
  | restart kept => exact ⟨_, rfl, kept_restart h kept⟩
  | load e1 e2 =>
    obtain ⟨r, c', hl, hk, _⟩ := load_ok d h ho.1 ho.2
    exact ⟨c', by simp [cstep, hl], hk⟩
  | setting e key v =>
    obtain ⟨r, t, hs, hc, hv⟩ := set_other d v h.cur h.saved ho.1 ho.2.1 ho.2.2
    exact ⟨{ c with nvs := t }, by simp [cstep, hs], ⟨hc, hv, h.ssid, h.pass, h.short, h.plain⟩⟩
  | config e1 e2 ssid pass =>
    obtain ⟨⟨a1, a2, a3, a4⟩, ⟨b1, b2, b3, b4⟩, p1, p2⟩ := ho
    by_cases l1 : ssid.length > 32
    · refine ⟨{ c with log := .given ssid pass :: c.log }, by simp [cstep, config, l1], ?_⟩
      have hcr : credentials (.given ssid pass :: c.log) = credentials c.log := by
        simp only [credentials]; rw [if_neg (by omega)]
      exact ⟨hcr ▸ h.cur, hcr ▸ h.saved, hcr ▸ h.ssid, hcr ▸ h.pass, hcr ▸ h.short, hcr ▸ h.plain⟩
    by_cases l2 : pass.length > 64
    · refine ⟨{ c with log := .given ssid pass :: c.log }, by simp [cstep, config, l1, l2], ?_⟩
      have hcr : credentials (.given ssid pass :: c.log) = credentials c.log := by
        simp only [credentials]; rw [if_neg (by omega)]
      exact ⟨hcr ▸ h.cur, hcr ▸ h.saved, hcr ▸ h.ssid, hcr ▸ h.pass, hcr ▸ h.short, hcr ▸ h.plain⟩
    obtain ⟨x, hx, cx⟩ := strncpy_copy (by omega) p1 h.ssid.1
    obtain ⟨y, hy, cy⟩ := strncpy_copy (by omega) p2 h.pass.1
    have hcr : credentials (.given ssid pass :: c.log) = (ssid, pass) := by
      simp only [credentials]; rw [if_pos (by omega)]
    have st : Stored ((n1, .text pass) :: (n0, .text ssid) :: c.nvs.cur) (ssid, pass) := by
      simp [Stored, List.lookup_cons, n01]
    refine ⟨⟨⟨(n1, .text pass) :: (n0, .text ssid) :: c.nvs.cur, (n1, .text pass) :: (n0, .text ssid) :: c.nvs.cur,
      c.nvs.log⟩, x, y, .given ssid pass :: c.log⟩, ?_, ?_⟩
    · simp only [cstep, config, l1, l2, if_false, save]
      rw [set_ok d _ _ (table0 d) a1 a2 a3 a4]
      dsimp only
      rw [set_ok d _ _ (table1 d) b1 b2 b3 b4]
      simp [hx, hy]
    · refine ⟨?_, ?_, ?_, ?_, ?_, ?_⟩
      · exact hcr ▸ st
      · exact hcr ▸ st
      · exact hcr ▸ cx
      · exact hcr ▸ cy
      · rw [hcr]; exact ⟨by simpa using l1, by simpa using l2⟩
      · rw [hcr]; exact ⟨p1, p2⟩

theorem kept_run (d : Build) : ∀ (ops : List COp) {c : Creds}, Kept c → (∀ o ∈ ops, WifiWorks o) →
    ∃ c', crun d c ops = some c' ∧ Kept c'
  | [], c, h, _ => ⟨c, rfl, h⟩
  | o :: l, c, h, ho => by
    obtain ⟨c1, h1, k1⟩ := kept_step d h (ho o (by simp))
    obtain ⟨c2, h2, k2⟩ := kept_run d l k1 fun o m => ho o (by simp [m])
    exact ⟨c2, by simp [crun, h1, h2], k2⟩

theorem kept_fresh : Kept freshCreds :=
  ⟨⟨rfl, rfl⟩, ⟨rfl, rfl⟩, copy_blank _, copy_blank _, by simp [freshCreds, credentials], by simp [freshCreds, credentials]⟩

end WifiJoinAux

/-- C124 (credentials, in part): after any history of saving, reading, changing other settings and restarting, reading
stays in bounds and gives exactly the credentials that were last given to the command and fit the standard, or nothing if
NVS fails. Missing: commands that fail in part (`C124_false_saved`) and the general command for settings
(`C124_false_settings`). -/
theorem C124_credentials_partial (d : Build) (ops : List COp) (hw : ∀ o ∈ ops, WifiWorks o) (e1 e2 : Nvs)
    (h1 : WifiReads e1) (h2 : WifiReads e2) :
    ∃ c r c', crun d freshCreds ops = some c ∧ load d e1 e2 c = some (some r, c') ∧
      (∀ a b, r = some (a, b) → field a = (credentials c.log).1 ∧ field b = (credentials c.log).2) ∧
      (WifiWrites e1 → WifiWrites e2 → r ≠ none) := by
  obtain ⟨c, hc, hk⟩ := kept_run d ops kept_fresh hw
  obtain ⟨r, c', hl, _, _, hr, hn⟩ := load_ok d hk h1 h2
  exact ⟨c, r, c', hc, hl, hr, fun w1 w2 => hn w1.2.1 w1.2.2.1 w2.2.1 w2.2.2.1⟩

/-- C124 (automatic join): after such a history, the automatic join does nothing while the station is connected or a part
of the credentials is empty; otherwise, if NVS can be read, it joins exactly the network that was saved, with its
password. -/
theorem C124_autojoin (d : Build) (ops : List COp) (hw : ∀ o ∈ ops, WifiWorks o) (e1 e2 : Nvs)
    (h1 : WifiWrites e1) (h2 : WifiWrites e2) (evs : List Ev) :
    ∃ c, crun d freshCreds ops = some c ∧ autojoin d true e1 e2 evs c fresh = some (c, fresh) ∧
      ∃ c' s, autojoin d false e1 e2 evs c fresh = some (c', s) ∧
        ((credentials c.log).1 = [] ∨ (credentials c.log).2 = [] → s.log = []) ∧
        ((credentials c.log).1 ≠ [] → (credentials c.log).2 ≠ [] →
          ∃ after, s.log = after ++ [.asked (credentials c.log).1 (credentials c.log).2] ∧
            ∀ a b, Item.asked a b ∉ after) := by
  obtain ⟨c, hc, hk⟩ := kept_run d ops kept_fresh hw
  obtain ⟨r, c', hl, _, _, hr, hn⟩ := load_ok d hk h1.1 h2.1
  have hn := hn h1.2.1 h1.2.2.1 h2.2.1 h2.2.2.1
  refine ⟨c, hc, rfl, ?_⟩
  cases r with
  | none => exact absurd rfl hn
  | some ab =>
    obtain ⟨a, b⟩ := ab
    obtain ⟨ra, rb⟩ := hr a b rfl
    unfold autojoin
    simp only [Bool.false_eq_true, if_false, hl, ra, rb]
    split
    · rename_i he
      refine ⟨_, _, rfl, fun _ => rfl, fun x y => ?_⟩
      rcases he with he | he
      · exact absurd (List.length_eq_zero_iff.1 he) x
      · exact absurd (List.length_eq_zero_iff.1 he) y
    · rename_i he
      refine ⟨c', ((finish (credentials c.log).2 evs (begun (credentials c.log).1 (credentials c.log).2)).2.2).foldl handle
        (finish (credentials c.log).2 evs (begun (credentials c.log).1 (credentials c.log).2)).2.1, ?_, ?_, ?_⟩
      · rw [join_fresh]; rfl
      · intro h
        rcases h with h | h <;> rw [h] at he <;> simp at he
      · intro _ _
        exact last_foldl _ (last_finish _ _ (last_begun _ _))

/-- C124 (credentials): the hypotheses are met by a history with a restart, a failed read and another setting. -/
example : ∃ ops : List COp, (∀ o ∈ ops, WifiWorks o) ∧
    (crun ⟨[], [], []⟩ freshCreds ops).map (fun c => credentials c.log) = some ([97], [98, 99]) :=
  ⟨[.config ⟨⟨.ok, true, .ok, 0⟩, 0, 0⟩ ⟨⟨.ok, true, .ok, 0⟩, 0, 0⟩ [97] [98, 99],
    .load ⟨⟨.ok, true, .ok, 0⟩, 5, 0⟩ ⟨⟨.ok, true, .ok, 7⟩, 0, 0⟩,
    .setting ⟨⟨.ok, true, .ok, 0⟩, 5, 3⟩ 3 (.number 7), .restart false,
    .config ⟨⟨.ok, true, .ok, 0⟩, 0, 0⟩ ⟨⟨.ok, true, .ok, 0⟩, 0, 0⟩ (List.replicate 33 1) []],
    by simp [WifiWorks, WifiWrites, WifiReads], by decide +kernel⟩

/-- C124 fails: if the network cannot be written but the password can, the command says that all is well and the copy is
changed as a whole: the new credentials are used until the device restarts, then the old network with the new
password. -/
theorem C124_false_saved : ∃ (good bad : Nvs) (c c' : Creds), WifiWrites good ∧
    crun ⟨[], [], []⟩ freshCreds [.config good good [97] [98]] = some c ∧
    config ⟨[], [], []⟩ bad good [99] [100] c = some (some 0, c') ∧
    (load ⟨[], [], []⟩ good good c').map (fun r => r.1.map (·.map fun (a, b) => (field a, field b))) =
      some (some (some ([99], [100]))) ∧
    (load ⟨[], [], []⟩ good good (restart false c')).map (fun r => r.1.map (·.map fun (a, b) => (field a, field b))) =
      some (some (some ([97], [100]))) :=
  ⟨⟨⟨.ok, true, .ok, 0⟩, 0, 0⟩, ⟨⟨.ok, true, .ok, 0⟩, 0x1105, 0⟩, _, _, by simp [WifiWrites], rfl, rfl,
    by decide +kernel, by decide +kernel⟩

/-- C124 fails: after the network was changed with the general command for settings, the copy still has the old one. -/
theorem C124_false_settings : ∃ (good : Nvs) (c : Creds), WifiWrites good ∧
    crun ⟨[], [], []⟩ freshCreds [.config good good [97] [98], .setting good 0 (.text [99])] = some c ∧
    (load ⟨[], [], []⟩ good good c).map (fun r => r.1.map (·.map fun (a, b) => (field a, field b))) =
      some (some (some ([97], [98]))) ∧
    (load ⟨[], [], []⟩ good good (restart false c)).map (fun r => r.1.map (·.map fun (a, b) => (field a, field b))) =
      some (some (some ([99], [98]))) :=
  ⟨⟨⟨.ok, true, .ok, 0⟩, 0, 0⟩, _, by simp [WifiWrites], rfl, by decide +kernel, by decide +kernel⟩

end Mflt.Props
