import Verif.Lemmas.LogSave

/-! # The log refines its specification -/

namespace Mflt.Log

open Spec.Log (Line Entry total lineSize makeRoom evicted lineOf dropped unsent takeUnread Op Out)

structure ConfigOk (cfg : Config) : Prop where
  min : 4 ≤ cfg.maxLine
  max : cfg.maxLine ≤ 255

/-- The trigger context and the specification's frozen upload. -/
def TrigRel (cfg : Config) (t : Trigger) (es : List Entry) : Option (Nat × Option Nat) → Prop
  | none => t = ⟨false, 0, none⟩
  | some (n, now) => cfg.dataSource = true ∧ t = ⟨true, n, now⟩ ∧ 0 < n ∧ n ≤ unsent es

structure Rel (cfg : Config) (s : State) (S : Spec.Log.State) : Prop where
  cap : S.cap < 2 ^ 31 - 8
  core : Core cfg s S.cap S.entries (dropped S) S.lost
  minLevel : s.minLevel = S.minLevel
  recorded : s.recorded = S.accepted.length % 2 ^ 32
  last : s.lastDropped = S.reported % 2 ^ 32
  trig : TrigRel cfg s.trigger S.entries S.frozen

theorem TrigRel.mono {cfg : Config} {t : Trigger} {es es' : List Entry} {f : Option (Nat × Option Nat)}
    (h : TrigRel cfg t es f) (hu : f.isSome → unsent es ≤ unsent es') : TrigRel cfg t es' f := by
  cases f with
  | none => exact h
  | some p =>
    obtain ⟨h1, h2, h3, h4⟩ := h
    exact ⟨h1, h2, h3, Nat.le_trans h4 (hu rfl)⟩

theorem TrigRel.triggered {cfg : Config} {t : Trigger} {es : List Entry}
    {f : Option (Nat × Option Nat)} (h : TrigRel cfg t es f) :
    t.triggered = f.isSome ∧ (cfg.dataSource && t.triggered) = f.isSome := by
  cases f with
  | none => simp only [TrigRel] at h; subst h; simp
  | some p => obtain ⟨h1, h2, h3, h4⟩ := h; subst h2; simp [h1]

theorem unsent_append (a b : List Entry) : unsent (a ++ b) = unsent a + unsent b := by
  simp [unsent]

/-! ## Saving -/

theorem save_rel {cfg : Config} (hc : ConfigOk cfg) {s : State} {S : Spec.Log.State}
    (h : Rel cfg s S) {level type : Nat} (hl : level < 8) (ht : type < 2) (text : Bytes)
    (now : Option Nat) :
    ∃ s', save cfg s level type text now = some s' ∧
      Rel cfg s' (Spec.Log.save cfg S level type text now) ∧
      (S.frozen.isSome ∨ total S.entries + lineSize (lineOf cfg level type text now) ≤ S.cap →
        s'.cb.readOffset = s.cb.readOffset) := by
  unfold save Spec.Log.save
  rw [h.minLevel]
  by_cases hm : level < S.minLevel
  · simp only [if_pos hm]; exact ⟨s, rfl, h, fun _ => rfl⟩
  simp only [if_neg hm]
  have hlen : 2 + (min text.length (cfg.maxLine - if (if cfg.timestamps then now else none).isSome then 4 else 0)
      + if (if cfg.timestamps then now else none).isSome then 4 else 0) % 256 =
      lineSize (lineOf cfg level type text now) := by
    rw [length_stored hc.min, lineSize_eq]
    have hb := body_lineOf cfg level type text now
    have := (lineOk_lineOf hc.min hl ht text now).len
    have hmx := hc.max
    rw [← hb]; omega
  rw [hlen]
  obtain ⟨t1, t2, t3⟩ := tryFreeSpace_eq (need := lineSize (lineOf cfg level type text now)) hc.max
    h.cap h.core
  have htr := h.trig.triggered.2
  by_cases hfit : total S.entries + lineSize (lineOf cfg level type text now) ≤ S.cap
  · rw [t1 hfit, if_pos hfit]
    simp only [Option.bind_some, if_true]
    obtain ⟨s', w1, w2, w3, w4, w5, w6⟩ := writeEntry_eq hc.min hc.max text now hl ht h.core hfit
    refine ⟨s', w1, ⟨h.cap, w2, by rw [w3, h.minLevel], ?_, by rw [w5, h.last], ?_⟩, ?_⟩
    · rw [w4, h.recorded, add32_mod]; simp
    · rw [w6]; exact h.trig.mono fun _ => by rw [unsent_append]; omega
    · intro _
      exact writeEntry_readOffset h.core w1
  · rw [if_neg hfit]
    by_cases href : S.cap < lineSize (lineOf cfg level type text now) ∨ S.frozen.isSome
    · rw [t2 hfit (by rw [htr]; exact href), if_pos href]
      simp only [Option.bind_some, Bool.false_eq_true, if_false]
      refine ⟨_, rfl, ⟨h.cap, ⟨h.core.ring, h.core.ok, ?_, h.core.pos⟩, h.minLevel, h.recorded, h.last,
        h.trig⟩, fun _ => rfl⟩
      simp only [h.core.drop, add32_mod, dropped]
      rw [show S.refused + S.forgotten + 1 = S.refused + 1 + S.forgotten by omega]
    · rw [if_neg href]
      obtain ⟨hn, hf⟩ := not_or.mp href
      have hf0 : S.frozen.isSome = false := by simpa using hf
      obtain ⟨s1, f1, f2, f3⟩ := t3 hfit (by omega) (by rw [htr, hf0])
      rw [f1]
      simp only [Option.bind_some, if_true]
      obtain ⟨s', w1, w2, w3, w4, w5, w6⟩ := writeEntry_eq hc.min hc.max text now hl ht f2
        (makeRoom_fits (by omega) _)
      refine ⟨s', w1, ⟨h.cap, ?_, by rw [w3, f3.minLevel, h.minLevel], ?_,
        by rw [w5, f3.lastDropped, h.last], ?_⟩, fun hfr => hfr.elim (absurd · hf) (absurd · hfit)⟩
      · simp only [dropped]
        rw [← Nat.add_assoc]
        exact w2
      · rw [w4, f3.recorded, h.recorded, add32_mod]; simp
      · rw [w6, f3.trigger]; exact h.trig.mono fun hfr => absurd hfr hf

/-! ## Reading -/

theorem toRecord_eq {cfg : Config} {e : Entry} (h : LineOk cfg e.line) :
    toRecord cfg (hdrOf e) (body e.line) = Spec.Log.record e.line := by
  obtain ⟨h1, h2, h3, -⟩ := hdr_facts h
  unfold toRecord Spec.Log.record
  rw [h1, h2, h3]
  cases hts : e.line.timestamp with
  | none => simp [body_eq, hts]
  | some t =>
    have hc := h.ts (by simp [hts])
    simp only [hc, body_eq, hts, Option.isSome_some, Bool.true_and, List.length_append, le32_length,
      Option.getD_some, ofLe32_le32 (h.tsLt t hts)]
    rw [if_pos (by simp), List.drop_left' (le32_length t)]

/-- The effect of `readCallback`. -/
def readEffect (_ : Option Record) (_ : Nat) (e : Entry) : Bool × Option Record × Entry :=
  (false, some (Spec.Log.record e.line), { e with read := true })

theorem readCallback_eq {cfg : Config} (hc : ConfigOk cfg) {ro cap : Nat} (hcap : cap < 2 ^ 31 - 8)
    (cb : CircBuf) (pre : List Entry) (e : Entry) (post : List Entry) (ctx : Option Record)
    (hr : Ring cb ro cap (pre ++ e :: post)) (hok : LineOk cfg e.line) :
    ∃ w, readCallback cfg ⟨cb, ⟨total pre, hdrOf e, UInt8.ofNat (body e.line).length⟩, ctx⟩ =
        some ((readEffect ctx (total pre) e).1, w) ∧
      Ring w.cb ro cap (pre ++ (readEffect ctx (total pre) e).2.2 :: post) ∧
      w.iter.readOffset = total pre ∧ w.iter.len = UInt8.ofNat (body e.line).length ∧
      w.ctx = (readEffect ctx (total pre) e).2.1 := by
  have hbit := (hdr_facts hok).2.2.2.2.2.1
  obtain ⟨cb', u1, u2⟩ := Ring.update (e' := { e with read := true }) hr (by omega) rfl
  have ht := hr.total_le
  rw [total_append, total_cons, lineSize_eq] at ht
  have hrb := Ring.read_body u2 (by omega)
  have hok' : LineOk cfg ({ e with read := true } : Entry).line := hok
  have hrec := toRecord_eq hok'
  simp only at hrb hrec
  unfold readCallback updateEntry
  simp only [hbit, u1, Option.map_some, Option.bind_some, Bool.not_true, Bool.false_eq_true, if_false,
    add32_eq (show total pre + 2 < 2 ^ 32 by omega), len_toNat hc.max hok, hrb,
    if_neg (Nat.not_lt.mpr hok.len), hrec]
  exact ⟨_, rfl, u2, rfl, rfl, rfl⟩

theorem takeUnread_split {rd un : List Entry} (hrd : ∀ e ∈ rd, e.read = true)
    (hun : ∀ e ∈ un, e.read = false) :
    takeUnread (rd ++ un) = match un with
      | [] => none
      | e :: un => some (e.line, rd ++ { e with read := true } :: un) := by
  induction rd with
  | nil =>
    cases un with
    | nil => rfl
    | cons e un => simp [takeUnread, hun e (by simp)]
  | cons x rd ih =>
    rw [List.cons_append, takeUnread, if_pos (hrd x (by simp)), ih fun e he => hrd e (by simp [he])]
    cases un <;> simp

theorem readEntry_rel {cfg : Config} (hc : ConfigOk cfg) {s : State} {S : Spec.Log.State}
    (h : Rel cfg s S) (hl : S.lost = false) :
    ∃ o s', readEntry cfg s = some (o, s') ∧ o.out = (Spec.Log.readLine S).1 ∧
      Rel cfg s' (Spec.Log.readLine S).2 ∧ s'.cb.readOffset = s.cb.readOffset := by
  obtain ⟨ro, hr⟩ := h.core.ring
  obtain ⟨rd, un, p1, p2, p3, p4⟩ := h.core.pos hl
  rw [p1] at hr
  obtain ⟨w, i1, i2, i3, i4⟩ := iterate_visit h.cap hc.max (g := readEffect) (fun _ _ _ => rfl)
    (fun cb pre e post ctx a b => readCallback_eq hc h.cap cb pre e post ctx a b)
    un 1 rd s.cb ⟨s.logReadOffset, 0, 0⟩ none hr
    (fun e he => h.core.ok e (by rw [p1]; simp [he])) p4 (.inr ⟨by omega, fun _ _ _ => rfl⟩)
  unfold readEntry Spec.Log.readLine
  rw [i1, p1, takeUnread_split p2 p3]
  simp only [Option.map_some]
  refine ⟨_, _, rfl, ?_⟩
  rw [i2, i4]
  have hro : s.cb.readOffset = ro := hr.ro
  cases un with
  | nil =>
    simp only [visit, List.append_nil] at i3 ⊢
    refine ⟨rfl, ⟨h.cap, ⟨⟨ro, by rw [p1, List.append_nil]; exact i3⟩, h.core.ok, h.core.drop, ?_⟩, h.minLevel, h.recorded,
      h.last, h.trig⟩, by rw [i3.ro, hro]⟩
    intro _
    exact ⟨rd, [], p1, p2, by simp, rfl⟩
  | cons e un =>
    simp only [visit, readEffect, Bool.false_eq_true, if_false] at i3 ⊢
    refine ⟨rfl, ⟨h.cap, ⟨⟨ro, i3⟩, ?_, h.core.drop, ?_⟩, h.minLevel, h.recorded,
      h.last, ?_⟩, by rw [i3.ro, hro]⟩
    · intro x hx
      rcases List.mem_append.mp hx with hx | hx
      · exact h.core.ok x (by rw [p1]; simp [hx])
      · rcases List.mem_cons.mp hx with hx | hx
        · subst hx; exact h.core.ok e (by rw [p1]; simp)
        · exact h.core.ok x (by rw [p1]; simp [hx])
    · intro _
      refine ⟨rd ++ [{ e with read := true }], un, by simp, ?_, fun x hx => p3 x (by simp [hx]), ?_⟩
      · intro x hx
        rcases List.mem_append.mp hx with hx | hx
        · exact p2 x hx
        · simp only [List.mem_singleton] at hx; subst hx; rfl
      · rw [total_append, total_cons, total_nil]; rfl
    · refine h.trig.mono fun _ => ?_
      rw [p1]
      simp [unsent, List.countP_append, List.countP_cons]

theorem read_rel {cfg : Config} (hc : ConfigOk cfg) {s : State} {S : Spec.Log.State}
    (h : Rel cfg s S) {o : Out} {S' : Spec.Log.State}
    (hs : Spec.Log.step cfg S .read = some (o, S')) :
    ∃ o' s', read cfg s = some (o', s') ∧ o'.out = o ∧ Rel cfg s' S' ∧
      s'.cb.readOffset = s.cb.readOffset := by
  simp only [Spec.Log.step] at hs
  by_cases hl : S.lost = true
  · simp [hl] at hs
  rw [if_neg hl] at hs
  have hl0 : S.lost = false := by simpa using hl
  have hd := h.core.drop
  unfold read
  have hrel : ∀ x, x = S.reported % 2 ^ 32 ∨ x = dropped S % 2 ^ 32 → x = dropped S % 2 ^ 32 →
      Rel cfg { s with lastDropped := x } { S with reported := dropped S } := by
    intro x _ hx
    exact ⟨h.cap, ⟨h.core.ring, h.core.ok, h.core.drop, h.core.pos⟩, h.minLevel, h.recorded, hx, h.trig⟩
  by_cases hne : s.lastDropped ≠ s.dropped
  · rw [if_pos hne]
    by_cases h0 : s.dropped > 0
    · rw [if_pos h0]
      rw [if_pos (by rw [← hd, ← h.last]; exact ⟨hne.symm, by omega⟩)] at hs
      simp only [Option.some.injEq, Prod.mk.injEq] at hs
      obtain ⟨rfl, rfl⟩ := hs
      exact ⟨_, _, rfl, by rw [hd]; rfl, hrel _ (.inr hd) hd, rfl⟩
    · rw [if_neg h0]
      rw [if_neg (by rw [← hd]; omega)] at hs
      obtain ⟨o', s', r1, r2, r3, r4⟩ := readEntry_rel hc (hrel _ (.inr hd) hd) hl0
      simp only [Option.some.injEq] at hs
      rw [hs] at r2 r3
      exact ⟨o', s', r1, r2, r3, r4⟩
  · rw [if_neg hne]
    have he : s.lastDropped = s.dropped := Decidable.not_not.mp hne
    rw [if_neg (by rw [← hd, ← h.last]; intro hx; exact hx.1 he.symm)] at hs
    have h' : Rel cfg s { S with reported := dropped S } := by
      have := hrel s.lastDropped (.inl h.last) (by rw [he, hd])
      exact this
    obtain ⟨o', s', r1, r2, r3, r4⟩ := readEntry_rel hc h' hl0
    simp only [Option.some.injEq] at hs
    rw [hs] at r2 r3
    exact ⟨o', s', r1, r2, r3, r4⟩

/-! ## Counting and marking -/

def countEffect (c : Nat) (_ : Nat) (e : Entry) : Bool × Nat × Entry :=
  (true, if !e.sent then c + 1 else c, e)

theorem visit_count (es : List Entry) : ∀ off c,
    (visit countEffect off c es).1 = c + unsent es := by
  induction es with
  | nil => intro off c; simp [visit, unsent]
  | cons e es ih =>
    intro off c
    simp only [visit, countEffect, if_true]
    rw [ih]
    obtain ⟨l, r, t⟩ := e
    cases t <;> simp [unsent, List.countP_cons]; omega

theorem countUnsent_eq {cfg : Config} (hc : ConfigOk cfg) {s : State} {S : Spec.Log.State}
    (h : Rel cfg s S) : countUnsent s = some (unsent S.entries) := by
  obtain ⟨ro, hr⟩ := h.core.ring
  obtain ⟨w, i1, i2, -, -⟩ := iterate_visit h.cap hc.max (callback := countCallback) (g := countEffect)
    (fun _ _ _ => rfl)
    (fun cb pre e post ctx a b => by
      have hb := (hdr_facts b).2.2.2.1
      unfold countCallback
      simp only [hb, countEffect]
      refine ⟨_, rfl, ?_⟩
      cases e.sent <;> exact ⟨a, rfl, rfl, rfl⟩)
    S.entries (walkFuel s.cb) [] s.cb ⟨0, 0, 0⟩ 0 hr h.core.ok rfl
    (.inl (by
      have := length_le_total S.entries
      unfold walkFuel; rw [hr.readSize]; omega))
  unfold countUnsent
  rw [i1, Option.map_some, i2, visit_count]
  simp

def markEffect (n : Nat) (c : Nat) (_ : Nat) (e : Entry) : Bool × Nat × Entry :=
  if !e.sent then (decide (c + 1 ≠ n), c + 1, { e with sent := true }) else (true, c, e)

theorem visit_mark (n : Nat) (es : List Entry) : ∀ off c, c < n →
    (visit (markEffect n) off c es).2.1 = Spec.Log.markSent (n - c) es := by
  induction es with
  | nil =>
    intro off c hlt
    obtain ⟨k, hk⟩ : ∃ k, n - c = k + 1 := ⟨n - c - 1, by omega⟩
    rw [hk]; rfl
  | cons e es ih =>
    intro off c hlt
    obtain ⟨k, hk⟩ : ∃ k, n - c = k + 1 := ⟨n - c - 1, by omega⟩
    rw [hk]
    simp only [visit, markEffect, Spec.Log.markSent]
    obtain ⟨l, r, t⟩ := e
    cases t with
    | true =>
      simp only [Bool.not_true, Bool.false_eq_true, if_false, if_true]
      rw [ih _ _ hlt, hk]
    | false =>
      simp only [Bool.not_false, if_true, Bool.false_eq_true, if_false]
      by_cases hn : c + 1 = n
      · simp only [hn, ne_eq, not_true_eq_false, decide_false, Bool.false_eq_true, if_false]
        rw [show k = 0 by omega]; simp [Spec.Log.markSent]
      · simp only [ne_eq, hn, not_false_eq_true, decide_true, if_true]
        rw [ih _ _ (by omega), show n - (c + 1) = k by omega]

theorem markSent_map {α : Type} (f : Entry → α) (hf : ∀ e b, f { e with sent := b } = f e) :
    ∀ (es : List Entry) (n : Nat), (Spec.Log.markSent n es).map f = es.map f := by
  intro es
  induction es with
  | nil => intro n; cases n <;> rfl
  | cons e es ih =>
    intro n
    cases n with
    | zero => rfl
    | succ n =>
      unfold Spec.Log.markSent
      split
      · rw [List.map_cons, ih, List.map_cons]
      · rw [List.map_cons, ih, List.map_cons, hf]

theorem markSent_split : ∀ (rd un : List Entry) (n : Nat), ∃ m,
    Spec.Log.markSent n (rd ++ un) = Spec.Log.markSent n rd ++ Spec.Log.markSent m un := by
  intro rd
  induction rd with
  | nil => intro un n; exact ⟨n, by cases n <;> rfl⟩
  | cons e rd ih =>
    intro un n
    cases n with
    | zero => exact ⟨0, by simp [Spec.Log.markSent]⟩
    | succ n =>
      simp only [List.cons_append, Spec.Log.markSent]
      split
      · obtain ⟨m, hm⟩ := ih un (n + 1); exact ⟨m, by rw [hm]; rfl⟩
      · obtain ⟨m, hm⟩ := ih un n; exact ⟨m, by rw [hm]; rfl⟩

theorem markSent_forall {p : Entry → Prop} (hp : ∀ e b, p e → p { e with sent := b })
    {es : List Entry} (h : ∀ e ∈ es, p e) (n : Nat) : ∀ e ∈ Spec.Log.markSent n es, p e := by
  induction es generalizing n with
  | nil => cases n <;> simp [Spec.Log.markSent]
  | cons e es ih =>
    have ih' := fun n => ih (fun x hx => h x (by simp [hx])) n
    cases n with
    | zero => exact h
    | succ n =>
      unfold Spec.Log.markSent
      split
      · intro x hx
        rcases List.mem_cons.mp hx with hx | hx
        · subst hx; exact h _ (by simp)
        · exact ih' _ x hx
      · intro x hx
        rcases List.mem_cons.mp hx with hx | hx
        · subst hx; exact hp _ _ (h e (by simp))
        · exact ih' _ x hx

theorem total_markSent (es : List Entry) (n : Nat) : total (Spec.Log.markSent n es) = total es := by
  unfold total
  rw [markSent_map _ (fun _ _ => rfl)]

theorem markSent_rel {cfg : Config} (hc : ConfigOk cfg) {s : State} {S : Spec.Log.State}
    (h : Rel cfg s S) {n : Nat} {now : Option Nat} (hf : S.frozen = some (n, now)) :
    ∃ s', markSent s = some s' ∧
      Rel cfg s' { S with entries := Spec.Log.markSent n S.entries, frozen := none } ∧
      s'.cb.readOffset = s.cb.readOffset := by
  obtain ⟨ro, hr⟩ := h.core.ring
  have ht := h.trig
  rw [hf] at ht
  obtain ⟨t1, t2, t3, t4⟩ := ht
  have hn : s.trigger.numLogs = n := by rw [t2]
  obtain ⟨w, i1, i2, i3, i4⟩ := iterate_visit h.cap hc.max (callback := markCallback n)
    (g := markEffect n)
    (fun c o e => by unfold markEffect; split <;> rfl)
    (fun cb pre e post ctx a b => by
      have hb := (hdr_facts b).2.2.2.1
      have hbit := (hdr_facts b).2.2.2.2.2.2.1
      unfold markCallback markEffect
      simp only [hb]
      cases hs : e.sent with
      | true => exact ⟨_, rfl, a, rfl, rfl, rfl⟩
      | false =>
        obtain ⟨cb', u1, u2⟩ := Ring.update (e' := { e with sent := true }) a (by have := h.cap; omega) rfl
        simp only [Bool.not_false, if_true, updateEntry, hbit, u1, Option.map_some]
        exact ⟨_, rfl, u2, rfl, rfl, rfl⟩)
    S.entries (walkFuel s.cb) [] s.cb ⟨0, 0, 0⟩ 0 hr h.core.ok rfl
    (.inl (by
      have := length_le_total S.entries
      unfold walkFuel; rw [hr.readSize]; omega))
  unfold markSent
  rw [hn, i1]
  refine ⟨_, rfl, ⟨h.cap, ⟨⟨ro, ?_⟩, ?_, h.core.drop, ?_⟩, h.minLevel, h.recorded, h.last, rfl⟩, i3.ro.trans hr.ro.symm⟩
  · have := i3
    rw [visit_mark n _ _ _ t3] at this
    simpa using this
  · exact markSent_forall (p := fun e => LineOk cfg e.line) (fun _ _ x => x) h.core.ok n
  · intro hl
    obtain ⟨rd, un, p1, p2, p3, p4⟩ := h.core.pos hl
    obtain ⟨m, hm⟩ := markSent_split rd un n
    refine ⟨Spec.Log.markSent n rd, Spec.Log.markSent m un, by simp only [p1, hm], ?_, ?_, ?_⟩
    · exact markSent_forall (p := fun e => e.read = true) (fun _ _ x => x) p2 n
    · exact markSent_forall (p := fun e => e.read = false) (fun _ _ x => x) p3 m
    · rw [total_markSent]; exact p4

/-! ## Every call -/

theorem step_rel {cfg : Config} (hc : ConfigOk cfg) {s : State} {S S' : Spec.Log.State}
    (h : Rel cfg s S) {op : Op} {o : Out} (hs : Spec.Log.step cfg S op = some (o, S')) :
    ∃ s', step cfg s op = some (o, s') ∧ Rel cfg s' S' ∧
      (S.frozen.isSome → op ≠ .markSent → s'.cb.readOffset = s.cb.readOffset) := by
  cases op with
  | save level type text now =>
    simp only [Spec.Log.step] at hs
    by_cases hd : level < 8 ∧ type < 2
    · rw [if_pos hd] at hs
      simp only [Option.some.injEq, Prod.mk.injEq] at hs
      obtain ⟨rfl, rfl⟩ := hs
      obtain ⟨s', r1, r2, r3⟩ := save_rel hc h hd.1 hd.2 text now
      exact ⟨s', by simp [step, r1], r2, fun hf _ => r3 (.inl hf)⟩
    · rw [if_neg hd] at hs; cases hs
  | setMinLevel level =>
    simp only [Spec.Log.step, Option.some.injEq, Prod.mk.injEq] at hs
    obtain ⟨rfl, rfl⟩ := hs
    exact ⟨_, rfl, ⟨h.cap, ⟨h.core.ring, h.core.ok, h.core.drop, h.core.pos⟩, rfl, h.recorded, h.last,
      h.trig⟩, fun _ _ => rfl⟩
  | read =>
    obtain ⟨o', s', r1, r2, r3, r4⟩ := read_rel hc h hs
    exact ⟨s', by simp [step, r1, r2], r3, fun _ _ => r4⟩
  | trigger now =>
    simp only [Spec.Log.step] at hs
    have htr := h.trig.triggered
    cases hds : cfg.dataSource with
    | false => simp [hds] at hs
    | true =>
      simp only [hds, not_true_eq_false, if_false] at hs
      simp only [step, triggerCollection, htr.1, countUnsent_eq hc h, Option.map_some]
      by_cases hf : S.frozen.isSome = true
      · rw [if_pos (.inl hf)] at hs
        simp only [Option.some.injEq, Prod.mk.injEq] at hs
        obtain ⟨rfl, rfl⟩ := hs
        rw [if_pos hf]
        exact ⟨s, rfl, h, fun _ _ => rfl⟩
      · rw [if_neg hf]
        by_cases hu : unsent S.entries = 0
        · rw [if_pos (.inr hu)] at hs
          simp only [Option.some.injEq, Prod.mk.injEq] at hs
          obtain ⟨rfl, rfl⟩ := hs
          simp only [if_pos hu]
          exact ⟨s, rfl, h, fun _ _ => rfl⟩
        · rw [if_neg (not_or.mpr ⟨hf, hu⟩)] at hs
          simp only [Option.some.injEq, Prod.mk.injEq] at hs
          obtain ⟨rfl, rfl⟩ := hs
          simp only [if_neg hu]
          exact ⟨_, rfl, ⟨h.cap, ⟨h.core.ring, h.core.ok, h.core.drop, h.core.pos⟩, h.minLevel,
            h.recorded, h.last, ⟨hds, rfl, by omega, Nat.le_refl _⟩⟩, fun _ _ => rfl⟩
  | markSent =>
    simp only [Spec.Log.step] at hs
    cases hf : S.frozen with
    | none => simp [hf] at hs
    | some p =>
      obtain ⟨n, now⟩ := p
      simp only [hf, Option.map_some, Option.some.injEq, Prod.mk.injEq] at hs
      obtain ⟨rfl, rfl⟩ := hs
      obtain ⟨s', r1, r2, -⟩ := markSent_rel hc h hf
      exact ⟨s', by simp [step, r1], r2, fun _ hx => absurd rfl hx⟩
  | unsentCount =>
    simp only [Spec.Log.step, Option.some.injEq, Prod.mk.injEq] at hs
    obtain ⟨rfl, rfl⟩ := hs
    exact ⟨s, by simp [step, countUnsent_eq hc h], h, fun _ _ => rfl⟩
  | droppedCount =>
    simp only [Spec.Log.step, Option.some.injEq, Prod.mk.injEq] at hs
    obtain ⟨rfl, rfl⟩ := hs
    exact ⟨s, by simp [step, h.core.drop], h, fun _ _ => rfl⟩
  | recordedCount =>
    simp only [Spec.Log.step, Option.some.injEq, Prod.mk.injEq] at hs
    obtain ⟨rfl, rfl⟩ := hs
    exact ⟨s, by simp [step, h.recorded], h, fun _ _ => rfl⟩

theorem run_rel {cfg : Config} (hc : ConfigOk cfg) (ops : List Op) :
    ∀ {s : State} {S S' : Spec.Log.State}, Rel cfg s S → ∀ {outs : List Out},
    Spec.Log.run cfg S ops = some (outs, S') →
    ∃ s', run cfg s ops = some (outs, s') ∧ Rel cfg s' S' := by
  induction ops with
  | nil =>
    intro s S S' h outs hs
    simp only [Spec.Log.run, Option.some.injEq, Prod.mk.injEq] at hs
    obtain ⟨rfl, rfl⟩ := hs
    exact ⟨s, rfl, h⟩
  | cons op ops ih =>
    intro s S S' h outs hs
    simp only [Spec.Log.run, Option.bind_eq_some_iff, Option.map_eq_some_iff] at hs
    obtain ⟨⟨o, S1⟩, a1, ⟨os, S2⟩, a2, a3⟩ := hs
    simp only [Prod.mk.injEq] at a3
    obtain ⟨rfl, rfl⟩ := a3
    obtain ⟨s1, b1, b2, -⟩ := step_rel hc h a1
    obtain ⟨s2, c1, c2⟩ := ih b2 a2
    exact ⟨s2, by simp [run, b1, c1], c2⟩

theorem boot_rel (cfg : Config) (minLevel : Nat) {cap : Nat} (h0 : 0 < cap) (hcap : cap < 2 ^ 31 - 8) :
    ∃ s, boot minLevel cap = some s ∧ Rel cfg s (Spec.Log.init minLevel cap) := by
  cases hi : CircBuf.init cap with
  | none => unfold CircBuf.init at hi; split at hi <;> simp at hi; omega
  | some cb =>
    obtain ⟨i1, i2, i3⟩ := CircBuf.init_inv hi
    refine ⟨⟨minLevel, 0, 0, 0, cb, 0, ⟨false, 0, none⟩⟩, by unfold boot; rw [hi]; rfl, hcap, ⟨⟨cb.readOffset, i1, rfl, i3, i2⟩, by simp [Spec.Log.init], rfl, ?_⟩,
      rfl, rfl, rfl, rfl⟩
    intro _
    exact ⟨[], [], rfl, by simp, by simp, rfl⟩

end Mflt.Log
