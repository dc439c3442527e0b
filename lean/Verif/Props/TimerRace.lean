import Verif.Spec.TimerRace

/-! # C103: timers while heartbeats are made -/

namespace Mflt.Props

open TimerRace Spec.TimerRace

private structure Timely (w : Watch) (now : Nat) : Prop where
  since : ∀ u, w.since = some u → u ≤ now

private theorem shows_tick {w : Watch} {now : Nat} (h : Timely w now) (ms : Nat) :
    w.shows (now + ms) = w.shows now + (if w.since.isSome then ms else 0) ∧ Timely w (now + ms) := by
  cases hw : w.since with
  | none => exact ⟨by simp [Watch.shows, hw], ⟨by simp [hw]⟩⟩
  | some u =>
    have := h.since u hw
    refine ⟨by simp [Watch.shows, hw]; omega, ⟨fun v hv => ?_⟩⟩
    rw [hw] at hv; cases hv; omega

private theorem shows_on {w : Watch} {now : Nat} (h : Timely w now) :
    (w.on now).shows now = w.shows now ∧ Timely (w.on now) now ∧ (w.on now).since.isSome := by
  unfold Watch.on
  cases hw : w.since with
  | none => exact ⟨by simp [Watch.shows, hw], ⟨by simp⟩, rfl⟩
  | some u => exact ⟨rfl, h, by simp [hw]⟩

private theorem shows_off {w : Watch} {now : Nat} (h : Timely w now) :
    (w.off now).shows now = w.shows now ∧ Timely (w.off now) now ∧ (w.off now).since = none := by
  unfold Watch.off
  cases hw : w.since with
  | none => exact ⟨rfl, h, hw⟩
  | some u => exact ⟨by simp [Watch.shows, hw], ⟨by simp⟩, rfl⟩

/-- The time that is accounted for. -/
private def accounted (m : Mem) (now : Nat) : Nat := m.value + (if m.running then now - m.start else 0)

private structure Stable (m : Mem) (now : Nat) (w z : Watch) : Prop where
  upper : accounted m now ≤ w.shows now
  lower : z.shows now ≤ accounted m now
  start : m.running = true → m.start ≤ now ∧ w.since.isSome
  short : z.since.isSome → m.running = true

/-- The timer in the middle of an update; `b` is the least that may be counted. -/
private def Upd (m : Mem) (now : Nat) (w z : Watch) (b : Nat) : Pc → Prop
  | .stopTime op => m.start ≤ now ∧ m.value + (now - m.start) ≤ w.shows now ∧
      z.shows now ≤ m.value + (now - m.start) ∧ (op = .stop → z.since = none) ∧ op ≠ .start ∧
      b ≤ m.value + (now - m.start)
  | .startOf op st => m.start ≤ st ∧ st ≤ now ∧ m.value + (now - m.start) ≤ w.shows now ∧
      z.shows now ≤ m.value + (now - m.start) ∧
      (op = .stop → z.since = none ∧ z.shows now ≤ m.value + (st - m.start)) ∧ op ≠ .start ∧
      b ≤ m.value + (st - m.start)
  | .load op st d => d = st - m.start ∧ m.start ≤ st ∧ st ≤ now ∧ m.value + (now - m.start) ≤ w.shows now ∧
      z.shows now ≤ m.value + (now - m.start) ∧
      (op = .stop → z.since = none ∧ z.shows now ≤ m.value + (st - m.start)) ∧ op ≠ .start ∧
      b ≤ m.value + (st - m.start)
  | .store op st v => v = m.value + (st - m.start) ∧ m.start ≤ st ∧ st ≤ now ∧
      m.value + (now - m.start) ≤ w.shows now ∧ z.shows now ≤ m.value + (now - m.start) ∧
      (op = .stop → z.since = none ∧ z.shows now ≤ m.value + (st - m.start)) ∧ op ≠ .start ∧
      b ≤ m.value + (st - m.start)
  | .setLap st => st ≤ now ∧ m.value + (now - st) ≤ w.shows now ∧ z.shows now ≤ m.value + (now - st) ∧ b ≤ m.value
  | .clearStart => z.since = none ∧ m.value ≤ w.shows now ∧ z.shows now ≤ m.value
  | .clearRunning => z.since = none ∧ m.value ≤ w.shows now ∧ z.shows now ≤ m.value
  | _ => False

/-- The accesses of an update for an operation. -/
private def OpPc (op : Op) : Pc → Prop
  | .stopTime o => o = op
  | .startOf o _ => o = op
  | .load o _ _ => o = op
  | .store o _ _ => o = op
  | .setLap _ => op ≠ .stop
  | .clearStart => op = .stop
  | .clearRunning => op = .stop
  | _ => False

private theorem upd_access {m : Mem} {now : Nat} {w z : Watch} {b : Nat} {pc : Pc} {op : Op}
    (h : Upd m now w z b pc) (hp : OpPc op pc) (hr : m.running = true) (hw : w.since.isSome)
    (hn : now < 2 ^ 31) (hb : w.shows now ≤ now) :
    (∃ pc' m', access m now pc = (some pc', m') ∧ Upd m' now w z b pc' ∧ OpPc op pc' ∧ m'.running = true) ∨
      (∃ m', access m now pc = (none, m') ∧ Stable m' now w z ∧ (op ≠ .stop → m'.running = true ∧ b ≤ m'.value) ∧
        (op = .stop → m'.running = false)) := by
  have hmod : ∀ x, x ≤ now → x % 2 ^ 31 = x := fun x hx => Nat.mod_eq_of_lt (by omega)
  cases pc with
  | running _ => exact h.elim
  | startTime => exact h.elim
  | setStart _ => exact h.elim
  | setRunning => exact h.elim
  | stopTime o =>
    obtain ⟨h1, h2, h3, h4, h5, h6⟩ := h
    refine .inl ⟨_, _, rfl, ?_, hp, hr⟩
    rw [hmod now (Nat.le_refl _)]
    exact ⟨h1, Nat.le_refl _, h2, h3, fun ho => ⟨h4 ho, h3⟩, h5, h6⟩
  | startOf o st =>
    obtain ⟨h1, h2, h3, h4, h5, h6⟩ := h
    refine .inl ⟨_, _, rfl, ?_, hp, hr⟩
    rw [if_pos h1]
    exact ⟨rfl, h1, h2, h3, h4, h5, h6⟩
  | load o st d =>
    obtain ⟨rfl, h1, h2, h3, h4, h5, h6⟩ := h
    refine .inl ⟨_, _, rfl, ?_, hp, hr⟩
    exact ⟨Nat.mod_eq_of_lt (by omega), h1, h2, h3, h4, h5, h6⟩
  | store o st v =>
    obtain ⟨rfl, h1, h2, h3, h4, h5, h6, h7⟩ := h
    obtain rfl : o = op := hp
    refine .inl ⟨_, _, rfl, ?_, ?_, hr⟩
    · by_cases ho : o = .stop
      · rw [if_pos ho]
        exact ⟨(h5 ho).1, by dsimp only; omega, (h5 ho).2⟩
      · rw [if_neg ho]
        exact ⟨h2, by dsimp only; omega, by dsimp only; omega, h7⟩
    · by_cases ho : o = .stop
      · rw [if_pos ho]; exact ho
      · rw [if_neg ho]; exact ho
  | setLap st =>
    obtain ⟨h1, h2, h3, h4⟩ := h
    refine .inr ⟨_, rfl, ?_, fun _ => ⟨hr, h4⟩, fun ho => absurd ho hp⟩
    have ha : accounted { m with start := st } now = m.value + (now - st) := by simp [accounted, hr]
    exact ⟨by rw [ha]; exact h2, by rw [ha]; exact h3, fun _ => ⟨h1, hw⟩, fun _ => hr⟩
  | clearStart =>
    exact .inl ⟨_, _, rfl, h, hp, hr⟩
  | clearRunning =>
    obtain ⟨h1, h2, h3⟩ := h
    refine .inr ⟨_, rfl, ?_, fun ho => absurd hp ho, fun _ => rfl⟩
    have ha : accounted { m with running := false } now = m.value := by simp [accounted]
    exact ⟨by rw [ha]; exact h2, by rw [ha]; exact h3, fun hc => (by cases hc),
      fun hc => (by rw [h1] at hc; cases hc)⟩

private theorem upd_tick {m : Mem} {now : Nat} {w z : Watch} {b : Nat} {pc : Pc} (h : Upd m now w z b pc)
    (hw : Timely w now) (hz : Timely z now) (hs : w.since.isSome) (ms : Nat) : Upd m (now + ms) w z b pc := by
  have h1 := (shows_tick hw ms).1
  have h2 := (shows_tick hz ms).1
  have h3 : z.shows (now + ms) ≤ z.shows now + ms := by rw [h2]; split <;> omega
  have h4 : z.since = none → z.shows (now + ms) = z.shows now := by intro hn; rw [h2, hn]; rfl
  rw [if_pos hs] at h1
  cases pc with
  | running _ => exact h.elim
  | startTime => exact h.elim
  | setStart _ => exact h.elim
  | setRunning => exact h.elim
  | stopTime o =>
    obtain ⟨a1, a2, a3, a4, a5⟩ := h
    exact ⟨by omega, by omega, by omega, a4, a5.1, by have := a5.2; omega⟩
  | startOf o st =>
    obtain ⟨a1, a2, a3, a4, a5, a6⟩ := h
    exact ⟨a1, by omega, by omega, by omega, fun ho => ⟨(a5 ho).1, by rw [h4 (a5 ho).1]; exact (a5 ho).2⟩, a6⟩
  | load o st d =>
    obtain ⟨a0, a1, a2, a3, a4, a5, a6⟩ := h
    exact ⟨a0, a1, by omega, by omega, by omega, fun ho => ⟨(a5 ho).1, by rw [h4 (a5 ho).1]; exact (a5 ho).2⟩, a6⟩
  | store o st v =>
    obtain ⟨a0, a1, a2, a3, a4, a5, a6⟩ := h
    exact ⟨a0, a1, by omega, by omega, by omega, fun ho => ⟨(a5 ho).1, by rw [h4 (a5 ho).1]; exact (a5 ho).2⟩, a6⟩
  | setLap st =>
    obtain ⟨a1, a2, a3, a4⟩ := h
    exact ⟨by omega, by omega, by omega, a4⟩
  | clearStart =>
    obtain ⟨a1, a2, a3⟩ := h
    exact ⟨a1, by omega, by rw [h4 a1]; exact a3⟩
  | clearRunning =>
    obtain ⟨a1, a2, a3⟩ := h
    exact ⟨a1, by omega, by rw [h4 a1]; exact a3⟩

private theorem stable_tick {m : Mem} {now : Nat} {w z : Watch} (h : Stable m now w z)
    (hw : Timely w now) (hz : Timely z now) (ms : Nat) : Stable m (now + ms) w z := by
  have h1 := (shows_tick hw ms).1
  have h2 := (shows_tick hz ms).1
  obtain ⟨a1, a2, a3, a4⟩ := h
  unfold accounted at a1 a2
  cases hr : m.running with
  | true =>
    obtain ⟨b1, b2⟩ := a3 hr
    rw [hr, if_pos rfl] at a1 a2
    rw [if_pos b2] at h1
    have h3 : z.shows (now + ms) ≤ z.shows now + ms := by rw [h2]; split <;> omega
    refine ⟨?_, ?_, fun _ => ⟨by omega, b2⟩, fun _ => hr⟩
    · simp only [accounted, hr, if_true]; omega
    · simp only [accounted, hr, if_true]; omega
  | false =>
    rw [hr] at a1 a2
    simp only [Bool.false_eq_true, if_false] at a1 a2
    have hz' : z.since = none := by
      cases hc : z.since with
      | none => rfl
      | some u => have := a4 (by simp [hc]); rw [hr] at this; cases this
    rw [hz'] at h2
    refine ⟨?_, ?_, fun hc => by (rw [hr] at hc; cases hc), a4⟩
    · simp only [accounted, hr, Bool.false_eq_true, if_false, h1]; split <;> omega
    · simp only [accounted, hr, Bool.false_eq_true, if_false, h2]; simpa using a2

/-- The timer in the middle of being started. -/
private def Starting (m : Mem) (now : Nat) (w : Watch) : Pc → Prop
  | .startTime => m.value ≤ w.shows now
  | .setStart t => t ≤ now ∧ m.value + (now - t) ≤ w.shows now
  | .setRunning => m.start ≤ now ∧ m.value + (now - m.start) ≤ w.shows now
  | _ => False

private def QuietCall (c : Option (Op × Nat × Pc)) (now : Nat) (w z : Watch) : Prop :=
  ∀ op t0 pc, c = some (op, t0, pc) → t0 ≤ now ∧ pc = .running op ∧ (op = .start → w.since.isSome) ∧ (op = .stop → z.since = none)

private def QuietLap (l : Option Pc) : Prop := ∀ pc, l = some pc → pc = .running .force

private inductive Phase (s : Sys) (w z : Watch) : Prop
  | quiet (c : QuietCall s.call s.now w z) (l : QuietLap s.lap) (st : Stable s.mem s.now w z)
      (x : ∀ op t0 pc, s.call = some (op, t0, pc) → op ≠ .start → s.lap = none)
  | starting (t0 : Nat) (pc : Pc) (c : s.call = some (.start, t0, pc)) (l : QuietLap s.lap) (st : Starting s.mem s.now w pc)
      (r : s.mem.running = false) (z0 : z.since = none) (zl : z.shows s.now ≤ s.mem.value) (ws : w.since.isSome)
  | lap (pc : Pc) (l : s.lap = some pc) (o : OpPc .force pc) (u : Upd s.mem s.now w z 0 pc)
      (r : s.mem.running = true) (ws : w.since.isSome) 
      (c : ∀ op t0 pc, s.call = some (op, t0, pc) → t0 ≤ s.now ∧ op = .start ∧ pc = .running .start)
  | call (op : Op) (t0 : Nat) (pc : Pc) (c : s.call = some (op, t0, pc)) (l : s.lap = none) (o : OpPc op pc)
      (u : Upd s.mem s.now w z (z.shows t0) pc) (r : s.mem.running = true) (ws : w.since.isSome) (ne : op ≠ .start)
      (z0 : op = .stop → z.since = none)

private structure Inv (s : Sys) (w z : Watch) : Prop where
  tw : Timely w s.now
  tz : Timely z s.now
  bound : w.shows s.now ≤ s.now
  phase : Phase s w z

/-- A call that stops or reads the timer is under way. -/
private def callFlag (s : Sys) : Bool := (s.call.map fun c => c.1 != .start).getD false

private theorem longest_append (a b : List Ev) : ∀ w, longest (a ++ b) w = longest b (longest a w) := by
  induction a with
  | nil => intro w; rfl
  | cons e a ih =>
    intro w
    cases e with
    | begun op t => cases op <;> exact ih _
    | ended op t => cases op <;> exact ih _
    | value v t0 t => exact ih _
    | lapBegun => exact ih _
    | lapEnded => exact ih _

private theorem shortest_append (a b : List Ev) : ∀ w, shortest (a ++ b) w = shortest b (shortest a w) := by
  induction a with
  | nil => intro w; rfl
  | cons e a ih =>
    intro w
    cases e with
    | begun op t => cases op <;> exact ih _
    | ended op t => cases op <;> exact ih _
    | value v t0 t => exact ih _
    | lapBegun => exact ih _
    | lapEnded => exact ih _

/-- The claim of one step: the invariant, the rest of the condition, and the values that are read. -/
private def Kept (s' : Sys) (es rest : List Ev) (w z : Watch) : Prop :=
  Inv s' (longest es w) (shortest es z) ∧ Separate (callFlag s') s'.lap.isSome rest ∧
    ∀ v t0 t, Ev.value v t0 t ∈ es → z.shows t0 ≤ v ∧ v ≤ w.shows t

private theorem Stable.off {m : Mem} {now : Nat} {w z : Watch} (h : Stable m now w z) (hz : Timely z now) :
    Stable m now w (z.off now) := by
  obtain ⟨e1, -, e3⟩ := shows_off hz
  exact ⟨h.upper, by rw [e1]; exact h.lower, h.start, fun hc => (by rw [e3] at hc; cases hc)⟩

private theorem Stable.onLong {m : Mem} {now : Nat} {w z : Watch} (h : Stable m now w z) (hw : Timely w now) :
    Stable m now (w.on now) z := by
  obtain ⟨e1, -, e3⟩ := shows_on hw
  exact ⟨by rw [e1]; exact h.upper, h.lower, fun hr => ⟨(h.start hr).1, e3⟩, h.short⟩

private theorem Stable.onShort {m : Mem} {now : Nat} {w z : Watch} (h : Stable m now w z) (hz : Timely z now)
    (hr : m.running = true) : Stable m now w (z.on now) := by
  obtain ⟨e1, -, -⟩ := shows_on hz
  exact ⟨h.upper, by rw [e1]; exact h.lower, h.start, fun _ => hr⟩

private theorem Stable.offLong {m : Mem} {now : Nat} {w z : Watch} (h : Stable m now w z) (hw : Timely w now)
    (hr : m.running = false) : Stable m now (w.off now) z := by
  obtain ⟨e1, -, -⟩ := shows_off hw
  exact ⟨by rw [e1]; exact h.upper, h.lower, fun hc => by (rw [hr] at hc; cases hc), h.short⟩

private theorem Stable.value {m : Mem} {now : Nat} {w z : Watch} (h : Stable m now w z) :
    m.value ≤ w.shows now := Nat.le_trans (Nat.le_add_right _ _) h.upper

private theorem shows_mono {w : Watch} {t now : Nat} (h : t ≤ now) : w.shows t ≤ w.shows now := by
  unfold Watch.shows
  split
  · exact Nat.le_refl _
  · omega

private theorem upd_onShort {m : Mem} {now : Nat} {w z : Watch} {b : Nat} {pc : Pc} (h : Upd m now w z b pc)
    (hp : OpPc .force pc) (hz : Timely z now) : Upd m now w (z.on now) b pc := by
  obtain ⟨e1, -, -⟩ := shows_on hz
  cases pc with
  | running _ => exact h.elim
  | startTime => exact h.elim
  | setStart _ => exact h.elim
  | setRunning => exact h.elim
  | stopTime o =>
    cases (show o = .force from hp)
    obtain ⟨a1, a2, a3, a4, a5⟩ := h
    exact ⟨a1, a2, by rw [e1]; exact a3, fun ho => (by cases ho), a5⟩
  | startOf o st =>
    cases (show o = .force from hp)
    obtain ⟨a1, a2, a3, a4, a5, a6⟩ := h
    exact ⟨a1, a2, a3, by rw [e1]; exact a4, fun ho => (by cases ho), a6⟩
  | load o st d =>
    cases (show o = .force from hp)
    obtain ⟨a0, a1, a2, a3, a4, a5, a6⟩ := h
    exact ⟨a0, a1, a2, a3, by rw [e1]; exact a4, fun ho => (by cases ho), a6⟩
  | store o st v =>
    cases (show o = .force from hp)
    obtain ⟨a0, a1, a2, a3, a4, a5, a6⟩ := h
    exact ⟨a0, a1, a2, a3, by rw [e1]; exact a4, fun ho => (by cases ho), a6⟩
  | setLap st =>
    obtain ⟨a1, a2, a3, a4⟩ := h
    exact ⟨a1, a2, by rw [e1]; exact a3, a4⟩
  | clearStart => cases hp
  | clearRunning => cases hp

private theorem tick_inv {s : Sys} {w z : Watch} (h : Inv s w z) (ms : Nat) :
    Inv { s with now := s.now + ms } w z := by
  obtain ⟨e1, e2⟩ := shows_tick h.tw ms
  obtain ⟨f1, f2⟩ := shows_tick h.tz ms
  refine ⟨e2, f2, ?_, ?_⟩
  · have := h.bound
    dsimp only
    rw [e1]; split <;> omega
  · cases h.phase with
    | quiet c l st x =>
      refine .quiet ?_ l (stable_tick st h.tw h.tz ms) x
      intro op t0 pc hc
      obtain ⟨c1, c2⟩ := c op t0 pc hc
      exact ⟨by dsimp only; omega, c2⟩
    | starting t0 pc c l st r z0 zl ws =>
      rw [if_pos ws] at e1
      rw [z0] at f1
      refine .starting t0 pc c l ?_ r z0 ?_ ws
      · cases pc with
        | startTime => exact Nat.le_trans st (shows_mono (Nat.le_add_right _ _))
        | setStart t =>
          obtain ⟨s1, s2⟩ := st
          exact ⟨by dsimp only; omega, by dsimp only; omega⟩
        | setRunning =>
          obtain ⟨s1, s2⟩ := st
          exact ⟨by dsimp only; omega, by dsimp only; omega⟩
        | running _ => exact st.elim
        | stopTime _ => exact st.elim
        | startOf _ _ => exact st.elim
        | load _ _ _ => exact st.elim
        | store _ _ _ => exact st.elim
        | clearStart => exact st.elim
        | clearRunning => exact st.elim
        | setLap _ => exact st.elim
      · dsimp only; rw [f1]; simpa using zl
    | lap pc l o u r ws c =>
      refine .lap pc l o (upd_tick u h.tw h.tz ws ms) r ws fun op t0 pc hc => ?_
      obtain ⟨c1, c2⟩ := c op t0 pc hc
      exact ⟨by dsimp only; omega, c2⟩
    | call op t0 pc c l o u r ws ne z0 => exact .call op t0 pc c l o (upd_tick u h.tw h.tz ws ms) r ws ne z0

private theorem begun_inv {s : Sys} {w z : Watch} (h : Inv s w z) (hc : s.call = none) (op : Op)
    (hop : op ≠ .start → s.lap = none) :
    Inv { s with call := some (op, s.now, .running op) } (longest [.begun op s.now] w)
      (shortest [.begun op s.now] z) := by
  obtain ⟨e1, e2, e3⟩ := shows_on h.tw
  obtain ⟨f1, f2, f3⟩ := shows_off h.tz
  have hb := h.bound
  cases op with
  | start =>
    refine ⟨e2, h.tz, by simp only [longest]; rw [e1]; exact hb, ?_⟩
    cases h.phase with
    | quiet c l st x =>
      refine .quiet ?_ l (st.onLong h.tw) ?_
      · intro op t0 pc hp; cases hp
        exact ⟨Nat.le_refl _, rfl, fun _ => e3, fun ho => (by cases ho)⟩
      · intro op t0 pc hp; cases hp
        exact fun hn => absurd rfl hn
    | starting t0 pc c l st r z0 zl ws => rw [hc] at c; cases c
    | lap pc l o u r ws c =>
      have hw : w.on s.now = w := by
        unfold Watch.on
        cases hs : w.since with
        | none => rw [hs] at ws; cases ws
        | some _ => rfl
      simp only [longest, shortest, hw]
      refine .lap pc l o u r ws ?_
      intro op t0 pc hp; cases hp
      exact ⟨Nat.le_refl _, rfl, rfl⟩
    | call op t0 pc c l o u r ws ne z0 => rw [hc] at c; cases c
  | stop =>
    have hl := hop (by decide)
    refine ⟨h.tw, f2, hb, ?_⟩
    cases h.phase with
    | quiet c l st x =>
      refine .quiet ?_ l (st.off h.tz) ?_
      · intro op t0 pc hp; cases hp
        exact ⟨Nat.le_refl _, rfl, fun ho => (by cases ho), fun _ => f3⟩
      · intro op t0 pc hp; cases hp
        exact fun _ => hl
    | starting t0 pc c l st r z0 zl ws => rw [hc] at c; cases c
    | lap pc l o u r ws c => rw [hl] at l; cases l
    | call op t0 pc c l o u r ws ne z0 => rw [hc] at c; cases c
  | force =>
    have hl := hop (by decide)
    refine ⟨h.tw, h.tz, hb, ?_⟩
    cases h.phase with
    | quiet c l st x =>
      refine .quiet ?_ l st ?_
      · intro op t0 pc hp; cases hp
        exact ⟨Nat.le_refl _, rfl, fun ho => (by cases ho), fun ho => (by cases ho)⟩
      · intro op t0 pc hp; cases hp
        exact fun _ => hl
    | starting t0 pc c l st r z0 zl ws => rw [hc] at c; cases c
    | lap pc l o u r ws c => rw [hl] at l; cases l
    | call op t0 pc c l o u r ws ne z0 => rw [hc] at c; cases c

private theorem quiet_none (now : Nat) (w z : Watch) : QuietCall none now w z := by
  intro op t0 pc h; cases h

/-- The events at the end of a call. -/
private def endEvents (op : Op) (v t0 now : Nat) : List Ev :=
  if op = .force then [.value v t0 now, .ended op now] else [.ended op now]

private theorem callStep_inv {s : Sys} {w z : Watch} (h : Inv s w z) (hn : s.now < 2 ^ 31) {op : Op} {t0 : Nat}
    {pc : Pc} (hc : s.call = some (op, t0, pc)) :
    (∃ pc' m', access s.mem s.now pc = (some pc', m') ∧ Inv { s with mem := m', call := some (op, t0, pc') } w z) ∨
    (∃ m', access s.mem s.now pc = (none, m') ∧
      Inv { s with mem := m', call := none } (longest (endEvents op m'.value t0 s.now) w)
        (shortest (endEvents op m'.value t0 s.now) z) ∧
      (op = .force → z.shows t0 ≤ m'.value ∧ m'.value ≤ w.shows s.now)) := by
  obtain ⟨e1, e2, e3⟩ := shows_on h.tz
  obtain ⟨f1, f2, f3⟩ := shows_off h.tw
  have hb := h.bound
  cases h.phase with
  | quiet c l st x =>
    obtain ⟨c1, rfl, c3, c4⟩ := c op t0 pc hc
    have hx := x op t0 _ hc
    cases hr : s.mem.running with
    | false =>
      have hz : z.since = none := by
        cases hs : z.since with
        | none => rfl
        | some u => have := st.short (by simp [hs]); rw [hr] at this; cases this
      have hacc : accounted s.mem s.now = s.mem.value := by simp [accounted, hr]
      have hlow := st.lower
      have hup := st.upper
      rw [hacc] at hlow hup
      cases op with
      | start =>
        refine .inl ⟨.startTime, s.mem, by simp [access, hr], h.tw, h.tz, hb, ?_⟩
        exact .starting t0 _ rfl l hup hr hz hlow (c3 rfl)
      | stop =>
        refine .inr ⟨s.mem, by simp [access, hr], ⟨f2, h.tz, by simp only [endEvents]; exact f1.symm ▸ hb, ?_⟩,
          fun ho => (by cases ho)⟩
        exact .quiet (quiet_none _ _ _) l (st.offLong h.tw hr) (fun _ _ _ hx => (by cases hx))
      | force =>
        refine .inr ⟨s.mem, by simp [access, hr], ⟨h.tw, h.tz, hb, ?_⟩, fun _ => ⟨?_, hup⟩⟩
        · exact .quiet (quiet_none _ _ _) l st (fun _ _ _ hx => (by cases hx))
        · exact Nat.le_trans (shows_mono c1) hlow
    | true =>
      obtain ⟨s1, s2⟩ := st.start hr
      have hacc : accounted s.mem s.now = s.mem.value + (s.now - s.mem.start) := by simp [accounted, hr]
      have hlow := st.lower
      have hup := st.upper
      rw [hacc] at hlow hup
      cases op with
      | start =>
        refine .inr ⟨s.mem, by simp [access, hr], ⟨h.tw, e2, hb, ?_⟩, fun ho => (by cases ho)⟩
        exact .quiet (quiet_none _ _ _) l (st.onShort h.tz hr) (fun _ _ _ hx => (by cases hx))
      | stop =>
        refine .inl ⟨.stopTime .stop, s.mem, by simp [access, hr], h.tw, h.tz, hb, ?_⟩
        exact .call .stop t0 _ rfl (hx (by decide)) rfl
          ⟨s1, hup, hlow, c4, by decide, Nat.le_trans (shows_mono c1) hlow⟩ hr s2 (by decide) c4
      | force =>
        refine .inl ⟨.stopTime .force, s.mem, by simp [access, hr], h.tw, h.tz, hb, ?_⟩
        exact .call .force t0 _ rfl (hx (by decide)) rfl
          ⟨s1, hup, hlow, c4, by decide, Nat.le_trans (shows_mono c1) hlow⟩ hr s2 (by decide) c4
  | starting t1 pc1 c l st r z0 zl ws =>
    rw [hc] at c
    cases c
    cases pc with
    | startTime =>
      refine .inl ⟨_, _, rfl, h.tw, h.tz, hb, ?_⟩
      refine .starting t0 _ rfl l ?_ r z0 zl ws
      have : s.now % 2 ^ 31 = s.now := Nat.mod_eq_of_lt hn
      simp only [this]
      exact ⟨Nat.le_refl _, by have : s.mem.value ≤ w.shows s.now := st; omega⟩
    | setStart t =>
      refine .inl ⟨_, _, rfl, h.tw, h.tz, hb, ?_⟩
      exact .starting t0 _ rfl l st r z0 zl ws
    | setRunning =>
      obtain ⟨s1, s2⟩ := st
      refine .inr ⟨_, rfl, ⟨h.tw, e2, hb, ?_⟩, fun ho => (by cases ho)⟩
      refine .quiet (quiet_none _ _ _) l ?_ (fun _ _ _ hx => (by cases hx))
      have hacc : accounted { s.mem with running := true } s.now = s.mem.value + (s.now - s.mem.start) := by
        simp [accounted]
      refine ⟨by rw [hacc]; exact s2, ?_, fun _ => ⟨s1, ws⟩, fun _ => rfl⟩
      rw [hacc]
      refine Nat.le_trans (Nat.le_of_eq e1) ?_
      omega
    | running _ => exact st.elim
    | stopTime _ => exact st.elim
    | startOf _ _ => exact st.elim
    | load _ _ _ => exact st.elim
    | store _ _ _ => exact st.elim
    | clearStart => exact st.elim
    | clearRunning => exact st.elim
    | setLap _ => exact st.elim
  | lap pc1 l o u r ws c =>
    obtain ⟨-, rfl, rfl⟩ := c op t0 pc hc
    refine .inr ⟨s.mem, by simp [access, r], ⟨h.tw, e2, hb, ?_⟩, fun ho => (by cases ho)⟩
    exact .lap pc1 l o (upd_onShort u o h.tz) r ws (fun _ _ _ hx => (by cases hx))
  | call op1 t1 pc1 c l o u r ws ne z0 =>
    rw [hc] at c
    cases c
    rcases upd_access u o r ws hn hb with ⟨pc', m', g1, g2, g3, g4⟩ | ⟨m', g1, g2, g3, g4⟩
    · exact .inl ⟨pc', m', g1, h.tw, h.tz, hb, .call op t0 pc' rfl l g3 g2 g4 ws ne z0⟩
    · have hl : QuietLap s.lap := by rw [l]; intro _ hx; cases hx
      cases op with
      | start => exact absurd rfl ne
      | stop =>
        refine .inr ⟨m', g1, ⟨f2, h.tz, by simp only [endEvents]; exact f1.symm ▸ hb, ?_⟩, fun ho => (by cases ho)⟩
        exact .quiet (quiet_none _ _ _) hl (g2.offLong h.tw (g4 rfl)) (fun _ _ _ hx => (by cases hx))
      | force =>
        refine .inr ⟨m', g1, ⟨h.tw, h.tz, hb, ?_⟩, fun _ => ⟨(g3 (by decide)).2, g2.value⟩⟩
        exact .quiet (quiet_none _ _ _) hl g2 (fun _ _ _ hx => (by cases hx))

private theorem lapStep_inv {s : Sys} {w z : Watch} (h : Inv s w z) (hn : s.now < 2 ^ 31) {pc : Pc}
    (hl : s.lap = some pc) :
    (∃ pc' m', access s.mem s.now pc = (some pc', m') ∧ Inv { s with mem := m', lap := some pc' } w z) ∨
    (∃ m', access s.mem s.now pc = (none, m') ∧ Inv { s with mem := m', lap := none } w z) := by
  have hb := h.bound
  have hq : QuietLap none := by intro _ hx; cases hx
  cases h.phase with
  | quiet c l st x =>
    obtain rfl := l pc hl
    cases hr : s.mem.running with
    | false =>
      refine .inr ⟨s.mem, by simp [access, hr], h.tw, h.tz, hb, ?_⟩
      exact .quiet c hq st (fun _ _ _ _ _ => rfl)
    | true =>
      obtain ⟨s1, s2⟩ := st.start hr
      have hacc : accounted s.mem s.now = s.mem.value + (s.now - s.mem.start) := by simp [accounted, hr]
      have hlow := st.lower
      have hup := st.upper
      rw [hacc] at hlow hup
      refine .inl ⟨.stopTime .force, s.mem, by simp [access, hr], h.tw, h.tz, hb, ?_⟩
      refine .lap _ rfl rfl ⟨s1, hup, hlow, fun ho => (by cases ho), by decide, Nat.zero_le _⟩ hr s2 ?_
      intro op t0 pc' hc
      have hop : op = .start := by
        cases op with
        | start => rfl
        | stop => have := x _ _ _ hc (by decide); rw [hl] at this; cases this
        | force => have := x _ _ _ hc (by decide); rw [hl] at this; cases this
      subst hop
      exact ⟨(c _ _ _ hc).1, rfl, (c _ _ _ hc).2.1⟩
  | starting t1 pc1 c l st r z0 zl ws =>
    obtain rfl := l pc hl
    refine .inr ⟨s.mem, by simp [access, r], h.tw, h.tz, hb, ?_⟩
    exact .starting t1 pc1 c hq st r z0 zl ws
  | lap pc1 l o u r ws c =>
    rw [hl] at l
    cases l
    rcases upd_access u o r ws hn hb with ⟨pc', m', g1, g2, g3, g4⟩ | ⟨m', g1, g2, g3, g4⟩
    · exact .inl ⟨pc', m', g1, h.tw, h.tz, hb, .lap pc' rfl g3 g2 g4 ws c⟩
    · refine .inr ⟨m', g1, h.tw, h.tz, hb, .quiet ?_ hq g2 (fun _ _ _ _ _ => rfl)⟩
      intro op t0 pc' hc
      obtain ⟨c1, rfl, rfl⟩ := c op t0 pc' hc
      exact ⟨c1, rfl, fun _ => ws, fun ho => (by cases ho)⟩
  | call op1 t1 pc1 c l o u r ws ne z0 => rw [hl] at l; cases l

private theorem step_kept {s : Sys} {w z : Watch} (h : Inv s w z) (a : Act) (rest : List Ev)
    (hn : s.now < 2 ^ 31) (hsep : Separate (callFlag s) s.lap.isSome ((TimerRace.step s a).2 ++ rest)) :
    Kept (TimerRace.step s a).1 (TimerRace.step s a).2 rest w z := by
  have hno : ∀ v t0 t, Ev.value v t0 t ∈ ([] : List Ev) → z.shows t0 ≤ v ∧ v ≤ w.shows t := by
    intro _ _ _ hm; cases hm
  cases a with
  | tick ms => exact ⟨tick_inv h ms, hsep, hno⟩
  | call op =>
    simp only [TimerRace.step] at hsep ⊢
    cases hc : s.call with
    | some x => rw [hc] at hsep; exact ⟨h, hsep, hno⟩
    | none =>
      rw [hc] at hsep
      dsimp only at hsep ⊢
      obtain ⟨s1, s2⟩ := hsep
      have hcf : callFlag s = false := by simp [callFlag, hc]
      refine ⟨begun_inv h hc op fun hne => ?_, ?_, ?_⟩
      · have := s1 hne
        cases hl : s.lap with
        | none => rfl
        | some y => rw [hl] at this; cases this
      · rw [hcf, Bool.false_or] at s2
        exact s2
      · intro v t0 t hm; simp at hm
  | callStep =>
    simp only [TimerRace.step] at hsep ⊢
    cases hc : s.call with
    | none => rw [hc] at hsep; exact ⟨h, hsep, hno⟩
    | some x =>
      obtain ⟨op, t0, pc⟩ := x
      rw [hc] at hsep
      dsimp only at hsep ⊢
      rcases callStep_inv h hn hc with ⟨pc', m', g1, g2⟩ | ⟨m', g1, g2, g3⟩
      · rw [g1] at hsep ⊢
        dsimp only at hsep ⊢
        refine ⟨g2, ?_, hno⟩
        have : callFlag s = callFlag { s with mem := m', call := some (op, t0, pc') } := by simp [callFlag, hc]
        rw [← this]; exact hsep
      · rw [g1] at hsep ⊢
        dsimp only at hsep ⊢
        have hs : Separate false s.lap.isSome rest := by
          cases op with
          | start => exact hsep
          | stop => exact hsep
          | force => exact hsep
        refine ⟨g2, hs, ?_⟩
        intro v t1 t hm
        cases op with
        | start => simp at hm
        | stop => simp at hm
        | force =>
          simp at hm
          obtain ⟨rfl, rfl, rfl⟩ := hm
          exact g3 rfl
  | lap =>
    simp only [TimerRace.step] at hsep ⊢
    cases hl : s.lap with
    | some x => rw [hl] at hsep; exact ⟨h, (by rw [← hl] at hsep; simpa [hl] using hsep), hno⟩
    | none =>
      rw [hl] at hsep
      dsimp only at hsep ⊢
      obtain ⟨s1, s2⟩ := hsep
      have hq : QuietLap (some (.running .force)) := by intro _ hx; cases hx; rfl
      refine ⟨⟨h.tw, h.tz, h.bound, ?_⟩, s2, by intro v t0 t hm; simp at hm⟩
      cases h.phase with
      | quiet c l st x =>
        refine .quiet c hq st ?_
        intro op t0 pc hc hne
        unfold callFlag at s1
        dsimp only at hc
        rw [hc] at s1
        simp at s1
        exact absurd s1 hne
      | starting t1 pc1 c l st r z0 zl ws => exact .starting t1 pc1 c hq st r z0 zl ws
      | lap pc1 l o u r ws c => rw [hl] at l; cases l
      | call op1 t1 pc1 c l o u r ws ne z0 =>
        unfold callFlag at s1
        rw [c] at s1
        simp at s1
        exact absurd s1 ne
  | lapStep =>
    simp only [TimerRace.step] at hsep ⊢
    cases hl : s.lap with
    | none => rw [hl] at hsep; exact ⟨h, (by rw [← hl] at hsep; simpa [hl] using hsep), hno⟩
    | some pc =>
      rw [hl] at hsep
      dsimp only at hsep ⊢
      rcases lapStep_inv h hn hl with ⟨pc', m', g1, g2⟩ | ⟨m', g1, g2⟩
      · rw [g1] at hsep ⊢
        exact ⟨g2, hsep, hno⟩
      · rw [g1] at hsep ⊢
        exact ⟨g2, hsep, by intro v t0 t hm; simp at hm⟩

private theorem now_mono (as : List Act) : ∀ s : Sys, s.now ≤ (TimerRace.run s as).1.now := by
  have h1 : ∀ (s : Sys) (a : Act), s.now ≤ (TimerRace.step s a).1.now := by
    intro s a
    cases a with
    | tick ms => exact Nat.le_add_right _ _
    | call op => simp only [TimerRace.step]; split <;> exact Nat.le_refl _
    | callStep =>
      simp only [TimerRace.step]
      split
      · exact Nat.le_refl _
      · split <;> exact Nat.le_refl _
    | lap => simp only [TimerRace.step]; split <;> exact Nat.le_refl _
    | lapStep =>
      simp only [TimerRace.step]
      split
      · exact Nat.le_refl _
      · split <;> exact Nat.le_refl _
  induction as with
  | nil => intro s; exact Nat.le_refl _
  | cons a as ih => intro s; exact Nat.le_trans (h1 s a) (ih _)

private theorem run_kept (as : List Act) : ∀ {s : Sys} {w z : Watch}, Inv s w z →
    (TimerRace.run s as).1.now < 2 ^ 31 → Separate (callFlag s) s.lap.isSome (TimerRace.run s as).2 →
    ∀ before v t0 t after, (TimerRace.run s as).2 = before ++ .value v t0 t :: after →
      (shortest before z).shows t0 ≤ v ∧ v ≤ (longest before w).shows t := by
  induction as with
  | nil => intro s w z _ _ _ b v t0 t a he; simp [TimerRace.run] at he
  | cons a as ih =>
    intro s w z h hn hs b v t0 t c he
    have hnow : s.now < 2 ^ 31 := Nat.lt_of_le_of_lt (now_mono (a :: as) s) hn
    simp only [TimerRace.run] at hs hn he
    obtain ⟨k1, k2, k3⟩ := step_kept h a _ hnow hs
    rcases List.append_eq_append_iff.mp he with ⟨x, hx1, hx2⟩ | ⟨x, hx1, hx2⟩
    · have := ih k1 hn k2 x v t0 t c hx2
      rw [hx1, longest_append, shortest_append]
      exact this
    · cases x with
      | nil =>
        have := ih k1 hn k2 [] v t0 t c (by simpa using hx2.symm)
        have hb : b = (TimerRace.step s a).2 := by simpa using hx1.symm
        rw [hb]
        exact this
      | cons e x =>
        have he' : e = .value v t0 t := by simp at hx2; exact hx2.1.symm
        subst he'
        have hm : Ev.value v t0 t ∈ (TimerRace.step s a).2 := by rw [hx1]; simp
        have hb : b = [] := by
          cases a with
          | tick ms => cases hm
          | call op =>
            simp only [TimerRace.step] at hm
            split at hm <;> simp at hm
          | callStep =>
            simp only [TimerRace.step] at hm hx1
            split at hm
            · cases hm
            · rename_i op t1 pc hc
              rw [hc] at hx1
              split at hm
              · cases hm
              · rename_i m hacc
                dsimp only at hx1
                rw [hacc] at hx1
                dsimp only at hx1
                split at hx1
                · cases b with
                  | nil => rfl
                  | cons y b =>
                    simp at hx1
                    cases b with
                    | nil => simp at hx1
                    | cons y' b => simp at hx1
                · cases b with
                  | nil => rfl
                  | cons y b => simp at hx1
          | lap =>
            simp only [TimerRace.step] at hm
            split at hm <;> simp at hm
          | lapStep =>
            simp only [TimerRace.step] at hm
            split at hm
            · cases hm
            · split at hm <;> simp at hm
        subst hb
        exact k3 v t0 t hm

/-! ## The claims -/

/-- **C103 (partial: a timer is not stopped or read while a heartbeat updates it).** Wherever tasks and the
heartbeat interrupt each other, if calls that stop or read the timer do not overlap with its update by a
heartbeat (calls that start it may): a value that a task reads is at least the time for which the timer
certainly ran until the call began, and at most the time for which it can have run until the call ended.
The clock stays below 2^31 ms. Missing: a timer that is stopped or read during its update
(`C103_false_stopped`), and clocks from 2^31 ms on. -/
theorem C103_time_partial (boot : Nat) (as : List Act) {s : Sys} {before after : List Ev} {v t0 t : Nat}
    (h : TimerRace.run (Sys.init boot) as = (s, before ++ .value v t0 t :: after)) (hn : s.now < 2147483648)
    (hs : Separate false false (before ++ .value v t0 t :: after)) :
    (shortest before ⟨none, 0⟩).shows t0 ≤ v ∧ v ≤ (longest before ⟨none, 0⟩).shows t := by
  have hi : Inv (Sys.init boot) ⟨none, 0⟩ ⟨none, 0⟩ := by
    refine ⟨⟨by simp⟩, ⟨by simp⟩, Nat.zero_le _, ?_⟩
    refine .quiet (quiet_none _ _ _) (by intro _ hx; cases hx) ?_ (fun _ _ _ hx => (by cases hx))
    exact ⟨Nat.le_refl _, Nat.le_refl _, fun hc => (by cases hc), fun hc => (by cases hc)⟩
  exact run_kept as hi (by rw [h]; exact hn) (by rw [h]; exact hs) before v t0 t after (by rw [h])

/-- A call from its beginning to its end. -/
private def done (op : TimerRace.Op) : List Act := .call op :: List.replicate 8 .callStep

/-- A task starts the timer while a heartbeat looks at it, a heartbeat updates it, and it is stopped and read. -/
private def calmTimer : List Act :=
  [.tick 1000, .lap, .call .start, .callStep, .lapStep, .callStep, .callStep, .callStep, .tick 50, .lap,
    .lapStep, .tick 1, .lapStep, .call .start, .lapStep, .lapStep, .callStep, .lapStep, .tick 2, .lapStep, .tick 7] ++
    done .stop ++ [.tick 100] ++ done .force

example : (TimerRace.run (Sys.init 0) calmTimer).2 = [.lapBegun, .begun .start 1000, .lapEnded, .ended .start 1000,
      .lapBegun, .begun .start 1051, .ended .start 1051, .lapEnded, .begun .stop 1060, .ended .stop 1060,
      .begun .force 1160] ++ .value 60 1160 1160 :: [.ended .force 1160] ∧
    Separate false false (TimerRace.run (Sys.init 0) calmTimer).2 := by
  have h : (TimerRace.run (Sys.init 0) calmTimer).2 = [.lapBegun, .begun .start 1000, .lapEnded, .ended .start 1000,
      .lapBegun, .begun .start 1051, .ended .start 1051, .lapEnded, .begun .stop 1060, .ended .stop 1060,
      .begun .force 1160] ++ .value 60 1160 1160 :: [.ended .force 1160] := by decide +kernel
  refine ⟨h, ?_⟩
  rw [h]
  simp [Separate]

/-- **C103 is false.** A heartbeat has seen that a timer runs and is interrupted by a task that stops the
timer. Then the heartbeat finds 0 as the start and counts all time since boot: a timer that ran for 5 ms,
one second after boot, shows 1010 ms, and less has passed since boot. -/
theorem C103_false_stopped : ∃ (as : List Act) (before : List Ev) (v t0 t : Nat),
    (TimerRace.run (Sys.init 0) as).2 = before ++ [.value v t0 t, .ended .force t] ∧
      (longest before ⟨none, 0⟩).shows t = 5 ∧ t = 1005 ∧ v = 1010 := by
  refine ⟨[.tick 1000] ++ done .start ++ [.tick 5, .lap, .lapStep] ++ done .stop ++ List.replicate 5 .lapStep ++
      done .force,
    [.begun .start 1000, .ended .start 1000, .lapBegun, .begun .stop 1005, .ended .stop 1005, .lapEnded,
      .begun .force 1005], 1010, 1005, 1005, by decide +kernel, by decide, rfl, rfl⟩

end Mflt.Props
