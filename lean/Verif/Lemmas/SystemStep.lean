import Verif.Lemmas.SystemData

/-! # One call -/

namespace Mflt.Sys

open Packetizer (Src NextOut BeginOut)
open Spec.Packetizer (code Begin Next Transfer)
open Spec.System (Op Out Writer Receiver View recorded registered saved Fits Enabled)
open Spec.Log (lineSize lineOf total)
open Cdr (Recording)

/-! ## What is still to be delivered -/

/-- The number of things to deliver. -/
def items (g : Ghost) : Nat :=
  g.core.toList.length + g.q.committed.length + g.S.frozen.toList.length +
    (g.t.sources.map fun i => (g.t.waiting i).length).sum

theorem items_same {g g' : Ghost} (h : SameData g g') : items g' = items g := by
  unfold items
  rw [h.core, h.committed, h.log, h.sources, h.waiting]

theorem sum_tail {α : Type} (w : Nat → List α) (i : Nat) (h : w i ≠ []) : ∀ l : List Nat,
    (l.map fun j => (if j = i then (w i).tail else w j).length).sum + (l.filter (· = i)).length =
      (l.map fun j => (w j).length).sum := by
  intro l
  induction l with
  | nil => rfl
  | cons j l ih =>
    have hp := List.length_pos_iff.2 h
    by_cases hj : j = i
    · subst hj
      simp only [List.map_cons, List.sum_cons, if_true, List.length_tail, decide_true, List.filter_cons_of_pos,
        List.length_cons]
      omega
    · simp only [List.map_cons, List.sum_cons, if_neg hj]
      rw [List.filter_cons_of_neg (by simpa using hj)]
      omega

theorem items_mark {cfg : Config} {w : World} {g : Ghost} {Q : Src → List Bytes} (h : WRel cfg w g Q)
    (hcur : ∀ i, g.t.current = some i → i ∈ g.t.sources) {src : Src} (hq : Q src ≠ []) :
    items (g.mark src) < items g := by
  cases src with
  | coredump =>
    rw [h.coreQ] at hq
    have := List.length_pos_iff.2 hq
    simp only [items, Ghost.mark, Option.toList_none, List.length_nil]
    omega
  | event =>
    rw [h.evQ] at hq
    split at hq
    · exact absurd rfl hq
    · have hr := h.ev.reading
      simp only [items, Ghost.mark, List.length_drop]
      omega
  | log =>
    rcases h.logQ with h1 | ⟨h1, -⟩
    · exact absurd h1 hq
    · obtain ⟨f, hf⟩ := Option.isSome_iff_exists.1 h1
      simp only [items, Ghost.mark, hf, Option.toList_none, Option.toList_some, List.length_nil, List.length_cons]
      omega
  | cdr =>
    rcases h.cdrQ with h1 | ⟨r, h1, -⟩
    · exact absurd h1 hq
    · obtain ⟨i, l, c1, c2⟩ := cdr_recording h.cdr h1
      have hs := sum_tail g.t.waiting i (by rw [c2]; simp) g.t.sources
      have hp : 0 < (g.t.sources.filter (· = i)).length :=
        List.length_pos_iff.2 fun hx => by
          have : i ∈ g.t.sources.filter (· = i) := List.mem_filter.2 ⟨hcur i c1, by simp⟩
          rw [hx] at this; cases this
      simp only [items, Ghost.mark, Spec.Cdr.step, c1]
      omega

/-- Descriptions of recordings fit. -/
def Described (cfg : Config) (g : Ghost) : Prop :=
  ∀ i, ∀ r ∈ g.t.waiting i, (Cdr.head cfg.cdr.dev r).length ≤ cfg.cdr.maxMetadata

theorem items_empty {cfg : Config} {w : World} {g : Ghost} {Q : Src → List Bytes} (h : WRel cfg w g Q)
    (hd : Described cfg g) (he : ∀ x, Empty cfg g x) : items g = 0 := by
  have h1 : g.core = none := he .coredump
  have h2 : g.q.committed = [] := he .event
  have h3 : g.S.frozen = none := he .log
  have h4 : ∀ i ∈ g.t.sources, g.t.waiting i = [] := by
    rcases he .cdr with ⟨r, hr, hl⟩ | ⟨-, h4⟩
    · obtain ⟨i, l, -, c2⟩ := cdr_recording h.cdr hr
      have := hd i r (by rw [c2]; simp)
      omega
    · exact h4
  have h5 : ∀ l : List Nat, (∀ i ∈ l, g.t.waiting i = []) → (l.map fun i => (g.t.waiting i).length).sum = 0 := by
    intro l
    induction l with
    | nil => intro _; rfl
    | cons i l ih =>
      intro hl
      simp only [List.map_cons, List.sum_cons, hl i (by simp), List.length_nil, Nat.zero_add]
      exact ih fun j hj => hl j (by simp [hj])
  unfold items
  rw [h1, h2, h3, h5 _ h4]
  rfl

theorem items_zero {g : Ghost} (h : items g = 0) : g.core = none ∧ g.q.committed = [] ∧ g.S.frozen = none ∧
    ∀ i ∈ g.t.sources, g.t.waiting i = [] := by
  unfold items at h
  refine ⟨?_, ?_, ?_, fun i hi => ?_⟩
  · cases hc : g.core with
    | none => rfl
    | some m => rw [hc] at h; simp at h
  · exact List.length_eq_zero_iff.1 (by omega)
  · cases hc : g.S.frozen with
    | none => rfl
    | some m => rw [hc] at h; simp at h
  · have h5 : ∀ l : List Nat, (l.map fun i => (g.t.waiting i).length).sum = 0 → i ∈ l → g.t.waiting i = [] := by
      intro l
      induction l with
      | nil => intro _ h; cases h
      | cons j l ih =>
        intro hs hm
        simp only [List.map_cons, List.sum_cons] at hs
        rcases List.mem_cons.1 hm with rfl | hm
        · exact List.length_eq_zero_iff.1 (by omega)
        · exact ih (by omega) hm
    exact h5 _ (by omega) hi

/-- The number of pieces handed out of the current transfer. -/
def progress (S : Spec.Packetizer.State) : Nat :=
  match S.cur with
  | none => 0
  | some t => t.pieces.length

def Short (S : Spec.Packetizer.State) : Prop := ∀ t, S.cur = some t → t.pieces.length ≤ t.message.length / 3 + 2

def potential (g : Ghost) (S : Spec.Packetizer.State) : Nat := items g * 2 ^ 32 - progress S

/-- No line is left for a later upload. -/
def Flush (g : Ghost) : Prop := (unsentLines g.S.entries).length ≤ (g.S.frozen.map Prod.fst).getD 0

theorem flush_mark {g : Ghost} (src : Src) (h : Flush g) : Flush (g.mark src) := by
  cases src with
  | log =>
    unfold Flush at h ⊢
    simp only [Ghost.mark]
    rw [unsent_mark, List.length_drop]
    simp
    omega
  | _ => exact h

/-! ## The packetizer -/

theorem begin_mask {cfg : Packetizer.Config} {multi : Bool} {S S' : Spec.Packetizer.State} {o : BeginOut}
    (h : Begin cfg multi S o S') : S'.mask = S.mask ∧ S'.delivered = S.delivered ∧ progress S' = progress S ∧
      (Short S → Short S') := by
  cases h with
  | nothing => exact ⟨rfl, rfl, rfl, id⟩
  | start src m rest message hc =>
    refine ⟨rfl, rfl, by unfold progress; rw [hc]; rfl, fun _ t ht => ?_⟩
    simp only [Option.some.injEq] at ht
    subst ht
    simp
  | resume => exact ⟨rfl, rfl, rfl, id⟩

theorem next_mask {S S' : Spec.Packetizer.State} {buf : Bytes} {o : NextOut} (h : Next S buf o S') :
    S'.mask = S.mask ∧ (Short S → Short S') := by
  cases h with
  | idle => exact ⟨rfl, id⟩
  | small => exact ⟨rfl, id⟩
  | more t _ _ _ hc _ _ _ _ hp =>
    refine ⟨rfl, fun _ t' ht => ?_⟩
    simp only [Option.some.injEq] at ht
    subst ht
    simp only [List.length_append, List.length_singleton]
    omega
  | last => exact ⟨rfl, fun _ t ht => by cases ht⟩

theorem queue_items {cfg : Config} {s : State} {g : Ghost} {S : Spec.Packetizer.State} (h : SRel cfg s g S)
    (hcur : ∀ i, g.t.current = some i → i ∈ g.t.sources) {t : Transfer} (ht : S.cur = some t) :
    1 ≤ items g ∧ t.message.length + 3 < 2 ^ 32 := by
  have hsn := h.pk.cur
  rw [ht] at hsn
  have hsn : Props.Sending cfg.pk (pk s S.queue) t := hsn
  obtain ⟨m, rest, hq, -⟩ := hsn.head
  have hq : S.queue t.src = m :: rest := hq
  have := items_mark h.w hcur (src := t.src) (by rw [hq]; simp)
  exact ⟨by omega, hsn.len⟩

theorem next_potential {cfg : Config} {s s' : State} {g g' : Ghost} {S S' : Spec.Packetizer.State} (h : SRel cfg s g S)
    (hcur : ∀ i, g.t.current = some i → i ∈ g.t.sources) {buf : Bytes} {o : NextOut} (hN : Next S buf o S')
    (hg : (g' = g ∧ S'.delivered = S.delivered ∧ S'.queue = S.queue) ∨
        ∃ src m, S.queue src = [m] ∧ g' = g.mark src ∧ S'.delivered = S.delivered ++ [(src, m)]) (hsh : Short S)
    (ho : o.status ≠ .noMoreData) : potential g' S' < potential g S := by
  obtain ⟨c, hc⟩ : ∃ c, S.cur = c := ⟨_, rfl⟩
  cases c with
  | none =>
    cases hN with
    | idle => exact absurd rfl ho
    | small => exact absurd rfl ho
    | more t _ _ _ hx => rw [hc] at hx; cases hx
    | last t _ _ _ _ _ hx => rw [hc] at hx; cases hx
  | some t =>
    obtain ⟨h1, h2⟩ := queue_items h hcur hc
    have h3 := hsh t hc
    have hp : progress S = t.pieces.length := by unfold progress; rw [hc]
    have hlt : t.pieces.length < 2 ^ 32 := by omega
    rcases hg with ⟨rfl, hg, -⟩ | ⟨src, m, hq, rfl, -⟩
    · cases hN with
      | idle => exact absurd rfl ho
      | small => exact absurd rfl ho
      | more t' _ _ _ hx =>
        rw [hc] at hx; cases hx
        unfold potential
        rw [hp]
        simp only [progress, List.length_append, List.length_singleton]
        omega
      | last =>
        have := congrArg List.length hg
        simp at this
    · have h4 := items_mark h.w hcur (src := src) (by rw [hq]; simp)
      unfold potential
      rw [hp]
      have : items (g.mark src) * 2 ^ 32 + 2 ^ 32 ≤ items g * 2 ^ 32 := by omega
      omega

/-- Everything about a call of `getChunk` in single-chunk mode. -/
theorem chunk_ok {cfg : Config} (hc : ConfigOk cfg) (hdv : Spec.Event.DeviceOk cfg.dev) {core : Option Bytes}
    {lvl cap : Nat} {past : List Op} {wr : Writer} {s : State} {g : Ghost} {S : Spec.Packetizer.State}
    (h : SRel cfg s g S) {r : Receiver} (hr : RInv cfg false S r) (hd : Data cfg core lvl cap past wr S.delivered g)
    (buf : Bytes) :
    ∃ ok buf' len s' g' S', getChunk cfg s buf = some (ok, buf', len, s') ∧ SRel cfg s' g' S' ∧
      RInv cfg false S' (r.sees (.getChunk buf) (.chunk ok buf' len)) ∧
      Data cfg core lvl cap past wr S'.delivered g' ∧ S'.mask = S.mask ∧ (Short S → Short S') ∧
      (9 ≤ buf.length → ok = false → ∀ x, S.mask.testBit (code x) = true → Empty cfg g' x) ∧
      (ok = true → Short S → potential g' S' < potential g S) ∧ (Flush g → Flush g') := by
  obtain ⟨b, s1, g1, Q, S1, b1, b2, b3, b4, b5, b6⟩ := begin_ok hc h false
  obtain ⟨m1, m2, m3, m4⟩ := begin_mask b2
  have hr1 := recv_begin b2 hr
  have hd1 : Data cfg core lvl cap past wr S1.delivered g1 := by rw [m2]; exact data_asked hd b4
  have hpot : potential g1 S1 = potential g S := by
    unfold potential
    rw [items_same b4.polled.same, m3]
    rfl
  have hfl : Flush g → Flush g1 := by unfold Flush; rw [b4.polled.same.log]; exact id
  unfold getChunk
  rw [b1, Option.bind_some]
  dsimp only
  cases hok : b.ok with
  | false =>
    refine ⟨false, buf, buf.length, s1, g1, S1, rfl, b3, hr1, hd1, m1, fun hx => m4 hx, fun _ _ => b6 hok, fun hx => Bool.noConfusion hx,
      hfl⟩
  | true =>
    rw [if_neg (by simp)]
    obtain ⟨o, s2, g2, S2, n1, n2, n3, n4⟩ := next_ok hc b3 buf
    obtain ⟨k1, k2⟩ := next_mask n2
    have hr2 := recv_next b3 n1 n2 n3 hr1
    have hd2 : Data cfg core lvl cap past wr S2.delivered g2 := by
      rcases n4 with ⟨rfl, e2, -⟩ | ⟨src, m, e1, rfl, e2⟩
      · rw [e2]; exact hd1
      · rw [e2]; exact data_mark hc hdv hd1 b3.w e1
    have hmulti : ∀ t, S1.cur = some t → t.multi = false := by
      intro t ht
      have := hr1.cur
      rw [ht] at this
      exact this.1
    rw [n1, Option.map_some]
    refine ⟨decide (o.status = .endOfChunk), o.buf, o.len, s2, g2, S2, rfl, n3, ?_, hd2, k1.trans m1,
      fun hx => k2 (m4 hx), fun h9 hf => ?_, fun ht hsh => ?_, fun hx => ?_⟩
    · by_cases ho : o.status = .endOfChunk
      · rw [decide_eq_true ho]
        rw [ho] at hr2
        exact hr2
      · rw [decide_eq_false ho]
        have : o.status = .noMoreData := by
          cases n2 with
          | idle => rfl
          | small => rfl
          | more t _ _ _ hx => rw [hmulti t hx] at ho; exact absurd rfl ho
          | last => exact absurd rfl ho
        rw [this] at hr2
        exact hr2
    · have ho := of_decide_eq_false hf
      exfalso
      have h5 := b5 hok
      cases n2 with
      | idle _ hx => rw [hx] at h5; cases h5
      | small t _ hx hl => omega
      | more t _ _ _ hx => rw [hmulti t hx] at ho; exact ho rfl
      | last => exact ho rfl
    · have ho := of_decide_eq_true ht
      rw [← hpot]
      exact next_potential (s' := s2) b3 hd1.current n2 n4 (m4 hsh) (by rw [ho]; simp)
    · rcases n4 with ⟨rfl, -⟩ | ⟨src, m, -, rfl, -⟩
      · exact hfl hx
      · exact flush_mark src (hfl hx)

/-! ## The application -/

theorem spec_save_level {cfg : Log.Config} {S : Spec.Log.State} {level type : Nat} {text : Bytes} {now : Option Nat} :
    (Spec.Log.save cfg S level type text now).cap = S.cap ∧
    (Spec.Log.save cfg S level type text now).minLevel = S.minLevel := by
  unfold Spec.Log.save
  split
  · exact ⟨rfl, rfl⟩
  · dsimp only
    split
    · exact ⟨rfl, rfl⟩
    · split <;> exact ⟨rfl, rfl⟩

/-- All sources are enabled, and the current transfer makes progress. -/
def Live (past : List Op) (S : Spec.Packetizer.State) : Prop :=
  (Enabled past → ∀ x, S.mask.testBit (code x) = true) ∧ Short S

/-- The device and everyone who looks at it. -/
def Good (cfg : Config) (multi : Bool) (core : Option Bytes) (lvl cap : Nat) (past : List Op) (s : State) (v : View) :
    Prop :=
  ∃ g S, SRel cfg s g S ∧ RInv cfg multi S v.receiver ∧ Data cfg core lvl cap past v.writer S.delivered g ∧
    Live past S

theorem live_same {past : List Op} {S S' : Spec.Packetizer.State} (h : Live past S) (op : Op) (h1 : S'.mask = S.mask)
    (h2 : Short S → Short S') : Live (past ++ [op]) S' :=
  ⟨fun he x => by rw [h1]; exact h.1 (fun m hm => he m (by simp [hm])) x, h2 h.2⟩

theorem save_good {cfg : Config} (hc : ConfigOk cfg) {multi : Bool} {core : Option Bytes} {lvl cap : Nat}
    {past : List Op} {s : State} {v : View} (h : Good cfg multi core lvl cap past s v) {l ty : Nat} (hl : l < 8)
    (ht : ty < 2) (text : Bytes) (now : Option Nat) :
    ∃ o s', step cfg s (.logSave l ty text now) = some (o, s') ∧
      Good cfg multi core lvl cap (past ++ [.logSave l ty text now]) s' (v.sees (.logSave l ty text now) o) := by
  obtain ⟨g, S, h1, h2, h3, h4⟩ := h
  obtain ⟨s', e1, e2⟩ := log_ok hc h1.w (op := .save l ty text now) (o := .unit)
    (S' := Spec.Log.save cfg.log g.S l ty text now) (by simp) (by simp [Spec.Log.step, hl, ht])
  simp only [Log.step, Option.map_eq_some_iff, Prod.mk.injEq, true_and] at e1
  obtain ⟨s'', e1, rfl⟩ := e1
  obtain ⟨s3, r1, -, r3⟩ := Log.save_rel hc.line h1.w.log hl ht text now
  rw [e1] at r1
  cases r1
  refine ⟨.unit, _, by simp only [step, e1]; rfl, _, _, client_ok h1 e2, h2, ?_, live_same h4 _ rfl id⟩
  obtain ⟨k1, k2⟩ := @spec_save_level cfg.log g.S l ty text now
  refine ⟨h3.core, h3.ev, h3.acc, h3.idle, ?_, ?_, h3.current, k1.trans h3.capOk, ?_, fun hf => ?_⟩
  · obtain ⟨rs, c1, c2⟩ := h3.cdr
    refine ⟨rs, c1, fun i => ?_⟩
    rw [recorded_append]
    simpa [recorded] using c2 i
  · rw [registered_append]; simpa [registered] using h3.sources
  · rw [level_append]; exact k2.trans h3.level
  · rw [saved_append] at hf ⊢
    obtain ⟨⟨gs, l1, l2, l3⟩, l4, l5⟩ := h3.log (fits_left hf)
    have hlv := h3.level
    by_cases hm : l < level lvl past
    · have hs : Spec.Log.save cfg.log g.S l ty text now = g.S := by
        unfold Spec.Log.save; rw [if_pos (by rw [hlv]; exact hm)]
      have he : s''.cb.readOffset = s.w.log.cb.readOffset := by
        have : Log.save cfg.log s.w.log l ty text now = some s.w.log := by
          unfold Log.save; rw [if_pos (by rw [h1.w.log.minLevel, hlv]; exact hm)]
        rw [e1] at this
        cases this
        rfl
      simp only [saved, if_pos hm, List.append_nil]
      exact ⟨⟨gs, l1, l2, by dsimp only; rw [hs]; exact l3⟩, by dsimp only; rw [hs]; exact l4,
        he.trans (h1.w.logRo.trans l5)⟩
    · simp only [saved, if_neg hm] at hf ⊢
      have hfit : total g.S.entries + lineSize (lineOf cfg.log l ty text now) ≤ g.S.cap := by
        have := hf.1
        rw [List.map_append, List.sum_append, ← l4, ← total_lines] at this
        rw [h3.capOk]
        simpa using this
      have hs : (Spec.Log.save cfg.log g.S l ty text now).entries =
          g.S.entries ++ [⟨lineOf cfg.log l ty text now, false, false⟩] := by
        unfold Spec.Log.save
        rw [if_neg (by rw [hlv]; exact hm)]
        dsimp only
        rw [if_pos hfit]
      refine ⟨⟨gs, l1, l2, ?_⟩, ?_, (r3 (Or.inr hfit)).trans (h1.w.logRo.trans l5)⟩
      · dsimp only
        rw [hs, ← l3]
        simp [unsentLines]
      · dsimp only
        rw [hs, List.map_append, l4]
        rfl

theorem data_log {cfg : Config} {core : Option Bytes} {lvl cap : Nat} {past : List Op} {wr : Writer}
    {d : List (Src × Bytes)} {g : Ghost} (h : Data cfg core lvl cap past wr d g) {S' : Spec.Log.State}
    (h1 : S'.cap = g.S.cap) (h2 : S'.minLevel = g.S.minLevel) (h3 : S'.entries = g.S.entries) {ro : Nat}
    (h4 : ro = g.ro) : Data cfg core lvl cap past wr d { g with S := S', ro := ro } := by
  refine ⟨h.core, h.ev, h.acc, h.idle, h.cdr, h.sources, h.current, h1.trans h.capOk, h2.trans h.level, fun hf => ?_⟩
  obtain ⟨⟨gs, l1, l2, l3⟩, l4, l5⟩ := h.log hf
  exact ⟨⟨gs, l1, l2, by dsimp only; rw [h3]; exact l3⟩, by dsimp only; rw [h3]; exact l4, h4.trans l5⟩

theorem data_ev {cfg : Config} {core : Option Bytes} {lvl cap : Nat} {past : List Op} {wr wr' : Writer}
    {d : List (Src × Bytes)} {g : Ghost} (h : Data cfg core lvl cap past wr d g) {q' : Spec.EventQueue.State}
    {x : List Bytes} (h1 : q'.committed = g.q.committed ++ x) (h2 : wr'.done = wr.done ++ x)
    (h3 : ∀ a, wr'.acc = some a → q'.pending = some a)
    (h4 : wr'.acc = none → q'.pending = none ∨ q'.pending = some []) :
    Data cfg core lvl cap past wr' d { g with q := q' } := by
  refine ⟨h.core, ?_, h3, h4, h.cdr, h.sources, h.current, h.capOk, h.level, fun hf => ?_⟩
  · obtain ⟨gs, e1, e2, e3⟩ := h.ev
    refine ⟨gs, e1, e2, ?_⟩
    dsimp only
    rw [h1, h2, ← e3, List.append_assoc]
  · obtain ⟨l1, l4, l5⟩ := h.log hf
    exact ⟨l1, l4, l5⟩

theorem step_good {cfg : Config} (hc : ConfigOk cfg) (hdv : Spec.Event.DeviceOk cfg.dev) {multi : Bool}
    {core : Option Bytes} {lvl cap : Nat} {past : List Op} {s : State} {v : View}
    (h : Good cfg multi core lvl cap past s v) {op : Op} (hop : op.Ok cfg.cdr.maxMetadata multi)
    (hmay : v.writer.may op = true) :
    ∃ o s', step cfg s op = some (o, s') ∧ Good cfg multi core lvl cap (past ++ [op]) s' (v.sees op o) := by
  cases op with
  | logSave l ty text now => exact save_good hc h hop.1 hop.2 text now
  | evBegin =>
    obtain ⟨g, S, h1, h2, h3, h4⟩ := h
    have hacc : v.writer.acc = none := by simpa [Writer.may] using hmay
    have hidle := h3.idle hacc
    have key : ∀ n q', Spec.EventQueue.step cfg.ev.batchMax g.q .begin = some (.size n, q') →
        q'.committed = g.q.committed → (n ≠ 0 → q'.pending = some []) →
        (q'.pending = none ∨ q'.pending = some []) →
        ∃ o s', step cfg s .evBegin = some (o, s') ∧
          Good cfg multi core lvl cap (past ++ [.evBegin]) s' (v.sees .evBegin o) := by
      intro n q' hs hcm hp hp'
      obtain ⟨e, e1, e2⟩ := ev_ok h1.w (op := .begin) trivial hs
      simp only [EventStorage.step, Option.map_eq_some_iff, Prod.mk.injEq, Spec.EventQueue.Out.size.injEq] at e1
      obtain ⟨⟨n', e'⟩, e1, rfl, rfl⟩ := e1
      refine ⟨.size n', _, by simp only [step, e1]; rfl, _, _, client_ok h1 e2, h2, data_past ?_ trivial, live_same h4 _ rfl id⟩
      refine data_ev h3 (x := []) (by simpa using hcm) (by simp [View.sees, Writer.sees]) ?_ ?_
      · intro a ha
        simp only [View.sees, Writer.sees] at ha
        split at ha
        · cases ha
        · next h0 => cases ha; exact hp h0
      · intro _; exact hp'
    by_cases hx : g.q.pending.isSome ∨ g.q.cap < Spec.EventQueue.used g.q + 2
    · exact key 0 g.q (by simp only [Spec.EventQueue.step]; rw [if_pos hx]) rfl (fun h => absurd rfl h) hidle
    · exact key _ { g.q with pending := some [] } (by simp only [Spec.EventQueue.step]; rw [if_neg hx]) rfl
        (fun _ => rfl) (Or.inr rfl)
  | evAppend d =>
    obtain ⟨g, S, h1, h2, h3, h4⟩ := h
    obtain ⟨a, ha⟩ : ∃ a, v.writer.acc = some a := Option.isSome_iff_exists.1 hmay
    have hp := h3.acc a ha
    have key : ∀ b q', Spec.EventQueue.step cfg.ev.batchMax g.q (.append d) = some (.ok b, q') →
        q'.committed = g.q.committed → (b = true → q'.pending = some (a ++ d)) → (b = false → q'.pending = some a) →
        ∃ o s', step cfg s (.evAppend d) = some (o, s') ∧
          Good cfg multi core lvl cap (past ++ [.evAppend d]) s' (v.sees (.evAppend d) o) := by
      intro b q' hs hcm hp1 hp2
      obtain ⟨e, e1, e2⟩ := ev_ok h1.w (op := .append d) trivial hs
      simp only [EventStorage.step, Option.map_eq_some_iff, Prod.mk.injEq, Spec.EventQueue.Out.ok.injEq] at e1
      obtain ⟨⟨b', e'⟩, e1, rfl, rfl⟩ := e1
      refine ⟨.ok b', _, by simp only [step, e1]; rfl, _, _, client_ok h1 e2, h2, data_past ?_ trivial, live_same h4 _ rfl id⟩
      cases b' with
      | true =>
        refine data_ev h3 (x := []) (by simpa using hcm) (by simp [View.sees, Writer.sees]) ?_ ?_
        · intro a' ha'
          simp only [View.sees, Writer.sees, ha, Option.map_some, Option.some.injEq] at ha'
          subst ha'; exact hp1 rfl
        · intro hx
          simp [View.sees, Writer.sees, ha] at hx
      | false =>
        refine data_ev h3 (x := []) (by simpa using hcm) (by simp [View.sees, Writer.sees]) ?_ ?_
        · intro a' ha'
          simp only [View.sees, Writer.sees, ha, Option.some.injEq] at ha'
          subst ha'; exact hp2 rfl
        · intro hx
          simp [View.sees, Writer.sees, ha] at hx
    by_cases hx : Spec.EventQueue.used g.q + d.length ≤ g.q.cap
    · exact key true { g.q with pending := some (a ++ d) } (by simp only [Spec.EventQueue.step, hp]; rw [if_pos hx]) rfl
        (fun _ => rfl) (by simp)
    · exact key false g.q (by simp only [Spec.EventQueue.step, hp]; rw [if_neg hx]) rfl (by simp) (fun _ => hp)
  | evFinish rollback =>
    obtain ⟨g, S, h1, h2, h3, h4⟩ := h
    have key : ∀ q' x, Spec.EventQueue.step cfg.ev.batchMax g.q (.finish rollback) = some (.unit, q') →
        q'.committed = g.q.committed ++ x → q'.pending = none → x = (if rollback then [] else v.writer.acc.toList) →
        ∃ o s', step cfg s (.evFinish rollback) = some (o, s') ∧
          Good cfg multi core lvl cap (past ++ [.evFinish rollback]) s' (v.sees (.evFinish rollback) o) := by
      intro q' x hs hcm hp hx
      obtain ⟨e, e1, e2⟩ := ev_ok h1.w (op := .finish rollback) trivial hs
      simp only [EventStorage.step, Option.map_eq_some_iff, Prod.mk.injEq, true_and] at e1
      obtain ⟨e', e1, rfl⟩ := e1
      refine ⟨.unit, _, by simp only [step, e1]; rfl, _, _, client_ok h1 e2, h2, data_past ?_ trivial, live_same h4 _ rfl id⟩
      refine data_ev h3 (x := x) hcm ?_ ?_ ?_
      · subst hx; cases rollback <;> simp [View.sees, Writer.sees]
      · intro a ha; cases rollback <;> simp [View.sees, Writer.sees] at ha
      · intro _; exact Or.inl hp
    cases rollback with
    | true =>
      cases hp : g.q.pending with
      | none => exact key g.q [] (by simp only [Spec.EventQueue.step, hp]) (by simp) hp rfl
      | some p =>
        exact key { g.q with pending := none } [] (by simp only [Spec.EventQueue.step, hp]; rfl) (by simp) rfl rfl
    | false =>
      have hm : 1 ≤ (v.writer.acc.getD []).length ∧ (v.writer.acc.getD []).length ≤ 65532 := of_decide_eq_true hmay
      cases ha : v.writer.acc with
      | none => rw [ha] at hm; simp at hm
      | some a =>
        rw [ha] at hm
        simp only [Option.getD_some] at hm
        have hp := h3.acc a ha
        exact key { g.q with committed := g.q.committed ++ [a], pending := none } [a]
          (by simp only [Spec.EventQueue.step, hp]; rw [if_neg (by simp), if_pos hm]) rfl rfl (by simp [ha])
  | logMinLevel l =>
    obtain ⟨g, S, h1, h2, h3, h4⟩ := h
    obtain ⟨s', e1, e2⟩ := log_ok hc h1.w (op := .setMinLevel l) (o := .unit)
      (S' := { g.S with minLevel := l }) (by simp) rfl
    simp only [Log.step, Option.some.injEq, Prod.mk.injEq, true_and] at e1
    subst e1
    refine ⟨.unit, _, rfl, _, _, client_ok h1 e2, h2, ?_, live_same h4 _ rfl id⟩
    refine ⟨h3.core, h3.ev, h3.acc, h3.idle, ?_, ?_, h3.current, h3.capOk, ?_, fun hf => ?_⟩
    · obtain ⟨rs, c1, c2⟩ := h3.cdr
      refine ⟨rs, c1, fun i => ?_⟩
      rw [recorded_append]
      simpa [recorded] using c2 i
    · rw [registered_append]; simpa [registered] using h3.sources
    · rw [level_append]; rfl
    · rw [saved_append] at hf ⊢
      simp only [saved, List.append_nil] at hf ⊢
      obtain ⟨l1, l2, l3⟩ := h3.log hf
      exact ⟨l1, l2, h1.w.logRo.trans l3⟩
  | logTrigger now =>
    obtain ⟨g, S, h1, h2, h3, h4⟩ := h
    have key : ∀ S', Spec.Log.step cfg.log g.S (.trigger now) = some (.unit, S') → S'.cap = g.S.cap →
        S'.minLevel = g.S.minLevel → S'.entries = g.S.entries →
        ∃ o s', step cfg s (.logTrigger now) = some (o, s') ∧
          Good cfg multi core lvl cap (past ++ [.logTrigger now]) s' (v.sees (.logTrigger now) o) := by
      intro S' hs k1 k2 k3
      obtain ⟨s', e1, e2⟩ := log_ok hc h1.w (op := .trigger now) (by simp) hs
      simp only [Log.step, Option.map_eq_some_iff, Prod.mk.injEq, true_and] at e1
      obtain ⟨l', e1, rfl⟩ := e1
      refine ⟨.unit, _, by simp only [step, e1]; rfl, _, _, client_ok h1 e2, h2, data_past (data_log h3 k1 k2 k3 ?_) trivial,
        live_same h4 _ rfl id⟩
      rw [← h1.w.logRo]
      unfold Log.triggerCollection at e1
      split at e1
      · cases e1; rfl
      · obtain ⟨n, -, e1⟩ := Option.map_eq_some_iff.1 e1
        split at e1 <;> cases e1 <;> rfl
    by_cases hx : g.S.frozen.isSome ∨ Spec.Log.unsent g.S.entries = 0
    · exact key g.S (by simp only [Spec.Log.step, hc.ds]; rw [if_neg (by simp), if_pos hx]) rfl rfl rfl
    · exact key { g.S with frozen := some (Spec.Log.unsent g.S.entries, now) }
        (by simp only [Spec.Log.step, hc.ds]; rw [if_neg (by simp), if_neg hx]) rfl rfl rfl
  | cdrRegister i =>
    obtain ⟨g, S, h1, h2, h3, h4⟩ := h
    obtain ⟨s', e1, e2⟩ := cdr_ok h1.w (op := .register i) trivial trivial
    simp only [Cdr.step, Option.some.injEq, Prod.mk.injEq] at e1
    obtain ⟨-, rfl⟩ := e1
    refine ⟨_, _, rfl, _, _, client_ok h1 e2, h2, ?_, live_same h4 _ rfl id⟩
    have hd : ∀ t', (Spec.Cdr.step cfg.cdr.maxSources cfg.cdr.maxMetadata (Cdr.head cfg.cdr.dev) g.t (.register i)).2 = t' →
        t'.waiting = g.t.waiting ∧ t'.current = g.t.current ∧
        t'.sources = (g.t.sources ++ [i]).take cfg.cdr.maxSources := by
      intro t' ht
      have hl : g.t.sources.length ≤ cfg.cdr.maxSources := by rw [h3.sources, List.length_take]; omega
      simp only [Spec.Cdr.step] at ht
      split at ht
      · next hlt =>
        subst ht
        exact ⟨rfl, rfl, by rw [List.take_of_length_le (by simp; omega)]⟩
      · next hlt =>
        subst ht
        refine ⟨rfl, rfl, ?_⟩
        rw [List.take_append_of_le_length (by omega), List.take_of_length_le (by omega)]
    obtain ⟨d1, d2, d3⟩ := hd _ rfl
    refine ⟨h3.core, h3.ev, h3.acc, h3.idle, ?_, ?_, ?_, h3.capOk, ?_, fun hf => ?_⟩
    · obtain ⟨rs, c1, c2⟩ := h3.cdr
      refine ⟨rs, c1, fun j => ?_⟩
      rw [recorded_append]
      dsimp only
      rw [d1]
      simpa [recorded] using c2 j
    · dsimp only
      rw [d3, registered_append, h3.sources]
      simp only [registered]
      rw [List.take_append, List.take_append, List.take_take, Nat.min_self, List.length_take]
      congr 2
      rw [Nat.min_def]; split <;> omega
    · dsimp only
      rw [d2, d3]
      intro j hj
      have := h3.current j hj
      have hl : g.t.sources.length ≤ cfg.cdr.maxSources := by rw [h3.sources, List.length_take]; omega
      rw [List.take_append]
      rw [List.take_of_length_le hl]
      exact List.mem_append_left _ this
    · rw [level_append]; exact h3.level
    · rw [saved_append] at hf ⊢
      simp only [saved, List.append_nil] at hf ⊢
      obtain ⟨l1, l2, l3⟩ := h3.log hf
      exact ⟨l1, l2, l3⟩
  | cdrRecord i r =>
    obtain ⟨g, S, h1, h2, h3, h4⟩ := h
    obtain ⟨s', e1, e2⟩ := cdr_ok h1.w (op := .record i r) hop.2 hop.1
    simp only [Cdr.step, Option.some.injEq, Prod.mk.injEq] at e1
    obtain ⟨-, rfl⟩ := e1
    refine ⟨_, _, rfl, _, _, client_ok h1 e2, h2, ?_, live_same h4 _ rfl id⟩
    refine ⟨h3.core, h3.ev, h3.acc, h3.idle, ?_, ?_, h3.current, h3.capOk, ?_, fun hf => ?_⟩
    · obtain ⟨rs, c1, c2⟩ := h3.cdr
      refine ⟨rs, c1, fun j => ?_⟩
      rw [recorded_append, ← c2 j]
      simp only [Spec.Cdr.step, recorded]
      by_cases hj : j = i
      · subst hj; simp
      · rw [if_neg hj, if_neg (fun h => hj h.symm)]; simp
    · rw [registered_append]; simpa [registered, Spec.Cdr.step] using h3.sources
    · rw [level_append]; exact h3.level
    · rw [saved_append] at hf ⊢
      simp only [saved, List.append_nil] at hf ⊢
      obtain ⟨l1, l2, l3⟩ := h3.log hf
      exact ⟨l1, l2, l3⟩
  | begin m =>
    obtain ⟨g, S, h1, h2, h3, h4⟩ := h
    have hm : m = multi := hop
    subst hm
    obtain ⟨b, s1, g1, Q, S1, b1, b2, b3, b4, -⟩ := begin_ok hc h1 m
    refine ⟨.begin b, s1, by simp only [step, b1]; rfl, g1, S1, b3, recv_begin b2 h2, data_past ?_ trivial,
      live_same h4 _ (begin_mask b2).1 (begin_mask b2).2.2.2⟩
    rw [(begin_mask b2).2.1]
    exact data_asked h3 b4
  | getNext buf =>
    obtain ⟨g, S, h1, h2, h3, h4⟩ := h
    obtain ⟨o, s2, g2, S2, n1, n2, n3, n4⟩ := next_ok hc h1 buf
    refine ⟨.next o, s2, by simp only [step, n1]; rfl, g2, S2, n3, recv_next h1 n1 n2 n3 h2, data_past ?_ trivial,
      live_same h4 _ (next_mask n2).1 (next_mask n2).2⟩
    rcases n4 with ⟨rfl, e2, -⟩ | ⟨src, m, e1, rfl, e2⟩
    · rw [e2]; exact h3
    · rw [e2]; exact data_mark hc hdv h3 h1.w e1
  | getChunk buf =>
    obtain ⟨g, S, h1, h2, h3, h4⟩ := h
    have hm : multi = false := hop
    subst hm
    obtain ⟨ok, buf', len, s', g', S', c1, c2, c3, c4, c5, c6, -⟩ := chunk_ok hc hdv h1 h2 h3 buf
    exact ⟨.chunk ok buf' len, s', by simp only [step, c1]; rfl, g', S', c2, c3, data_past c4 trivial, live_same h4 _ c5 c6⟩
  | abort =>
    obtain ⟨g, S, h1, h2, h3, h4⟩ := h
    exact ⟨.unit, _, rfl, g, _, reset_ok h1, recv_reset h2 S.mask, data_past h3 trivial,
      live_same h4 _ rfl fun _ _ ht => nomatch ht⟩
  | setActiveSources mask =>
    obtain ⟨g, S, h1, h2, h3, h4⟩ := h
    exact ⟨.unit, _, rfl, g, _, active_ok h1 mask, recv_reset h2 mask, data_past h3 trivial,
      fun he => he mask (by simp), fun _ ht => nomatch ht⟩
  | dataAvailable =>
    obtain ⟨g, S, h1, h2, h3, h4⟩ := h
    obtain ⟨b, s1, g1, Q, b1, b2, b3, -⟩ := available_ok hc h1
    exact ⟨.ok b, s1, by simp only [step, b1]; rfl, g1, _, b2, recv_queue h2 Q, data_past (data_asked h3 b3) trivial,
      live_same h4 _ rfl id⟩

theorem skip_good {cfg : Config} {multi : Bool} {core : Option Bytes} {lvl cap : Nat} {past : List Op} {s : State}
    {v : View} (h : Good cfg multi core lvl cap past s v) {op : Op} (hmay : v.writer.may op = false) :
    Good cfg multi core lvl cap (past ++ [op]) s v := by
  obtain ⟨g, S, h1, h2, h3, h4⟩ := h
  refine ⟨g, S, h1, h2, data_past h3 ?_, live_same h4 _ rfl id⟩
  cases op <;> first | exact True.intro | exact absurd hmay (by simp [Writer.may])

theorem play_good {cfg : Config} (hc : ConfigOk cfg) (hdv : Spec.Event.DeviceOk cfg.dev) {multi : Bool}
    {core : Option Bytes} {lvl cap : Nat} : ∀ (ops past : List Op) {s : State} {v : View},
    Good cfg multi core lvl cap past s v → (∀ op ∈ ops, op.Ok cfg.cdr.maxMetadata multi) →
    ∃ s' v', play cfg s v ops = some (s', v') ∧ Good cfg multi core lvl cap (past ++ ops) s' v' := by
  intro ops
  induction ops with
  | nil => intro past s v h _; exact ⟨s, v, rfl, by simpa using h⟩
  | cons op ops ih =>
    intro past s v h hops
    unfold play
    by_cases hm : v.writer.may op = true
    · obtain ⟨o, s1, h1, h2⟩ := step_good hc hdv h (hops op (by simp)) hm
      obtain ⟨s', v', h3, h4⟩ := ih _ h2 fun x hx => hops x (by simp [hx])
      rw [if_pos hm, h1]
      exact ⟨s', v', h3, by simpa using h4⟩
    · rw [if_neg hm]
      obtain ⟨s', v', h3, h4⟩ := ih _ (skip_good h (by simpa using hm)) fun x hx => hops x (by simp [hx])
      exact ⟨s', v', h3, by simpa using h4⟩

/-! ## Taking everything out -/

theorem described {cfg : Config} {core : Option Bytes} {lvl cap : Nat} {past : List Op} {wr : Writer}
    {d : List (Src × Bytes)} {g : Ghost} (h : Data cfg core lvl cap past wr d g)
    (hr : ∀ i, ∀ r ∈ recorded i past, (Cdr.head cfg.cdr.dev r).length ≤ cfg.cdr.maxMetadata) : Described cfg g := by
  obtain ⟨rs, -, h2⟩ := h.cdr
  intro i r hx
  exact hr i r (by rw [← h2 i]; exact List.mem_append_right _ hx)

theorem drain {cfg : Config} (hc : ConfigOk cfg) (hdv : Spec.Event.DeviceOk cfg.dev) {core : Option Bytes}
    {lvl cap : Nat} : ∀ (bufs : List Bytes) (past : List Op) {s : State} {v : View} {g : Ghost}
    {S : Spec.Packetizer.State}, (∀ b ∈ bufs, 9 ≤ b.length) →
    (∀ i, ∀ r ∈ recorded i past, (Cdr.head cfg.cdr.dev r).length ≤ cfg.cdr.maxMetadata) →
    SRel cfg s g S → RInv cfg false S v.receiver → Data cfg core lvl cap past v.writer S.delivered g →
    (∀ x, S.mask.testBit (code x) = true) → Short S → potential g S ≤ bufs.length →
    ∃ s' v' g' S', play cfg s v (bufs.map .getChunk) = some (s', v') ∧ SRel cfg s' g' S' ∧
      RInv cfg false S' v'.receiver ∧ Data cfg core lvl cap (past ++ bufs.map .getChunk) v'.writer S'.delivered g' ∧
      (∀ x, S'.mask.testBit (code x) = true) ∧ Short S' ∧ items g' = 0 ∧ (Flush g → Flush g') ∧ v'.writer = v.writer := by
  intro bufs
  induction bufs with
  | nil =>
    intro past s v g S _ _ h1 h2 h3 h4 h5 hp
    refine ⟨s, v, g, S, rfl, h1, h2, by simpa using h3, h4, h5, ?_, id, rfl⟩
    unfold potential at hp
    simp only [List.length_nil] at hp
    obtain ⟨c, hcur⟩ : ∃ c, S.cur = c := ⟨_, rfl⟩
    cases c with
    | none =>
      have : progress S = 0 := by unfold progress; rw [hcur]
      omega
    | some t =>
      have : progress S = t.pieces.length := by unfold progress; rw [hcur]
      obtain ⟨k1, k2⟩ := queue_items h1 h3.current hcur
      have := h5 t hcur
      omega
  | cons b bufs ih =>
    intro past s v g S hb hd h1 h2 h3 h4 h5 hp
    obtain ⟨ok, buf', len, s1, g1, S1, c1, c2, c3, c4, c5, c6, c7, c8, c9⟩ := chunk_ok hc hdv h1 h2 h3 b
    have hd' : ∀ i, recorded i (past ++ [.getChunk b]) = recorded i past := by
      intro i; rw [recorded_append]; simp [recorded]
    have hpot : potential g1 S1 ≤ bufs.length := by
      simp only [List.length_cons] at hp
      cases ok with
      | true => have := c8 rfl h5; omega
      | false =>
        have h0 := items_empty c2.w (described c4 hd) fun x => c7 (hb b (by simp)) rfl x (h4 x)
        unfold potential
        rw [h0]; omega
    obtain ⟨s', v', g', S', i1, i2, i3, i4, i5, i6, i7, i8, i9⟩ := ih (past ++ [.getChunk b])
      (v := v.sees (.getChunk b) (.chunk ok buf' len))
      (fun x hx => hb x (by simp [hx])) (fun i => by rw [hd']; exact hd i) c2 c3 (data_past (op := .getChunk b) c4 trivial)
      (fun x => by rw [c5]; exact h4 x) (c6 h5) hpot
    refine ⟨s', v', g', S', ?_, i2, i3, by simpa using i4, i5, i6, i7, fun hx => i8 (c9 hx), i9⟩
    rw [List.map_cons]
    unfold play
    rw [if_pos (show v.writer.may (.getChunk b) = true from rfl)]
    simp only [step, c1]
    exact i1

end Mflt.Sys
