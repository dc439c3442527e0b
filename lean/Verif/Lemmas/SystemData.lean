import Verif.Lemmas.SystemServer

/-! # What is delivered and what is still to be delivered -/

namespace Mflt.Sys

open Packetizer (Src)
open Spec.Packetizer (deliveredFrom)
open Spec.System (Op Writer recorded registered saved Fits report storedSize stored)
open Spec.EventQueue (message messageOf)
open Spec.Log (Line Entry lineSize lineOf total collected unsent)
open Cdr (Recording)

/-! ## Histories -/

theorem recorded_append (i : Nat) (a b : List Op) : recorded i (a ++ b) = recorded i a ++ recorded i b := by
  induction a with
  | nil => rfl
  | cons op a ih =>
    cases op <;> simp only [List.cons_append, recorded, ih]
    split <;> simp

theorem registered_append (a b : List Op) : registered (a ++ b) = registered a ++ registered b := by
  induction a with
  | nil => rfl
  | cons op a ih => cases op <;> simp [registered, ih]

/-- The minimum level after calls. -/
def level : Nat → List Op → Nat
  | lvl, [] => lvl
  | _, .logMinLevel l :: ops => level l ops
  | lvl, _ :: ops => level lvl ops

theorem level_append (lvl : Nat) (a b : List Op) : level lvl (a ++ b) = level (level lvl a) b := by
  induction a generalizing lvl with
  | nil => rfl
  | cons op a ih => cases op <;> simp [level, ih]

theorem saved_append (cfg : Log.Config) (lvl : Nat) (a b : List Op) :
    saved cfg lvl (a ++ b) = saved cfg lvl a ++ saved cfg (level lvl a) b := by
  induction a generalizing lvl with
  | nil => rfl
  | cons op a ih =>
    cases op <;> simp only [List.cons_append, saved, level, ih]
    split <;> simp

theorem fits_left {cap : Nat} {a b : List Line} (h : Fits cap (a ++ b)) : Fits cap a := by
  refine ⟨?_, fun l hl => h.2 l (by simp [hl])⟩
  have := h.1
  simp only [List.map_append, List.sum_append] at this
  omega

theorem deliveredFrom_append (x : Src) (d d' : List (Src × Bytes)) :
    deliveredFrom x (d ++ d') = deliveredFrom x d ++ deliveredFrom x d' := by
  simp [deliveredFrom]

theorem deliveredFrom_one (x y : Src) (m : Bytes) : deliveredFrom x [(y, m)] = if y = x then [m] else [] := by
  unfold deliveredFrom
  by_cases h : y = x <;> simp [h]

/-! ## The invariant -/

/-- The lines that were not sent. -/
def unsentLines (es : List Entry) : List Line := (es.filter fun e => !e.sent).map Entry.line

structure LogData (cfg : Config) (ls : List Line) (d : List (Src × Bytes)) (g : Ghost) : Prop where
  sent : ∃ gs : List (Option Nat × List Line), (∀ x ∈ gs, x.2 ≠ []) ∧
    (deliveredFrom .log d).map Spec.Cbor.decode = gs.map (fun x => some (report cfg.log cfg.dev x.1 x.2)) ∧
    (gs.map (·.2)).flatten ++ unsentLines g.S.entries = ls
  entries : g.S.entries.map Entry.line = ls
  ro : g.ro = 0

structure Data (cfg : Config) (core : Option Bytes) (lvl cap : Nat) (past : List Op) (wr : Writer)
    (d : List (Src × Bytes)) (g : Ghost) : Prop where
  core : deliveredFrom .coredump d ++ g.core.toList = core.toList
  ev : ∃ groups : List (List Bytes), (∀ x ∈ groups, x ≠ []) ∧ deliveredFrom .event d = groups.map messageOf ∧
    groups.flatten ++ g.q.committed = wr.done
  acc : ∀ a, wr.acc = some a → g.q.pending = some a
  idle : wr.acc = none → g.q.pending = none ∨ g.q.pending = some []
  cdr : ∃ rs : List (Nat × Recording), deliveredFrom .cdr d = rs.map (fun x => cdrMsg cfg x.2) ∧
    ∀ i, ((rs.filter fun x => x.1 = i).map (·.2)) ++ g.t.waiting i = recorded i past
  sources : g.t.sources = (registered past).take cfg.cdr.maxSources
  current : ∀ i, g.t.current = some i → i ∈ g.t.sources
  capOk : g.S.cap = cap
  level : g.S.minLevel = level lvl past
  log : Fits cap (saved cfg.log lvl past) → LogData cfg (saved cfg.log lvl past) d g

theorem data_same {cfg : Config} {core : Option Bytes} {lvl cap : Nat} {past : List Op} {wr : Writer}
    {d : List (Src × Bytes)} {g g' : Ghost} (h : Data cfg core lvl cap past wr d g) (hs : SameData g g')
    (hc : ∀ i, g'.t.current = some i → i ∈ g'.t.sources) : Data cfg core lvl cap past wr d g' := by
  refine ⟨by rw [hs.core]; exact h.core, by rw [hs.committed]; exact h.ev, by rw [hs.pending]; exact h.acc,
    by rw [hs.pending]; exact h.idle, by rw [hs.waiting]; exact h.cdr, by rw [hs.sources]; exact h.sources, hc,
    by rw [hs.log]; exact h.capOk, by rw [hs.log]; exact h.level, fun hf => ?_⟩
  obtain ⟨l1, l2, l3⟩ := h.log hf
  exact ⟨by rw [hs.log]; exact l1, by rw [hs.log]; exact l2, by rw [hs.ro]; exact l3⟩

theorem poll_current {cfg : Config} {g : Ghost} (x : Src) (h : ∀ i, g.t.current = some i → i ∈ g.t.sources) :
    ∀ i, (g.poll cfg x).t.current = some i → i ∈ (g.poll cfg x).t.sources := by
  cases x with
  | cdr =>
    intro i hi
    simp only [Ghost.poll, Spec.Cdr.State.choose] at hi ⊢
    split at hi
    · next j hj => exact h i (by rw [hj] at hi ⊢; exact hi)
    · next hn => exact List.mem_of_find?_eq_some hi
  | _ => exact h

theorem polled_current {cfg : Config} {l : List Src} {g g' : Ghost} (hp : Polled cfg l g g')
    (h : ∀ i, g.t.current = some i → i ∈ g.t.sources) : ∀ i, g'.t.current = some i → i ∈ g'.t.sources := by
  induction hp with
  | refl => exact h
  | step hx _ ih => exact ih (poll_current _ h)

theorem data_asked {cfg : Config} {core : Option Bytes} {lvl cap : Nat} {past : List Op} {wr : Writer}
    {d : List (Src × Bytes)} {g g' : Ghost} (h : Data cfg core lvl cap past wr d g) {S : Spec.Packetizer.State}
    {Q : Src → List Bytes} (ha : Asked cfg g S g' Q) : Data cfg core lvl cap past wr d g' :=
  data_same h ha.polled.same (polled_current ha.polled h.current)

/-- A call that is not about the data. -/
def Neutral : Op → Prop
  | .logSave .. => False
  | .logMinLevel _ => False
  | .cdrRegister _ => False
  | .cdrRecord .. => False
  | _ => True

theorem data_past {cfg : Config} {core : Option Bytes} {lvl cap : Nat} {past : List Op} {wr : Writer}
    {d : List (Src × Bytes)} {g : Ghost} (h : Data cfg core lvl cap past wr d g) {op : Op} (hop : Neutral op) :
    Data cfg core lvl cap (past ++ [op]) wr d g := by
  have h1 : ∀ i, recorded i (past ++ [op]) = recorded i past := by
    intro i; rw [recorded_append]; cases op <;> first | exact hop.elim | simp [recorded]
  have h2 : registered (past ++ [op]) = registered past := by
    rw [registered_append]; cases op <;> first | exact hop.elim | simp [registered]
  have h3 : level lvl (past ++ [op]) = level lvl past := by
    rw [level_append]; cases op <;> first | exact hop.elim | simp [level]
  have h4 : saved cfg.log lvl (past ++ [op]) = saved cfg.log lvl past := by
    rw [saved_append]; cases op <;> first | exact hop.elim | simp [saved]
  exact ⟨h.core, h.ev, h.acc, h.idle, by simp only [h1]; exact h.cdr, by rw [h2]; exact h.sources, h.current, h.capOk,
    by rw [h3]; exact h.level, by rw [h4]; exact h.log⟩

/-! ## A message was delivered -/

theorem unsent_mark : ∀ (es : List Entry) (n : Nat), unsentLines (Spec.Log.markSent n es) = (unsentLines es).drop n := by
  intro es
  induction es with
  | nil => intro n; cases n <;> simp [Spec.Log.markSent, unsentLines]
  | cons e es ih =>
    intro n
    cases n with
    | zero => simp [Spec.Log.markSent]
    | succ n =>
      unfold Spec.Log.markSent
      by_cases hs : e.sent = true
      · have := ih (n + 1)
        rw [if_pos hs]
        unfold unsentLines at this ⊢
        rw [List.filter_cons_of_neg (by simp [hs]), List.filter_cons_of_neg (by simp [hs])]
        exact this
      · have := ih n
        rw [if_neg hs]
        unfold unsentLines at this ⊢
        rw [List.filter_cons_of_neg (by simp), List.filter_cons_of_pos (by simpa using hs), List.map_cons,
          List.drop_succ_cons]
        exact this

theorem collected_eq (n : Nat) (es : List Entry) : collected n es = (unsentLines es).take n := by
  unfold collected unsentLines
  rw [List.map_take]

theorem total_lines (es : List Entry) : total es = ((es.map Entry.line).map lineSize).sum := by
  unfold total
  rw [List.map_map]
  rfl

theorem body_ne {l : Line} (h : l.text ≠ [] ∨ l.timestamp.isSome = true) : Log.body l ≠ [] := by
  intro hb
  unfold Log.body at hb
  rcases h with h | h
  · exact h (List.append_eq_nil_iff.1 hb).2
  · obtain ⟨t, ht⟩ := Option.isSome_iff_exists.1 h
    rw [ht] at hb
    have := (List.append_eq_nil_iff.1 hb).1
    simp at this

theorem log_straight {cap : Nat} {es : List Entry} (hf : Fits cap (es.map Entry.line)) (h0 : 0 < cap) :
    Log.Straight 0 cap 0 es := by
  intro pre e post he _
  have hb := body_ne (hf.2 e.line (by rw [he]; simp))
  refine ⟨hb, ?_⟩
  have h1 := hf.1
  rw [← total_lines, he] at h1
  have h2 := Log.lineSize_eq e.line
  have h3 : total (pre ++ e :: post) = total pre + (lineSize e.line + total post) := by
    unfold total; simp
  have h4 := List.length_pos_iff.2 hb
  rw [Nat.mod_eq_of_lt (by omega)]
  omega

theorem log_decode {cfg : Config} (hc : ConfigOk cfg) (hd : Spec.Event.DeviceOk cfg.dev) {w : World} {g : Ghost}
    {Q : Src → List Bytes} (h : WRel cfg w g Q) {n : Nat} {now : Option Nat} (hf : g.S.frozen = some (n, now))
    (hfit : Fits g.S.cap (g.S.entries.map Entry.line)) (hro : g.ro = 0) :
    Spec.Cbor.decode (logMsg cfg w g.S) = some (report cfg.log cfg.dev now ((unsentLines g.S.entries).take n)) ∧
      0 < n ∧ n ≤ (unsentLines g.S.entries).length := by
  have ht := h.log.trig
  rw [hf] at ht
  have he := trigger_eq ht
  obtain ⟨-, -, t3, t4⟩ := ht
  have hlen : (unsentLines g.S.entries).length = unsent g.S.entries := by
    unfold unsentLines unsent; rw [List.length_map, List.countP_eq_length_filter]
  have h0 : 0 < g.S.cap := by
    rcases Nat.eq_zero_or_pos g.S.cap with h0 | h0
    · have h1 := log_total h.log
      rw [h0] at h1
      have : g.S.entries = [] := by
        cases hE : g.S.entries with
        | nil => rfl
        | cons e es =>
          rw [hE] at h1
          have : total (e :: es) = lineSize e.line + total es := by unfold total; simp
          have h2 : 2 ≤ lineSize e.line := by unfold lineSize; omega
          omega
      rw [this] at t4
      simp [unsent] at t4
      omega
    · exact h0
  refine ⟨?_, t3, by rw [hlen]; exact t4⟩
  unfold logMsg
  rw [he, h.logRo, hro, Log.decode_upload hc.line hd h.log.cap h.log.core.ok t4 (log_total h.log) (log_straight hfit h0)]
  unfold Spec.Log.upload report
  rw [collected_eq]

theorem data_mark {cfg : Config} (hc : ConfigOk cfg) (hd : Spec.Event.DeviceOk cfg.dev) {core : Option Bytes}
    {lvl cap : Nat} {past : List Op} {wr : Writer}
    {d : List (Src × Bytes)} {g : Ghost} (h : Data cfg core lvl cap past wr d g) {w : World} {Q : Src → List Bytes}
    (hw : WRel cfg w g Q) {src : Src} {m : Bytes} (hq : Q src = [m]) :
    Data cfg core lvl cap past wr (d ++ [(src, m)]) (g.mark src) := by
  have other : ∀ x, src ≠ x → deliveredFrom x (d ++ [(src, m)]) = deliveredFrom x d := by
    intro x hx; rw [deliveredFrom_append, deliveredFrom_one, if_neg hx, List.append_nil]
  have own : deliveredFrom src (d ++ [(src, m)]) = deliveredFrom src d ++ [m] := by
    rw [deliveredFrom_append, deliveredFrom_one, if_pos rfl]
  have logOther : src ≠ .log → (g.mark src).S = g.S → (g.mark src).ro = g.ro →
      Fits cap (saved cfg.log lvl past) → LogData cfg (saved cfg.log lvl past) (d ++ [(src, m)]) (g.mark src) := by
    intro hx h1 h2 hf
    obtain ⟨l1, l2, l3⟩ := h.log hf
    exact ⟨by rw [other _ hx, h1]; exact l1, by rw [h1]; exact l2, by rw [h2]; exact l3⟩
  cases src with
  | coredump =>
    refine ⟨?_, by rw [other _ (by decide)]; exact h.ev, h.acc, h.idle, by rw [other _ (by decide)]; exact h.cdr,
      h.sources, h.current, h.capOk, h.level, logOther (by decide) rfl rfl⟩
    rw [own, ← h.core]
    rw [hw.coreQ] at hq
    rw [hq]
    simp [Ghost.mark]
  | event =>
    refine ⟨by rw [other _ (by decide)]; exact h.core, ?_, h.acc, h.idle, by rw [other _ (by decide)]; exact h.cdr,
      h.sources, h.current, h.capOk, h.level, logOther (by decide) rfl rfl⟩
    obtain ⟨groups, e1, e2, e3⟩ := h.ev
    rw [hw.evQ] at hq
    split at hq
    · cases hq
    · next h0 =>
      simp only [List.cons.injEq, and_true] at hq
      have hr := hw.ev.reading
      refine ⟨groups ++ [g.q.committed.take g.q.reading], ?_, ?_, ?_⟩
      · intro x hx
        rcases List.mem_append.1 hx with hx | hx
        · exact e1 x hx
        · simp only [List.mem_singleton] at hx
          subst hx
          intro hx
          have := congrArg List.length hx
          rw [List.length_take, List.length_nil] at this
          omega
      · rw [own, e2, ← hq]; simp [message]
      · show _ ++ g.q.committed.drop g.q.reading = _
        rw [← e3]
        simp [List.flatten_append]
  | log =>
    refine ⟨by rw [other _ (by decide)]; exact h.core, by rw [other _ (by decide)]; exact h.ev, h.acc, h.idle,
      by rw [other _ (by decide)]; exact h.cdr, h.sources, h.current, h.capOk, h.level, fun hf => ?_⟩
    obtain ⟨⟨gs, l1, l2, l3⟩, l4, l5⟩ := h.log hf
    rcases hw.logQ with h1 | ⟨h1, h2⟩
    · rw [h1] at hq; cases hq
    · rw [h2] at hq
      simp only [List.cons.injEq, and_true] at hq
      obtain ⟨⟨n, now⟩, hfr⟩ := Option.isSome_iff_exists.1 h1
      obtain ⟨k1, k2, k3⟩ := log_decode hc hd hw hfr (by rw [h.capOk, l4]; exact hf) l5
      have hm : (g.mark .log).S.entries = Spec.Log.markSent n g.S.entries := by simp [Ghost.mark, hfr]
      refine ⟨⟨gs ++ [(now, (unsentLines g.S.entries).take n)], ?_, ?_, ?_⟩, ?_, l5⟩
      · intro x hx
        rcases List.mem_append.1 hx with hx | hx
        · exact l1 x hx
        · simp only [List.mem_singleton] at hx
          subst hx
          intro hx
          have := congrArg List.length hx
          rw [List.length_take, List.length_nil] at this
          omega
      · rw [own, List.map_append, List.map_append, l2, ← hq]
        simp only [List.map_cons, List.map_nil, k1]
      · rw [hm, unsent_mark, ← l3]
        simp [List.flatten_append]
      · rw [hm, Log.markSent_map Entry.line (fun _ _ => rfl)]
        exact l4
  | cdr =>
    rcases hw.cdrQ with h1 | ⟨r, h1, -, h3⟩
    · rw [h1] at hq; cases hq
    · rw [h3] at hq
      simp only [List.cons.injEq, and_true] at hq
      obtain ⟨i, l, c1, c2⟩ := cdr_recording hw.cdr h1
      have hm : (g.mark .cdr).t = { g.t with waiting := fun j => if j = i then (g.t.waiting i).tail else g.t.waiting j
                                             current := none } := by
        simp only [Ghost.mark, Spec.Cdr.step, c1]
      refine ⟨by rw [other _ (by decide)]; exact h.core, by rw [other _ (by decide)]; exact h.ev, h.acc, h.idle,
        ?_, by rw [hm]; exact h.sources, fun j hj => absurd hj (by rw [hm]; simp), h.capOk, h.level,
        logOther (by decide) rfl rfl⟩
      obtain ⟨rs, r1, r2⟩ := h.cdr
      refine ⟨rs ++ [(i, r)], by rw [own, r1, ← hq]; simp, fun j => ?_⟩
      rw [hm, ← r2 j]
      dsimp only
      by_cases hj : j = i
      · subst hj
        rw [if_pos rfl, c2]
        simp
      · rw [if_neg hj]
        have : ¬ i = j := fun h => hj h.symm
        simp [this]

end Mflt.Sys
