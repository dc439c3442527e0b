import Verif.Lemmas.LogUpload
import Verif.Lemmas.LogSpec
import Verif.Lemmas.Event
import Verif.Spec.LogUpload

/-! # Lemmas: what an upload in progress leaves alone, and what it decodes to -/

namespace Mflt.Log

open Spec.Log (Line Entry total lineSize Op Out unsent collected lineItems upload)
open Cbor (Call emitAll)
open Props (CborVal)
open SerializerHelper (val u32 items_append callsList_append okList_append)

/-- What an upload shows of an entry. -/
def key (e : Entry) : Line × Bool := (e.line, e.sent)

theorem takeUnread_key {es : List Entry} {l : Line} {es' : List Entry}
    (h : Spec.Log.takeUnread es = some (l, es')) : es'.map key = es.map key := by
  induction es generalizing l es' with
  | nil => simp [Spec.Log.takeUnread] at h
  | cons e es ih =>
    simp only [Spec.Log.takeUnread] at h
    split at h
    · simp only [Option.map_eq_some_iff, Prod.mk.injEq] at h
      obtain ⟨⟨l', es1⟩, q1, -, rfl⟩ := h
      simp [ih q1]
    · simp only [Option.some.injEq, Prod.mk.injEq] at h
      obtain ⟨-, rfl⟩ := h
      rfl

/-- The entries, up to the read marks, and new unsent ones. -/
def Grown (es es' : List Entry) : Prop :=
  ∃ a b, es' = a ++ b ∧ a.map key = es.map key ∧ ∀ e ∈ b, e.sent = false

theorem Grown.refl (es : List Entry) : Grown es es := ⟨es, [], by simp, rfl, by simp⟩

theorem Grown.trans {x y z : List Entry} (h : Grown x y) (h' : Grown y z) : Grown x z := by
  obtain ⟨a, b, rfl, h1, h2⟩ := h
  obtain ⟨c, d, rfl, h3, h4⟩ := h'
  rw [List.map_append] at h3
  obtain ⟨c1, c2, rfl, e1, e2⟩ := List.map_eq_append_iff.mp h3
  refine ⟨c1, c2 ++ d, by simp, e1.trans h1, ?_⟩
  intro e he
  rcases List.mem_append.mp he with he | he
  · have hm : key e ∈ c2.map key := List.mem_map_of_mem he
    rw [e2] at hm
    obtain ⟨f, hf1, hf2⟩ := List.mem_map.mp hm
    have := h2 f hf1
    simp only [key, Prod.mk.injEq] at hf2
    rw [← hf2.2]; exact this
  · exact h4 e he

theorem frozen_step {cfg : Config} {S S' : Spec.Log.State} {f : Nat × Option Nat} {op : Op} {o : Out}
    (hf : S.frozen = some f) (hop : op ≠ .markSent) (h : Spec.Log.step cfg S op = some (o, S')) :
    S'.frozen = some f ∧ Grown S.entries S'.entries := by
  cases op with
  | save level type text now =>
    simp only [Spec.Log.step] at h
    split at h
    · simp only [Option.some.injEq, Prod.mk.injEq] at h
      obtain ⟨-, rfl⟩ := h
      unfold Spec.Log.save
      split
      · exact ⟨hf, Grown.refl _⟩
      · simp only
        split
        · exact ⟨hf, S.entries, [_], rfl, rfl, by simp⟩
        · rw [if_pos (.inr (by simp [hf]))]
          exact ⟨hf, Grown.refl _⟩
    · cases h
  | setMinLevel level =>
    simp only [Spec.Log.step, Option.some.injEq, Prod.mk.injEq] at h
    obtain ⟨-, rfl⟩ := h
    exact ⟨hf, Grown.refl _⟩
  | read =>
    simp only [Spec.Log.step] at h
    split at h
    · cases h
    · split at h
      · simp only [Option.some.injEq, Prod.mk.injEq] at h
        obtain ⟨-, rfl⟩ := h
        exact ⟨hf, Grown.refl _⟩
      · simp only [Spec.Log.readLine, Option.some.injEq] at h
        split at h
        · simp only [Prod.mk.injEq] at h
          obtain ⟨-, rfl⟩ := h
          exact ⟨hf, Grown.refl _⟩
        · rename_i l es hes
          simp only [Prod.mk.injEq] at h
          obtain ⟨-, rfl⟩ := h
          exact ⟨hf, es, [], by simp, takeUnread_key hes, by simp⟩
  | trigger now =>
    simp only [Spec.Log.step] at h
    split at h
    · cases h
    · rw [if_pos (.inl (by simp [hf]))] at h
      simp only [Option.some.injEq, Prod.mk.injEq] at h
      obtain ⟨-, rfl⟩ := h
      exact ⟨hf, Grown.refl _⟩
  | markSent => exact absurd rfl hop
  | unsentCount =>
    simp only [Spec.Log.step, Option.some.injEq, Prod.mk.injEq] at h
    obtain ⟨-, rfl⟩ := h
    exact ⟨hf, Grown.refl _⟩
  | droppedCount =>
    simp only [Spec.Log.step, Option.some.injEq, Prod.mk.injEq] at h
    obtain ⟨-, rfl⟩ := h
    exact ⟨hf, Grown.refl _⟩
  | recordedCount =>
    simp only [Spec.Log.step, Option.some.injEq, Prod.mk.injEq] at h
    obtain ⟨-, rfl⟩ := h
    exact ⟨hf, Grown.refl _⟩

theorem frozen_run {cfg : Config} (hc : ConfigOk cfg) (ops : List Op) :
    ∀ {s : State} {S S' : Spec.Log.State} {f : Nat × Option Nat} {outs : List Out}, Rel cfg s S →
    S.frozen = some f → Op.markSent ∉ ops → Spec.Log.run cfg S ops = some (outs, S') →
    S'.frozen = some f ∧ Grown S.entries S'.entries ∧
    ∃ s', run cfg s ops = some (outs, s') ∧ Rel cfg s' S' ∧ s'.cb.readOffset = s.cb.readOffset := by
  induction ops with
  | nil =>
    intro s S S' f outs hr hf _ h
    simp only [Spec.Log.run, Option.some.injEq, Prod.mk.injEq] at h
    obtain ⟨rfl, rfl⟩ := h
    exact ⟨hf, Grown.refl _, s, rfl, hr, rfl⟩
  | cons op ops ih =>
    intro s S S' f outs hr hf hm h
    simp only [Spec.Log.run, Option.bind_eq_some_iff, Option.map_eq_some_iff] at h
    obtain ⟨⟨o, S1⟩, a1, ⟨os, S2⟩, a2, a3⟩ := h
    simp only [Prod.mk.injEq] at a3
    obtain ⟨rfl, rfl⟩ := a3
    have hop : op ≠ .markSent := fun hx => hm (by simp [hx])
    obtain ⟨f1, g1⟩ := frozen_step hf hop a1
    obtain ⟨s1, b1, b2, b3⟩ := step_rel hc hr a1
    obtain ⟨f2, g2, s2, c1, c2, c3⟩ := ih b2 f1 (fun hx => hm (by simp [hx])) a2
    exact ⟨f2, g1.trans g2, s2, by simp [run, b1, c1], c2, c3.trans (b3 (by simp [hf]) hop)⟩

theorem collect_congr (cfg : Config) (ro cap : Nat) : ∀ (es es' : List Entry) (off n : Nat),
    es.map key = es'.map key → collect cfg ro cap off n es = collect cfg ro cap off n es' := by
  intro es
  induction es with
  | nil => intro es' off n h; cases es' with
    | nil => rfl
    | cons => simp at h
  | cons e es ih =>
    intro es' off n h
    cases es' with
    | nil => simp at h
    | cons e' es' =>
      simp only [List.map_cons, List.cons.injEq] at h
      obtain ⟨l, r, st⟩ := e
      obtain ⟨l', r', st'⟩ := e'
      obtain ⟨h1, h2⟩ := h
      simp only [key, Prod.mk.injEq] at h1
      obtain ⟨rfl, rfl⟩ := h1
      cases n with
      | zero => simp [collect]
      | succ n => simp only [collect, ih _ _ _ h2]

theorem collect_append (cfg : Config) (ro cap : Nat) (add : List Entry) : ∀ (es : List Entry) (off n : Nat),
    n ≤ unsent es → collect cfg ro cap off n (es ++ add) = collect cfg ro cap off n es := by
  intro es
  induction es with
  | nil =>
    intro off n h
    have : n = 0 := by simpa [unsent] using h
    subst this; simp [collect]
  | cons e es ih =>
    intro off n h
    obtain ⟨l, r, st⟩ := e
    cases n with
    | zero => simp [collect]
    | succ n =>
      cases st with
      | true =>
        have : n + 1 ≤ unsent es := by simpa [unsent] using h
        simp only [List.cons_append, collect, if_true, ih _ _ this]
      | false =>
        have : n ≤ unsent es := by simpa [unsent] using h
        simp only [List.cons_append, collect, Bool.false_eq_true, if_false, ih _ _ this]

theorem unsent_congr : ∀ {es es' : List Entry}, es.map key = es'.map key → unsent es = unsent es' := by
  intro es
  induction es with
  | nil => intro es' h; cases es' with
    | nil => rfl
    | cons => simp at h
  | cons e es ih =>
    intro es' h
    cases es' with
    | nil => simp at h
    | cons e' es' =>
      simp only [List.map_cons, List.cons.injEq, key, Prod.mk.injEq] at h
      have := ih h.2
      simp only [unsent, List.countP_cons] at this ⊢
      rw [h.1.2, this]

theorem markSent_all (add : List Entry) : ∀ (es : List Entry),
    Spec.Log.markSent (unsent es) (es ++ add) = es.map (fun e => { e with sent := true }) ++ add := by
  intro es
  induction es with
  | nil => simp [unsent, Spec.Log.markSent]
  | cons e es ih =>
    obtain ⟨l, r, st⟩ := e
    cases st with
    | true =>
      have hu : unsent (⟨l, r, true⟩ :: es) = unsent es := by simp [unsent]
      rw [hu]
      cases hn : unsent es with
      | zero =>
        rw [hn] at ih
        simp only [Spec.Log.markSent] at ih
        simp only [Spec.Log.markSent, List.map_cons, List.cons_append, List.cons.injEq, true_and]
        exact ih
      | succ n =>
        rw [hn] at ih
        simp only [List.cons_append, Spec.Log.markSent, if_true, ih, List.map_cons]
    | false =>
      have hu : unsent (⟨l, r, false⟩ :: es) = unsent es + 1 := by simp [unsent]
      rw [hu]
      simp only [List.cons_append, Spec.Log.markSent, Bool.false_eq_true, if_false, ih, List.map_cons]

/-! ## Decoding -/

/-- The values written for a line. -/
def lineVals (cfg : Config) (l : Line) : List CborVal :=
  (if cfg.timestamps then [val (l.timestamp.getD 0)] else []) ++
  [val l.level, if l.type = 0 then .textParts [l.text] else .bytes l.text]

theorem lineVals_calls {cfg : Config} {l : Line} (h : LineOk cfg l) :
    CborVal.callsList (lineVals cfg l) = partCalls cfg l (body l) ∧ short cfg l (body l) = false := by
  have hts := h.ts
  unfold lineVals partCalls short
  rw [body_eq]
  cases hc : cfg.timestamps <;> cases hl : l.timestamp <;>
    simp_all [CborVal.callsList, CborVal.calls, val, u32, le32_length]
  · split <;> simp [CborVal.calls, CborVal.callsList]
  · split <;> simp [CborVal.calls, CborVal.callsList]
  · rename_i t
    have hlt := h.tsLt t hl
    rw [ofLe32_le32 hlt, List.drop_left' (le32_length t)]
    refine ⟨rfl, ?_⟩
    split <;> simp [CborVal.calls, CborVal.callsList]

theorem lineVals_items {cfg : Config} {l : Line} (h : LineOk cfg l) :
    CborVal.items (lineVals cfg l) = lineItems cfg l := by
  have h2 := h.level
  have h3 := h.tsLt
  unfold lineVals lineItems
  rw [items_append]
  congr 1
  · split
    · have : l.timestamp.getD 0 < 2 ^ 32 := by
        cases hl : l.timestamp with
        | none => simp
        | some t => exact h3 t hl
      simp [CborVal.items, SerializerHelper.val_item this]
    · rfl
  · have : l.level < 2 ^ 32 := by omega
    simp only [CborVal.items, SerializerHelper.val_item this]
    split <;> simp [CborVal.item]

theorem lineVals_ok {cfg : Config} (hc : ConfigOk cfg) {l : Line} (h : LineOk cfg l) :
    CborVal.okList (lineVals cfg l) := by
  have h1 := h.len
  have h2 := hc.max
  have h3 : l.text.length ≤ (body l).length := by rw [body_eq]; simp
  unfold lineVals
  rw [okList_append]
  constructor
  · split <;> simp [CborVal.okList, CborVal.ok, val]
  · simp only [CborVal.okList, CborVal.ok, val, and_true, true_and]
    split <;> simp [CborVal.ok] <;> omega

theorem lineVals_length (cfg : Config) (l : Line) :
    (lineVals cfg l).length = if cfg.timestamps then 3 else 2 := by
  unfold lineVals; split <;> simp

/-- Every unsent line of a list that starts at `off` is not empty and does not wrap. -/
def Straight (ro cap : Nat) (off : Nat) (es : List Entry) : Prop :=
  ∀ pre e post, es = pre ++ e :: post → e.sent = false →
    body e.line ≠ [] ∧ (ro + (off + total pre + 2)) % cap + (body e.line).length ≤ cap

theorem collect_straight {cfg : Config} {ro cap : Nat} : ∀ (es : List Entry) (off n : Nat),
    (∀ e ∈ es, LineOk cfg e.line) → Straight ro cap off es →
    collect cfg ro cap off n es =
      CborVal.callsList ((collected n es).flatMap (lineVals cfg)) := by
  intro es
  induction es with
  | nil => intro off n _ _; cases n <;> simp [collect, collected, CborVal.callsList]
  | cons e es ih =>
    intro off n hok hs
    have hs' : Straight ro cap (off + lineSize e.line) es := by
      intro pre x post hx hse
      have := hs (e :: pre) x post (by simp [hx]) hse
      rw [total_cons] at this
      simpa [Nat.add_assoc] using this
    have ih' := fun n => ih (off + lineSize e.line) n (fun x hx => hok x (by simp [hx])) hs'
    cases n with
    | zero => simp [collect, collected, CborVal.callsList]
    | succ n =>
      by_cases hse : e.sent = true
      · simp only [collect, hse, if_true, ih']
        simp [collected, hse]
      · have hse' : e.sent = false := by simpa using hse
        obtain ⟨b1, b2⟩ := hs [] e es rfl hse'
        rw [total_nil, Nat.add_zero] at b2
        have hp : partsOf ro cap (off + 2) (body e.line) = [body e.line] := by
          unfold partsOf
          have : (body e.line).length ≠ 0 := fun hx => b1 (List.eq_nil_of_length_eq_zero hx)
          simp only [this, if_false]
          rw [if_pos (by omega)]
        obtain ⟨q1, q2⟩ := lineVals_calls (hok e (by simp))
        simp only [collect, hse', Bool.false_eq_true, if_false, ih', hp, entryCalls, q2, ← q1]
        simp [collected, hse', callsList_append]

theorem flatMap_items {cfg : Config} (ls : List Line) (h : ∀ l ∈ ls, LineOk cfg l) :
    CborVal.items (ls.flatMap (lineVals cfg)) = ls.flatMap (lineItems cfg) := by
  induction ls with
  | nil => rfl
  | cons l ls ih =>
    rw [List.flatMap_cons, items_append, lineVals_items (h l (by simp)),
      ih fun x hx => h x (by simp [hx]), List.flatMap_cons]

theorem flatMap_ok {cfg : Config} (hc : ConfigOk cfg) (ls : List Line) (h : ∀ l ∈ ls, LineOk cfg l) :
    CborVal.okList (ls.flatMap (lineVals cfg)) := by
  induction ls with
  | nil => simp [CborVal.okList]
  | cons l ls ih =>
    rw [List.flatMap_cons, okList_append]
    exact ⟨lineVals_ok hc (h l (by simp)), ih fun x hx => h x (by simp [hx])⟩

theorem flatMap_length (cfg : Config) (ls : List Line) :
    (ls.flatMap (lineVals cfg)).length = (if cfg.timestamps then 3 else 2) * ls.length := by
  induction ls with
  | nil => simp
  | cons l ls ih =>
    rw [List.flatMap_cons, List.length_append, ih, lineVals_length, List.length_cons, Nat.mul_add]
    omega

theorem double_le_total (es : List Entry) : 2 * es.length ≤ total es := by
  induction es with
  | nil => simp [total_nil]
  | cons e es ih => rw [total_cons, lineSize_eq, List.length_cons]; omega

theorem decode_upload {cfg : Config} (hc : ConfigOk cfg) {dev : SerializerHelper.Device}
    (hd : Spec.Event.DeviceOk dev) {ro cap : Nat} (hcap : cap < 2 ^ 31 - 8) {es : List Entry} {n : Nat}
    {now : Option Nat} (hok : ∀ e ∈ es, LineOk cfg e.line) (hn : n ≤ unsent es) (ht : total es ≤ cap)
    (hs : Straight ro cap 0 es) :
    Spec.Cbor.decode (emitAll (uploadCalls cfg dev ⟨true, n, now⟩ ro cap es)) =
      some (upload cfg dev n now es) := by
  have hcl : (collected n es).length = n := by
    unfold collected
    rw [List.length_map, List.length_take, ← List.countP_eq_length_filter]
    unfold unsent at hn; omega
  have hcok : ∀ l ∈ collected n es, LineOk cfg l := by
    intro l hl
    obtain ⟨e, he, rfl⟩ := List.mem_map.mp hl
    exact hok e (List.mem_filter.mp (List.mem_of_mem_take he)).1
  have hle : 2 * n ≤ cap := by
    have h1 := double_le_total es
    have h2 : unsent es ≤ es.length := List.countP_le_length
    omega
  have hlen := flatMap_length cfg (collected n es)
  rw [hcl] at hlen
  have hcalls : uploadCalls cfg dev ⟨true, n, now⟩ ro cap es =
      SerializerHelper.eventCalls dev (if cfg.timestamps then 6 else 4) now
        (CborVal.array ((collected n es).flatMap (lineVals cfg))).calls := by
    unfold uploadCalls headCalls SerializerHelper.eventCalls
    rw [collect_straight es 0 n hok hs, CborVal.calls, hlen]
    simp
  rw [hcalls, SerializerHelper.decode_event hd (by split <;> omega)]
  · unfold upload
    rw [CborVal.item, flatMap_items _ hcok]
  · rw [CborVal.ok]
    refine ⟨?_, flatMap_ok hc _ hcok⟩
    rw [hlen]; split <;> omega

theorem _root_.Mflt.Spec.Log.run_append {cfg : Config} {ops ops' : List Op} :
    ∀ {S S' : Spec.Log.State} {outs : List Out}, Spec.Log.run cfg S (ops ++ ops') = some (outs, S') →
    ∃ o1 T o2, Spec.Log.run cfg S ops = some (o1, T) ∧ Spec.Log.run cfg T ops' = some (o2, S') := by
  induction ops with
  | nil => intro S S' outs h; exact ⟨[], S, outs, rfl, h⟩
  | cons op ops ih =>
    intro S S' outs h
    simp only [List.cons_append, Spec.Log.run, Option.bind_eq_some_iff, Option.map_eq_some_iff] at h
    obtain ⟨⟨o, S1⟩, a1, ⟨os, S2⟩, a2, a3⟩ := h
    simp only [Prod.mk.injEq] at a3
    obtain ⟨-, rfl⟩ := a3
    obtain ⟨o1, T, o2, b1, b2⟩ := ih a2
    exact ⟨o :: o1, T, o2, by simp [Spec.Log.run, a1, b1], b2⟩

theorem _root_.Mflt.Spec.Log.run_cap' {cfg : Config} {ops : List Op} {S0 S : Spec.Log.State}
    {outs : List Out} (h : Spec.Log.run cfg S0 ops = some (outs, S)) : S.cap = S0.cap := by
  refine Spec.Log.run_induct (cfg := cfg) (P := fun T => T.cap = S0.cap) ?_ ops rfl h
  intro T op o T' hT hs
  cases op <;> simp only [Spec.Log.step, Spec.Log.save, Spec.Log.readLine] at hs <;>
    (repeat' split at hs) <;> simp_all <;> (try (obtain ⟨-, rfl⟩ := hs; rfl)) <;>
    (try (rw [← hs.2]; assumption)) <;>
    (try (obtain ⟨_, _, _, rfl⟩ := hs; rfl))

theorem _root_.Mflt.Spec.Log.run_cap {cfg : Config} {ops : List Op} {minLevel cap : Nat}
    {S : Spec.Log.State} {outs : List Out}
    (h : Spec.Log.run cfg (Spec.Log.init minLevel cap) ops = some (outs, S)) : S.cap = cap :=
  Spec.Log.run_cap' h

end Mflt.Log
