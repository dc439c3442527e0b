import Verif.Lemmas.HttpRequest
import Verif.Lemmas.MetricsActs
import Verif.Lemmas.MetricsGood
import Verif.Spec.MetricsDebug

/-! # Lemmas: defined metrics and their debug output -/

namespace Mflt.MetricsDebug

open Metrics (MType KV Table State Datum Rel TableOk keyOf)
open HttpRequest (ascii digitsLoop)
open Spec.MetricsDebug (metrics metricsOf Metric Valid sessions printed Number Shows text)

/-! ## Tables -/

theorem text_eq (s : String) : text s = ascii s := rfl

theorem map_flatMap_eq {α β γ : Type} (f : α → List β) (g : β → γ) (h : α → List γ) (l : List α)
    (e : ∀ a ∈ l, (f a).map g = h a) : (l.flatMap f).map g = l.flatMap h := by
  induction l with
  | nil => rfl
  | cons a l ih =>
    rw [List.flatMap_cons, List.flatMap_cons, List.map_append, e a (by simp),
      ih fun b hb => e b (by simp [hb])]

theorem sessionNames_eq (ds : List Decl) : sessionNames ds = sessions ds := by
  unfold sessionNames
  induction ds with
  | nil => rfl
  | cons d ds ih => cases d <;> simpa [sessions] using ih

theorem nameTable_eq (ds : List Decl) : nameTable ds = (metrics ds).map Metric.label :=
  (map_flatMap_eq _ _ _ _ fun d _ => by cases d <;> rfl).symm

theorem ids_eq (ds : List Decl) :
    ids ds = (metrics ds).map fun m => m.session ++ text "__" ++ m.name :=
  (map_flatMap_eq _ _ _ _ fun d _ => by cases d <;> rfl).symm

theorem keyEnums_eq (ds : List Decl) : ds.flatMap keyEnums = ids ds := by
  unfold ids
  have : keyEnums = idEnums := by funext d; cases d <;> rfl
  rw [this]

theorem table_type (ds : List Decl) : (table ds).map KV.type = (metrics ds).map Metric.type := by
  have h : ∀ d, (entries ds d).map KV.type = (metricsOf d).map Metric.type := fun d => by
    cases d <;> rfl
  unfold table metrics
  rw [map_flatMap_eq _ _ _ _ fun d _ => h d, map_flatMap_eq _ _ _ _ fun d _ => rfl]

theorem table_session (ds : List Decl) :
    (table ds).map KV.session = (metrics ds).map fun m => (sessions ds).idxOf m.session := by
  have h : ∀ d, (entries ds d).map KV.session = (metricsOf d).map fun m => (sessions ds).idxOf m.session :=
    fun d => by rw [← sessionNames_eq]; cases d <;> rfl
  unfold table metrics
  rw [map_flatMap_eq _ _ _ _ fun d _ => h d, map_flatMap_eq _ _ _ _ fun d _ => rfl]

theorem table_length (ds : List Decl) : (table ds).length = (metrics ds).length := by
  simpa using congrArg List.length (table_type ds)

theorem range_zero {n : Nat} (h : n < 2 ^ 31) : range 0 n = n := by
  unfold range
  omega

theorem table_range {ds : List Decl} (hv : Valid ds) :
    ((table ds).map fun kv => if kv.type = .string then kv.range else 0) =
      (metrics ds).map fun m => if m.type = .string then m.maxLen else 0 := by
  have h : ∀ d ∈ ds, ((entries ds d).map fun kv => if kv.type = .string then kv.range else 0) =
      (metricsOf d).map fun m => if m.type = .string then m.maxLen else 0 := by
    intro d hd
    have hs := hv.scalar d hd
    have hl : ∀ m ∈ metricsOf d, m.maxLen < 2 ^ 31 := fun m hm =>
      hv.short m (List.mem_flatMap.2 ⟨d, hd, hm⟩)
    cases d with
    | key n t =>
      have := hs n t 0 0 [] 0 (by simp)
      simp [entries, metricsOf, kvRangeIn, Spec.MetricsDebug.plain, this]
    | keyRange n t lo hi =>
      have := hs n t lo hi [] 0 (by simp)
      simp [entries, metricsOf, kvRangeIn, Spec.MetricsDebug.plain, this]
    | keyScale n t k =>
      have := hs n t 0 0 [] k (by simp)
      simp [entries, metricsOf, kvRangeIn, Spec.MetricsDebug.plain, this]
    | string n len =>
      have := hl _ (List.mem_singleton.2 rfl)
      simp only [entries, metricsOf, kvRangeIn, Spec.MetricsDebug.plain, List.map_cons, List.map_nil] at this ⊢
      rw [range_zero this]
    | session s => simp [entries, metricsOf, kvRangeIn, Spec.MetricsDebug.within]
    | keyIn n t s =>
      have := hs n t 0 0 s 0 (by simp)
      simp [entries, metricsOf, kvRangeIn, Spec.MetricsDebug.within, this]
    | keyRangeIn n t lo hi s =>
      have := hs n t lo hi s 0 (by simp)
      simp [entries, metricsOf, kvRangeIn, Spec.MetricsDebug.within, this]
    | keyScaleIn n t s k =>
      have := hs n t 0 0 s k (by simp)
      simp [entries, metricsOf, kvRangeIn, Spec.MetricsDebug.within, this]
    | stringIn n len s =>
      have := hl _ (List.mem_singleton.2 rfl)
      simp only [entries, metricsOf, kvRangeIn, Spec.MetricsDebug.within, List.map_cons, List.map_nil] at this ⊢
      rw [range_zero this]
  unfold table metrics
  rw [map_flatMap_eq _ _ _ _ h, map_flatMap_eq _ _ _ _ fun d _ => rfl]

theorem table_get {ds : List Decl} (hv : Valid ds) {k : Nat} {m : Metric} (h : (metrics ds)[k]? = some m) :
    ∃ kv, (table ds)[k]? = some kv ∧ kv.type = m.type ∧ kv.session = (sessions ds).idxOf m.session ∧
      (m.type = .string → kv.range = m.maxLen) := by
  have hk : k < (table ds).length := by
    rw [table_length]; exact (List.getElem?_eq_some_iff.1 h).1
  have e := List.getElem?_eq_getElem hk
  have a := congrArg (·[k]?) (table_type ds)
  have b := congrArg (·[k]?) (table_session ds)
  have c := congrArg (·[k]?) (table_range hv)
  simp only [List.getElem?_map, h, e, Option.map_some, Option.some.injEq] at a b c
  refine ⟨_, e, a, b, fun hs => ?_⟩
  rwa [if_pos (a.trans hs), if_pos hs] at c

theorem table_ok {ds : List Decl} (hv : Valid ds) : TableOk (table ds) := by
  refine ⟨by rw [table_length]; exact hv.many, fun kv hkv hs => ?_⟩
  obtain ⟨k, hk, rfl⟩ := List.mem_iff_getElem.1 hkv
  have hk' : k < (metrics ds).length := by rw [← table_length]; exact hk
  obtain ⟨kv, a, b, -, c⟩ := table_get hv (List.getElem?_eq_getElem hk')
  rw [List.getElem?_eq_getElem hk, Option.some.injEq] at a
  rw [a] at hs ⊢
  rw [c (b.symm.trans hs)]
  exact hv.short _ (List.getElem_mem hk')

theorem idxOf_get {l : List Bytes} (h : l.Nodup) {k : Nat} {x : Bytes} (hx : l[k]? = some x) :
    l.idxOf x = k := by
  obtain ⟨hk, rfl⟩ := List.getElem?_eq_some_iff.1 hx
  exact List.Nodup.idxOf_getElem h k hk

theorem get_idxOf {l : List Bytes} {x : Bytes} (h : x ∈ l) : l[l.idxOf x]? = some x := by
  rw [List.getElem?_eq_getElem (List.idxOf_lt_length_iff.2 h), List.getElem_idxOf]

theorem impl_eq {ds : List Decl} (hv : Valid ds) {k : Nat} (hk : k < (metrics ds).length) :
    impl ds k = some k := by
  unfold impl
  rw [keyEnums_eq]
  have hk' : k < (ids ds).length := by rw [ids_eq]; simpa using hk
  rw [List.getElem?_eq_getElem hk', Option.map_some,
    List.Nodup.idxOf_getElem (by rw [ids_eq]; exact hv.metricsDiffer) k hk']

/-! ## Numbers -/

theorem digitsLoop_head : ∀ fuel n acc, n < fuel → 0 < n → (digitsLoop fuel n acc).head? ≠ some 48 := by
  intro fuel
  induction fuel with
  | zero => intro n acc h; omega
  | succ fuel ih =>
    intro n acc h h0
    unfold digitsLoop
    split
    · rename_i h1
      intro hc
      have := congrArg UInt8.toNat (Option.some.inj hc)
      rw [UInt8.toNat_ofNat'] at this
      have h48 : (48 : UInt8).toNat = 48 := rfl
      omega
    · exact ih _ _ (by omega) (by omega)

theorem formatNat_number (n : Nat) : Number n (formatNat n) := by
  unfold formatNat
  obtain ⟨ds, a, b, c, d, -⟩ := HttpRequest.digitsLoop_eq (n + 1) n [] (by omega)
  rw [List.append_nil] at a
  refine ⟨by rw [a]; exact d, by rw [a]; exact c, by rw [a]; exact b, fun h => ?_⟩
  rcases Nat.eq_zero_or_pos n with rfl | hn
  · rfl
  · exact absurd h (digitsLoop_head _ _ _ (by omega) hn)

theorem formatInt_shows (i : Int) : Shows (Spec.Cbor.Item.int i) (formatInt i) := by
  unfold formatInt Spec.Cbor.Item.int
  by_cases h : i < 0
  · rw [if_pos h, if_neg (by omega)]
    refine ⟨_, rfl, ?_⟩
    have : (-1 - i).toNat + 1 = i.natAbs := by omega
    rw [this]
    exact formatNat_number _
  · rw [if_neg h, if_pos (by omega)]
    have : i.toNat = i.natAbs := by omega
    rw [this]
    exact formatNat_number _

/-! ## Lines -/

theorem render_shows {tab : Table} {st : State} {s : Spec.Metrics.State} (h : Rel tab st s) {k : Nat}
    (hk : k < tab.length) :
    ∃ d, Metrics.datum tab st k = some d ∧ Shows (s k).item (render d) := by
  have hkv : tab[k]? = some tab[k] := List.getElem?_eq_getElem hk
  rcases h.cases hkv with ⟨hn, v, f, o, h1, h2, h3⟩ | ⟨hn, v, m, total, since, h1, h2, h3⟩ |
        ⟨hn, buf, t, h1, h2, h3⟩
  · obtain ⟨g0, g1, g2⟩ := Metrics.findValue_num hkv hn h1
    refine ⟨.num tab[k].type v f, ?_, ?_⟩
    · unfold Metrics.datum; rw [g0]; simp [g1]
    · rw [h2]
      rcases h3.1 with ⟨ht, ho⟩ | ⟨ht, ho⟩
      · rw [ht, ho]
        cases f with
        | true =>
          have := formatInt_shows (v.toNat : Int)
          unfold formatInt at this
          rw [if_neg (by omega)] at this
          exact this
        | false => rfl
      · rw [ht, ho]
        cases f with
        | true => exact formatInt_shows v.toInt
        | false => rfl
  · obtain ⟨g0, g1, g2⟩ := Metrics.findValue_timer hkv hn h1
    refine ⟨.num .timer v false, ?_, ?_⟩
    · unfold Metrics.datum; rw [g0]; simp [g1]
    · rw [h2, ← h3.2.1]; exact formatNat_number _
  · obtain ⟨g0, g1⟩ := Metrics.findValue_str hkv hn h1
    obtain ⟨-, q2, q3, junk, rfl⟩ := h3
    refine ⟨.str t, ?_, ?_⟩
    · unfold Metrics.datum; rw [g0]; simp [g1, Metrics.cstring_eq q3]
    · rw [h2]; rfl

theorem iterate_filter {α : Type} {f : Nat → Option (List α)} (p : Nat → Bool) (g : Nat → α) :
    ∀ ks, (∀ k ∈ ks, f k = some (if p k then [g k] else [])) → iterate f ks = some ((ks.filter p).map g) := by
  intro ks
  induction ks with
  | nil => intro _; rfl
  | cons k ks ih =>
    intro h
    unfold iterate
    rw [h k (by simp), ih fun j hj => h j (by simp [hj])]
    cases hp : p k <;> simp [hp]

theorem filter_wanted {ds : List Decl} (hv : Valid ds) {k : Nat} {m : Metric}
    (h : (metrics ds)[k]? = some m) (req : Request) :
    filter ds req ((sessions ds).idxOf m.session) = (match req with
      | .session i => (sessions ds)[i]? == some m.session
      | .allSessions => m.session != text "heartbeat") := by
  have hm : m.session ∈ sessions ds := hv.declared m (List.mem_of_getElem? h)
  have hg := get_idxOf hm
  cases req with
  | session i =>
    simp only [filter]
    rw [Bool.eq_iff_iff, beq_iff_eq, beq_iff_eq]
    constructor
    · intro e; rw [← e]; exact hg
    · intro e; exact idxOf_get hv.sessionsDiffer e
  | allSessions =>
    simp only [filter, sessionKey, sessionNames_eq]
    rw [Bool.eq_iff_iff, bne_iff_ne, bne_iff_ne]
    have hh : text "heartbeat" ∈ sessions ds := by
      rw [← sessionNames_eq]; unfold sessionNames; simp [text_eq]
    constructor
    · intro e hc; exact e (by rw [hc]; rfl)
    · intro e hc
      have := get_idxOf hh
      rw [text_eq, ← hc, hg] at this
      exact e (by simpa [text_eq] using this)

theorem lines_rel {ds : List Decl} (hv : Valid ds) {st : State} {s : Spec.Metrics.State}
    (h : Rel (table ds) st s) (req : Request) :
    ∃ t : Nat → Bytes, (∀ k, k < (metrics ds).length → Shows (s k).item (t k)) ∧
      iterate (printOne ds st req) (List.range (table ds).length) =
        some ((printed ds req).map fun k =>
          text "  " ++ (((metrics ds)[k]?.map Metric.label).getD []) ++ text ": " ++ t k) := by
  refine ⟨fun k => ((Metrics.datum (table ds) st k).map render).getD [], ?_, ?_⟩
  · intro k hk
    obtain ⟨d, a, b⟩ := render_shows h (by rw [table_length]; exact hk)
    dsimp only
    rw [a]; exact b
  · unfold printed
    rw [table_length]
    refine iterate_filter _ _ _ fun k hk => ?_
    have hk := List.mem_range.1 hk
    have hm := List.getElem?_eq_getElem hk
    obtain ⟨kv, a, -, b, -⟩ := table_get hv hm
    obtain ⟨d, c, -⟩ := render_shows h (show k < (table ds).length by rw [table_length]; exact hk)
    unfold printOne
    rw [c, Option.bind_some, a, Option.bind_some, b, filter_wanted hv hm req, impl_eq hv hk, hm,
      Option.bind_some, nameTable_eq, List.getElem?_map, hm]
    cases req <;> simp only [Option.map_some, Option.getD_some, c] <;> split <;> simp_all [text_eq]

theorem debugPrint_rel {ds : List Decl} (hv : Valid ds) {st st' : State} {s : Spec.Metrics.State}
    {times : Nat → Nat} (hu : Metrics.timersUpdate (table ds) st times = some st')
    (h : Rel (table ds) st' s) (req : Request) :
    ∃ t : Nat → Bytes, (∀ k, k < (metrics ds).length → Shows (s k).item (t k)) ∧
      debugPrint ds st times req =
        some (text "Metrics keys/values:" :: (printed ds req).map fun k =>
          text "  " ++ (((metrics ds)[k]?.map Metric.label).getD []) ++ text ": " ++ t k, st') := by
  obtain ⟨t, a, b⟩ := lines_rel hv h req
  refine ⟨t, a, ?_⟩
  unfold debugPrint
  rw [hu, Option.bind_some, b]
  rfl

/-! ## Histories -/

open Spec.Metrics (Val Op Out Key upd tick ticked)

/-- Values of which a print makes one from the other: a timer that runs may have been read. -/
def Sim : Val → Val → Prop
  | .timer a (some t), .timer b (some u) => a + u = b + t
  | v, w => v = w

theorem Sim.refl (v : Val) : Sim v v := by
  cases v with
  | timer a s => cases s <;> simp [Sim]
  | int o => rfl
  | text t => rfl

theorem Sim.cases {v w : Val} (h : Sim v w) :
    v = w ∨ ∃ a t b u, v = .timer a (some t) ∧ w = .timer b (some u) ∧ a + u = b + t := by
  cases v with
  | timer a s =>
    cases s with
    | none => exact .inl (by simpa [Sim] using h)
    | some t =>
      cases w with
      | timer b s' =>
        cases s' with
        | none => exact .inl (by simpa [Sim] using h)
        | some u => exact .inr ⟨a, t, b, u, rfl, rfl, h⟩
      | int o => exact .inl (by simpa [Sim] using h)
      | text t => exact .inl (by simpa [Sim] using h)
  | int o => exact .inl (by simpa [Sim] using h)
  | text t => exact .inl (by simpa [Sim] using h)

theorem tick_sim {a t b u now x y : Nat} (h : a + u = b + t) (hx : tick a t now = some x)
    (hy : tick b u now = some y) : x = y := by
  unfold tick at hx hy
  split at hx
  · split at hy
    · simp only [Option.some.injEq] at hx hy; omega
    · cases hy
  · cases hx

/-- A read brings a timer closer to any later read, not further away. -/
theorem ticked_sim {v w : Val} {now : Nat} {x : Val} (hx : ticked v now = some x) (h : Sim v w) : Sim x w := by
  rcases h.cases with rfl | ⟨a, t, b, u, rfl, rfl, e⟩
  · cases v with
    | timer a s =>
      cases s with
      | none => simp only [ticked, Option.some.injEq] at hx; rw [← hx]; exact Sim.refl _
      | some t =>
        simp only [ticked] at hx
        obtain ⟨y, hy, rfl⟩ := Option.map_eq_some_iff.1 hx
        unfold tick at hy
        split at hy
        · simp only [Option.some.injEq] at hy; simp only [Sim]; omega
        · cases hy
    | int o => simp only [ticked, Option.some.injEq] at hx; rw [← hx]; exact Sim.refl _
    | text o => simp only [ticked, Option.some.injEq] at hx; rw [← hx]; exact Sim.refl _
  · simp only [ticked] at hx
    obtain ⟨y, hy, rfl⟩ := Option.map_eq_some_iff.1 hx
    unfold tick at hy
    split at hy
    · simp only [Option.some.injEq] at hy; simp only [Sim]; omega
    · cases hy

theorem ticked_eq {v w : Val} {now : Nat} {x y : Val} (h : Sim v w) (hx : ticked v now = some x)
    (hy : ticked w now = some y) : x = y := by
  rcases h.cases with rfl | ⟨a, t, b, u, rfl, rfl, e⟩
  · rw [hx] at hy; exact Option.some.inj hy
  · simp only [ticked] at hx hy
    obtain ⟨p, hp, rfl⟩ := Option.map_eq_some_iff.1 hx
    obtain ⟨q, hq, rfl⟩ := Option.map_eq_some_iff.1 hy
    rw [tick_sim e hp hq]

/-- States of which prints make one from the other. -/
def SimS (n : Nat) (s s' : Spec.Metrics.State) : Prop :=
  (∀ k, Sim (s k) (s' k)) ∧ ∀ k, n ≤ k → s k = s' k

theorem SimS.refl (n : Nat) (s : Spec.Metrics.State) : SimS n s s := ⟨fun _ => .refl _, fun _ _ => rfl⟩

theorem SimS.upd {n : Nat} {s s' : Spec.Metrics.State} (h : SimS n s s') (k : Nat) (v : Val) :
    SimS n (upd s k v) (upd s' k v) := by
  refine ⟨fun i => ?_, fun i hi => ?_⟩
  · unfold Spec.Metrics.upd; split
    · exact .refl _
    · exact h.1 i
  · unfold Spec.Metrics.upd; split
    · rfl
    · exact h.2 i hi

variable {dev : SerializerHelper.Device} {keys : List Key}

theorem update_sim {s s' : Spec.Metrics.State} (h : SimS keys.length s s') {times : Nat → Nat}
    {o : Out} {s1 : Spec.Metrics.State} (a : Spec.Metrics.step dev keys s (.updateTimers times) = some (o, s1)) :
    SimS keys.length s1 s' := by
  simp only [Spec.Metrics.step] at a
  split at a
  · rename_i hc
    simp only [Option.some.injEq, Prod.mk.injEq] at a
    obtain ⟨-, rfl⟩ := a
    refine ⟨fun k => ?_, fun k hk => ?_⟩
    · dsimp only
      split
      · rename_i hk
        obtain ⟨x, hx⟩ := Option.isSome_iff_exists.1 (hc k hk)
        rw [hx]
        exact ticked_sim hx (h.1 k)
      · exact h.1 k
    · dsimp only
      rw [if_neg (by omega)]
      exact h.2 k hk
  · cases a

theorem update_eq {s s' : Spec.Metrics.State} (h : SimS keys.length s s') {times : Nat → Nat}
    {o o' : Out} {s1 s1' : Spec.Metrics.State}
    (a : Spec.Metrics.step dev keys s (.updateTimers times) = some (o, s1))
    (b : Spec.Metrics.step dev keys s' (.updateTimers times) = some (o', s1')) : o = o' ∧ s1 = s1' := by
  simp only [Spec.Metrics.step] at a b
  split at a
  · rename_i hc
    split at b
    · rename_i hc'
      simp only [Option.some.injEq, Prod.mk.injEq] at a b
      obtain ⟨rfl, rfl⟩ := a
      obtain ⟨rfl, rfl⟩ := b
      refine ⟨rfl, funext fun k => ?_⟩
      split
      · rename_i hk
        obtain ⟨x, hx⟩ := Option.isSome_iff_exists.1 (hc k hk)
        obtain ⟨y, hy⟩ := Option.isSome_iff_exists.1 (hc' k hk)
        rw [hx, hy]
        exact ticked_eq (h.1 k) hx hy
      · exact h.2 k (by omega)
    · cases b
  · cases a

set_option hygiene false in
local macro "fin" : tactic => `(tactic| (
  simp only [Option.some.injEq, Prod.mk.injEq] at a b
  obtain ⟨rfl, rfl⟩ := a
  obtain ⟨rfl, rfl⟩ := b
  first
    | exact ⟨rfl, h⟩
    | exact ⟨rfl, h.upd ..⟩))

/-- Calls that do not report or clear do not notice whether timers were read before. -/
theorem step_sim {s s' : Spec.Metrics.State} (h : SimS keys.length s s') {op : Op}
    (hop : (Spec.MetricsDebug.Ev.call op).ok) {o o' : Out} {s1 s1' : Spec.Metrics.State}
    (a : Spec.Metrics.step dev keys s op = some (o, s1))
    (b : Spec.Metrics.step dev keys s' op = some (o', s1')) : o = o' ∧ SimS keys.length s1 s1' := by
  cases op with
  | setSigned k v =>
    simp only [Spec.Metrics.step] at a b
    split at a
    · cases a
    · rename_i hc
      rw [if_neg hc] at b
      split at a <;> rename_i e <;> simp only [e] at b <;>
        simp only [Option.some.injEq, Prod.mk.injEq] at a b <;> obtain ⟨rfl, rfl⟩ := a <;>
        obtain ⟨rfl, rfl⟩ := b <;> first | exact ⟨rfl, h⟩ | exact ⟨rfl, h.upd ..⟩
  | setUnsigned k v =>
    simp only [Spec.Metrics.step] at a b
    split at a
    · cases a
    · rename_i hc
      rw [if_neg hc] at b
      split at a <;> rename_i e <;> simp only [e] at b <;>
        simp only [Option.some.injEq, Prod.mk.injEq] at a b <;> obtain ⟨rfl, rfl⟩ := a <;>
        obtain ⟨rfl, rfl⟩ := b <;> first | exact ⟨rfl, h⟩ | exact ⟨rfl, h.upd ..⟩
  | setText k t =>
    simp only [Spec.Metrics.step] at a b
    split at a
    · cases a
    · rename_i hc
      rw [if_neg hc] at b
      split at a
      · rename_i e
        simp only [e, Option.some.injEq, Prod.mk.injEq] at a b
        obtain ⟨rfl, rfl⟩ := a; obtain ⟨rfl, rfl⟩ := b
        exact ⟨rfl, h.upd ..⟩
      · rename_i e
        split at b
        · rename_i e'; exact absurd e' (e _ _)
        · simp only [Option.some.injEq, Prod.mk.injEq] at a b
          obtain ⟨rfl, rfl⟩ := a; obtain ⟨rfl, rfl⟩ := b
          exact ⟨rfl, h⟩
  | add k amount =>
    simp only [Spec.Metrics.step] at a b
    split at a
    · cases a
    · rename_i hc
      rw [if_neg hc] at b
      rcases (h.1 k).cases with e | ⟨x, t, y, u, e1, e2, e3⟩
      · rw [← e] at b
        cases hty : keys[k]?.map Key.ty with
        | none => simp only [hty] at a b; fin
        | some ty => cases ty <;> cases hv : s k <;> simp only [hty, hv] at a b <;> fin
      · cases hty : keys[k]?.map Key.ty with
        | none => simp only [hty] at a b; fin
        | some ty => cases ty <;> simp only [hty, e1, e2] at a b <;> fin
  | timerStart k now =>
    simp only [Spec.Metrics.step] at a b
    rcases (h.1 k).cases with e | ⟨x, t, y, u, e1, e2, e3⟩
    · rw [← e] at b
      cases hty : keys[k]?.map Key.ty with
      | none => simp only [hty] at a b; fin
      | some ty =>
        cases hv : s k with
        | timer x since => cases since <;> cases ty <;> simp only [hty, hv] at a b <;> fin
        | int o => cases ty <;> simp only [hty, hv] at a b <;> fin
        | text o => cases ty <;> simp only [hty, hv] at a b <;> fin
    · cases hty : keys[k]?.map Key.ty with
      | none => simp only [hty] at a b; fin
      | some ty => cases ty <;> simp only [hty, e1, e2] at a b <;> fin
  | timerStop k now =>
    simp only [Spec.Metrics.step] at a b
    rcases (h.1 k).cases with e | ⟨x, t, y, u, e1, e2, e3⟩
    · rw [← e] at b
      cases hty : keys[k]?.map Key.ty with
      | none => simp only [hty] at a b; fin
      | some ty =>
        cases hv : s k with
        | timer x since =>
          cases since with
          | none => cases ty <;> simp only [hty, hv] at a b <;> fin
          | some t =>
            cases ty <;> simp only [hty, hv] at a b <;> try fin
            obtain ⟨p, hp, a⟩ := Option.map_eq_some_iff.1 a
            obtain ⟨q, hq, b⟩ := Option.map_eq_some_iff.1 b
            obtain rfl : p = q := by rw [hp] at hq; exact Option.some.inj hq
            obtain ⟨rfl, rfl⟩ := Prod.mk.injEq .. ▸ a
            obtain ⟨rfl, rfl⟩ := Prod.mk.injEq .. ▸ b
            exact ⟨rfl, h.upd ..⟩
        | int o => cases ty <;> simp only [hty, hv] at a b <;> fin
        | text o => cases ty <;> simp only [hty, hv] at a b <;> fin
    · cases hty : keys[k]?.map Key.ty with
      | none => simp only [hty] at a b; fin
      | some ty =>
        cases ty <;> simp only [hty, e1, e2] at a b <;> try fin
        obtain ⟨p, hp, a⟩ := Option.map_eq_some_iff.1 a
        obtain ⟨q, hq, b⟩ := Option.map_eq_some_iff.1 b
        obtain rfl : p = q := tick_sim e3 hp hq
        obtain ⟨rfl, rfl⟩ := Prod.mk.injEq .. ▸ a
        obtain ⟨rfl, rfl⟩ := Prod.mk.injEq .. ▸ b
        exact ⟨rfl, h.upd ..⟩
  | timerRead k now =>
    simp only [Spec.Metrics.step] at a b
    rcases (h.1 k).cases with e | ⟨x, t, y, u, e1, e2, e3⟩
    · rw [← e] at b
      cases hty : keys[k]?.map Key.ty with
      | none => simp only [hty] at a b; fin
      | some ty =>
        cases hv : s k with
        | timer x since =>
          cases since with
          | none => cases ty <;> simp only [hty, hv] at a b <;> fin
          | some t =>
            cases ty <;> simp only [hty, hv] at a b <;> try fin
            obtain ⟨p, hp, a⟩ := Option.map_eq_some_iff.1 a
            obtain ⟨q, hq, b⟩ := Option.map_eq_some_iff.1 b
            obtain rfl : p = q := by rw [hp] at hq; exact Option.some.inj hq
            obtain ⟨rfl, rfl⟩ := Prod.mk.injEq .. ▸ a
            obtain ⟨rfl, rfl⟩ := Prod.mk.injEq .. ▸ b
            exact ⟨rfl, h.upd ..⟩
        | int o => cases ty <;> simp only [hty, hv] at a b <;> fin
        | text o => cases ty <;> simp only [hty, hv] at a b <;> fin
    · cases hty : keys[k]?.map Key.ty with
      | none => simp only [hty] at a b; fin
      | some ty =>
        cases ty <;> simp only [hty, e1, e2] at a b <;> try fin
        obtain ⟨p, hp, a⟩ := Option.map_eq_some_iff.1 a
        obtain ⟨q, hq, b⟩ := Option.map_eq_some_iff.1 b
        obtain rfl : p = q := tick_sim e3 hp hq
        obtain ⟨rfl, rfl⟩ := Prod.mk.injEq .. ▸ a
        obtain ⟨rfl, rfl⟩ := Prod.mk.injEq .. ▸ b
        exact ⟨rfl, h.upd ..⟩
  | readSigned k =>
    simp only [Spec.Metrics.step] at a b
    rcases (h.1 k).cases with e | ⟨x, t, y, u, e1, e2, e3⟩
    · rw [← e] at b
      cases hty : keys[k]?.map Key.ty with
      | none => simp only [hty] at a b; fin
      | some ty =>
        cases hv : s k with
        | timer x since => cases ty <;> simp only [hty, hv] at a b <;> fin
        | int o => cases o <;> cases ty <;> simp only [hty, hv] at a b <;> fin
        | text o => cases ty <;> simp only [hty, hv] at a b <;> fin
    · cases hty : keys[k]?.map Key.ty with
      | none => simp only [hty] at a b; fin
      | some ty => cases ty <;> simp only [hty, e1, e2] at a b <;> fin
  | readUnsigned k =>
    simp only [Spec.Metrics.step] at a b
    rcases (h.1 k).cases with e | ⟨x, t, y, u, e1, e2, e3⟩
    · rw [← e] at b
      cases hty : keys[k]?.map Key.ty with
      | none => simp only [hty] at a b; fin
      | some ty =>
        cases hv : s k with
        | timer x since => cases ty <;> simp only [hty, hv] at a b <;> fin
        | int o => cases o <;> cases ty <;> simp only [hty, hv] at a b <;> fin
        | text o => cases ty <;> simp only [hty, hv] at a b <;> fin
    · cases hty : keys[k]?.map Key.ty with
      | none => simp only [hty] at a b; fin
      | some ty => cases ty <;> simp only [hty, e1, e2] at a b <;> fin
  | readText k n =>
    simp only [Spec.Metrics.step] at a b
    split at a
    · rename_i hc
      rw [if_pos hc] at b
      fin
    · rename_i hc
      rw [if_neg hc] at b
      rcases (h.1 k).cases with e | ⟨x, t, y, u, e1, e2, e3⟩
      · rw [← e] at b
        cases hty : keys[k]?.map Key.ty with
        | none => simp only [hty] at a b; fin
        | some ty => cases ty <;> cases hv : s k <;> simp only [hty, hv] at a b <;> fin
      · cases hty : keys[k]?.map Key.ty with
        | none => simp only [hty] at a b; fin
        | some ty => cases ty <;> simp only [hty, e1, e2] at a b <;> fin
  | updateTimers times =>
    obtain ⟨rfl, rfl⟩ := update_eq h a b
    exact ⟨rfl, .refl _ _⟩
  | report => exact hop.elim
  | clear => exact hop.elim
  | clearAll => exact hop.elim

end Mflt.MetricsDebug
