import Verif.Model.Metrics
import Verif.Spec.MetricsClient
import Verif.Lemmas.Event
import Mathlib.Tactic.Convert

/-! # Lemmas: metrics as separate variables -/

namespace Mflt.Metrics

theorem take_succ_some {α} {l : List α} {k : Nat} {a : α} (h : l[k]? = some a) :
    l.take (k + 1) = l.take k ++ [a] := by
  rw [List.take_add_one, h]; rfl

theorem rank_lt {p : KV → Bool} {tab : Table} {i j : Nat} {kv : KV} (h : tab[i]? = some kv)
    (hp : p kv = true) (hij : i < j) : rank p tab i < rank p tab j := by
  unfold rank
  have h1 : tab.take j = tab.take (i + 1) ++ (tab.take j).drop (i + 1) := by
    have h2 := (List.take_append_drop (i + 1) (tab.take j)).symm
    rwa [List.take_take, Nat.min_eq_left (show i + 1 ≤ j from hij)] at h2
  rw [h1, take_succ_some h, List.countP_append, List.countP_append]
  simp [hp]; omega

theorem rank_lt_count {p : KV → Bool} {tab : Table} {k : Nat} {kv : KV} (h : tab[k]? = some kv)
    (hp : p kv = true) : rank p tab k < tab.countP p := by
  unfold rank
  have h1 : tab.countP p = (tab.take (k + 1) ++ tab.drop (k + 1)).countP p := by
    rw [List.take_append_drop]
  rw [h1, take_succ_some h, List.countP_append, List.countP_append]
  simp [hp]; omega

theorem rank_inj {p : KV → Bool} {tab : Table} {i j : Nat} {a b : KV} (hi : tab[i]? = some a)
    (hj : tab[j]? = some b) (ha : p a = true) (hb : p b = true) (h : rank p tab i = rank p tab j) :
    i = j := by
  rcases Nat.lt_trichotomy i j with hlt | heq | hgt
  · have := rank_lt hi ha hlt; omega
  · exact heq
  · have := rank_lt hj hb hgt; omega

/-! ## The flags -/

theorem bit_eq (b : BitVec 8) {n : Nat} (h : n < 8) : (((b >>> n) &&& 1#8) == 1#8) = b.getLsbD n := by
  have key : ∀ n : Fin 8, ∀ b : BitVec 8, (((b >>> n.val) &&& 1#8) == 1#8) = b.getLsbD n.val := by
    decide +kernel
  exact key ⟨n, h⟩ b

theorem readFlag_eq (st : State) (i : Nat) :
    readFlag st i = st.flags[i / 8]?.map fun b => b.getLsbD (i % 8) := by
  unfold readFlag
  rw [Nat.shiftRight_eq_div_pow]
  congr 1
  funext b
  exact bit_eq b (Nat.mod_lt _ (by decide))

theorem set_bit (b : BitVec 8) {i j : Nat} (hi : i < 8) (hj : j < 8) :
    (b ||| (1#8 <<< j)).getLsbD i = if i = j then true else b.getLsbD i := by
  have key : ∀ i j : Fin 8, (1#8 <<< j.val).getLsbD i.val = decide (i.val = j.val) := by decide
  rw [BitVec.getLsbD_or, key ⟨i, hi⟩ ⟨j, hj⟩]
  by_cases h : i = j <;> simp [h]

theorem clear_bit (b : BitVec 8) {i j : Nat} (hi : i < 8) (hj : j < 8) :
    (b &&& ~~~(1#8 <<< j)).getLsbD i = if i = j then false else b.getLsbD i := by
  have key : ∀ i j : Fin 8, (~~~(1#8 <<< j.val)).getLsbD i.val = !decide (i.val = j.val) := by decide
  rw [BitVec.getLsbD_and, key ⟨i, hi⟩ ⟨j, hj⟩]
  by_cases h : i = j <;> simp [h]

theorem setFlag_some {st : State} {j : Nat} (h : j / 8 < st.flags.length) :
    ∃ fl, setFlag st j = some { st with flags := fl } ∧ fl.length = st.flags.length ∧
      ∀ i, i / 8 < st.flags.length → readFlag { st with flags := fl } i =
        if i = j then some true else readFlag st i := by
  unfold setFlag
  have hs : j >>> 3 = j / 8 := by rw [Nat.shiftRight_eq_div_pow]
  rw [hs, List.getElem?_eq_getElem h]
  refine ⟨_, rfl, by simp, fun i hi => ?_⟩
  simp only [readFlag_eq, List.getElem?_set]
  by_cases hij : j / 8 = i / 8
  · simp only [hij, if_true, hi, List.getElem?_eq_getElem hi, Option.map_some]
    rw [set_bit _ (Nat.mod_lt _ (by decide)) (Nat.mod_lt _ (by decide))]
    by_cases h8 : i % 8 = j % 8
    · have : i = j := by omega
      simp [this]
    · have : i ≠ j := by omega
      simp [h8, this]
  · have : i ≠ j := by omega
    simp [hij, this]

theorem clearFlag_some {st : State} {j : Nat} (h : j / 8 < st.flags.length) :
    ∃ fl, clearFlag st j = some { st with flags := fl } ∧ fl.length = st.flags.length ∧
      ∀ i, i / 8 < st.flags.length → readFlag { st with flags := fl } i =
        if i = j then some false else readFlag st i := by
  unfold clearFlag
  have hs : j >>> 3 = j / 8 := by rw [Nat.shiftRight_eq_div_pow]
  rw [hs, List.getElem?_eq_getElem h]
  refine ⟨_, rfl, by simp, fun i hi => ?_⟩
  simp only [readFlag_eq, List.getElem?_set]
  by_cases hij : j / 8 = i / 8
  · simp only [hij, if_true, hi, List.getElem?_eq_getElem hi, Option.map_some]
    rw [clear_bit _ (Nat.mod_lt _ (by decide)) (Nat.mod_lt _ (by decide))]
    by_cases h8 : i % 8 = j % 8
    · have : i = j := by omega
      simp [this]
    · have : i ≠ j := by omega
      simp [h8, this]
  · have : i ≠ j := by omega
    simp [hij, this]

/-! ## The metrics of a state -/

/-- What is stored for a key. -/
inductive View
  | num (v : BitVec 32) (isSet : Bool)
  | timer (v : BitVec 32) (m : Meta)
  | str (buf : Bytes)

def view (tab : Table) (st : State) (k : Nat) : Option View :=
  match tab[k]? with
  | none => none
  | some kv =>
    match kv.type with
    | .string => st.strings[rank KV.isString tab k]?.map .str
    | .timer => st.values[rank KV.isScalar tab k]?.bind fun v =>
        st.timers[rank KV.isTimer tab k]?.map fun m => .timer v m
    | _ => st.values[rank KV.isScalar tab k]?.bind fun v =>
        (readFlag st (rank KV.isScalar tab k)).map fun f => .num v f

/-- The tables have their sizes. -/
structure Sized (tab : Table) (st : State) : Prop where
  values : st.values.length = tab.countP KV.isScalar
  flags : st.flags.length = (tab.countP KV.isScalar + 7) / 8
  strings : st.strings.length = tab.countP KV.isString
  timers : st.timers.length = tab.countP KV.isTimer + 1

theorem Sized.flag {tab : Table} {st : State} (h : Sized tab st) {k : Nat} {kv : KV}
    (hk : tab[k]? = some kv) (hs : kv.isScalar = true) : rank KV.isScalar tab k / 8 < st.flags.length := by
  have := rank_lt_count hk hs
  rw [h.flags]; omega

/-- `st'` differs from `st` only in key `k`, which now is `w`. -/
structure Upd (tab : Table) (st st' : State) (k : Nat) (w : View) : Prop where
  sized : Sized tab st'
  view : ∀ k', view tab st' k' = if k' = k then some w else view tab st k'

theorem upd_num {tab : Table} {st : State} (h : Sized tab st) {k : Nat} {kv : KV}
    (hk : tab[k]? = some kv) (hn : kv.type = .unsigned ∨ kv.type = .signed) (v : BitVec 32) {fl : List (BitVec 8)}
    {f : Bool} (hl : fl.length = st.flags.length)
    (hf : ∀ i, i / 8 < st.flags.length →
      readFlag { st with values := st.values.set (rank KV.isScalar tab k) v, flags := fl } i =
        if i = rank KV.isScalar tab k then some f else readFlag st i) :
    Upd tab st { st with values := st.values.set (rank KV.isScalar tab k) v, flags := fl } k (.num v f) := by
  have hsc : kv.isScalar = true := by rcases hn with hn | hn <;> simp [KV.isScalar, hn]
  have hr := rank_lt_count hk hsc
  refine ⟨⟨by simp [h.values], by simp [hl, h.flags], h.strings, h.timers⟩, fun k' => ?_⟩
  unfold view
  cases hk' : tab[k']? with
  | none =>
    have : k' ≠ k := by rintro rfl; rw [hk] at hk'; cases hk'
    simp [this]
  | some kv' =>
    dsimp only
    by_cases he : k' = k
    · subst he
      obtain rfl : kv = kv' := by rw [hk] at hk'; exact Option.some.inj hk'
      rw [hf _ (h.flag hk hsc)]
      rcases hn with hn | hn <;> simp [hn, h.values, hr]
    · rw [if_neg he]
      have hne : kv'.isScalar = true → rank KV.isScalar tab k ≠ rank KV.isScalar tab k' := by
        intro hs' heq
        exact he (rank_inj hk' hk hs' hsc heq.symm)
      cases ht : kv'.type with
      | string => rfl
      | timer =>
        have hs' : kv'.isScalar = true := by simp [KV.isScalar, ht]
        dsimp only
        rw [List.getElem?_set_ne (hne hs')]
      | unsigned =>
        have hs' : kv'.isScalar = true := by simp [KV.isScalar, ht]
        dsimp only
        rw [List.getElem?_set_ne (hne hs'), hf _ (h.flag hk' hs'), if_neg (Ne.symm (hne hs'))]
      | signed =>
        have hs' : kv'.isScalar = true := by simp [KV.isScalar, ht]
        dsimp only
        rw [List.getElem?_set_ne (hne hs'), hf _ (h.flag hk' hs'), if_neg (Ne.symm (hne hs'))]

theorem upd_timer {tab : Table} {st : State} (h : Sized tab st) {k : Nat} {kv : KV}
    (hk : tab[k]? = some kv) (hn : kv.type = .timer) (v : BitVec 32) (m : Meta)
    {vs : List (BitVec 32)} {ts : List Meta} {fl : List (BitVec 8)}
    (hl : fl.length = st.flags.length) (hvl : vs.length = st.values.length)
    (htl : ts.length = st.timers.length)
    (hv : ∀ i, vs[i]? = if i = rank KV.isScalar tab k then some v else st.values[i]?)
    (ht : ∀ i, ts[i]? = if i = rank KV.isTimer tab k then some m else st.timers[i]?)
    (hf : ∀ i, i / 8 < st.flags.length → i ≠ rank KV.isScalar tab k →
      readFlag { st with values := vs, timers := ts, flags := fl } i = readFlag st i) :
    Upd tab st { st with values := vs, timers := ts, flags := fl } k (.timer v m) := by
  have hsc : kv.isScalar = true := by simp [KV.isScalar, hn]
  have htm : kv.isTimer = true := by simp [KV.isTimer, hn]
  refine ⟨⟨by simp [hvl, h.values], by simp [hl, h.flags], h.strings, by simp [htl, h.timers]⟩, fun k' => ?_⟩
  unfold view
  cases hk' : tab[k']? with
  | none =>
    have : k' ≠ k := by rintro rfl; rw [hk] at hk'; cases hk'
    simp [this]
  | some kv' =>
    dsimp only
    by_cases he : k' = k
    · subst he
      obtain rfl : kv = kv' := by rw [hk] at hk'; exact Option.some.inj hk'
      simp [hn, hv, ht]
    · rw [if_neg he]
      have hne : kv'.isScalar = true → ¬ rank KV.isScalar tab k' = rank KV.isScalar tab k := by
        intro hs' heq
        exact he (rank_inj hk' hk hs' hsc heq)
      cases ht' : kv'.type with
      | string => rfl
      | timer =>
        have hs' : kv'.isScalar = true := by simp [KV.isScalar, ht']
        have hts' : kv'.isTimer = true := by simp [KV.isTimer, ht']
        have hne' : ¬ rank KV.isTimer tab k' = rank KV.isTimer tab k := by
          intro heq
          exact he (rank_inj hk' hk hts' htm heq)
        dsimp only
        rw [hv, if_neg (hne hs'), ht, if_neg hne']
      | unsigned =>
        have hs' : kv'.isScalar = true := by simp [KV.isScalar, ht']
        dsimp only
        rw [hv, if_neg (hne hs'), hf _ (h.flag hk' hs') (hne hs')]
      | signed =>
        have hs' : kv'.isScalar = true := by simp [KV.isScalar, ht']
        dsimp only
        rw [hv, if_neg (hne hs'), hf _ (h.flag hk' hs') (hne hs')]

theorem upd_str {tab : Table} {st : State} (h : Sized tab st) {k : Nat} {kv : KV}
    (hk : tab[k]? = some kv) (hn : kv.type = .string) (buf : Bytes) :
    Upd tab st { st with strings := st.strings.set (rank KV.isString tab k) buf } k (.str buf) := by
  have hst : kv.isString = true := by simp [KV.isString, hn]
  have hr := rank_lt_count hk hst
  refine ⟨⟨h.values, h.flags, by simp [h.strings], h.timers⟩, fun k' => ?_⟩
  unfold view
  cases hk' : tab[k']? with
  | none =>
    have : k' ≠ k := by rintro rfl; rw [hk] at hk'; cases hk'
    simp [this]
  | some kv' =>
    dsimp only
    by_cases he : k' = k
    · subst he
      obtain rfl : kv = kv' := by rw [hk] at hk'; exact Option.some.inj hk'
      simp [hn, h.strings, hr]
    · rw [if_neg he]
      cases ht' : kv'.type with
      | string =>
        have hs' : kv'.isString = true := by simp [KV.isString, ht']
        have hne : rank KV.isString tab k ≠ rank KV.isString tab k' := by
          intro heq
          exact he (rank_inj hk' hk hs' hst heq.symm)
        dsimp only
        rw [List.getElem?_set_ne hne]
      | timer => rfl
      | unsigned => rfl
      | signed => rfl

/-! ## Correspondence to the specification -/

/-- The stored and the specified value of a key. -/
def RelV (kv : KV) : View → Spec.Metrics.Val → Prop
  | .num v f, .int o =>
    ((kv.type = .unsigned ∧ o = if f then some (v.toNat : Int) else none) ∨
      (kv.type = .signed ∧ o = if f then some v.toInt else none)) ∧ (f = false → v = 0)
  | .timer v m, .timer total since =>
    kv.type = .timer ∧ v.toNat = total ∧ m.running = since.isSome ∧
      ∀ t, since = some t → m.start = t % 2 ^ 31
  | .str buf, .text s =>
    kv.type = .string ∧ buf.length = kv.range + 1 ∧ 0 ∉ s ∧ ∃ junk, buf = s ++ 0 :: junk
  | _, _ => False

structure Rel (tab : Table) (st : State) (s : Spec.Metrics.State) : Prop where
  sized : Sized tab st
  vals : ∀ k kv, tab[k]? = some kv → ∃ w, view tab st k = some w ∧ RelV kv w (s k)

theorem Rel.upd {tab : Table} {st st' : State} {s : Spec.Metrics.State} (h : Rel tab st s) {k : Nat}
    {kv : KV} (hk : tab[k]? = some kv) {w : View} {v : Spec.Metrics.Val} (hu : Upd tab st st' k w)
    (hv : RelV kv w v) : Rel tab st' (Spec.Metrics.upd s k v) := by
  refine ⟨hu.sized, fun k' kv' hk' => ?_⟩
  rw [hu.view]
  unfold Spec.Metrics.upd
  by_cases he : k' = k
  · subst he
    obtain rfl : kv = kv' := by rw [hk] at hk'; exact Option.some.inj hk'
    exact ⟨w, by simp, by simpa using hv⟩
  · simpa [he] using h.vals k' kv' hk'

theorem findValue_none {tab : Table} {st : State} {k : Nat} (hk : tab[k]? = none) :
    findValue tab st k = some none := by
  unfold findValue; rw [hk]

theorem findValue_num {tab : Table} {st : State} {k : Nat} {kv : KV} (hk : tab[k]? = some kv)
    (hn : kv.type = .unsigned ∨ kv.type = .signed) {v : BitVec 32} {f : Bool}
    (hv : view tab st k = some (.num v f)) :
    findValue tab st k = some (some ⟨kv.type, .value (rank KV.isScalar tab k), none, f⟩) ∧
      st.values[rank KV.isScalar tab k]? = some v ∧ readFlag st (rank KV.isScalar tab k) = some f := by
  have hsc : kv.isScalar = true := by rcases hn with hn | hn <;> simp [KV.isScalar, hn]
  have htm : kv.isTimer = false := by rcases hn with hn | hn <;> simp [KV.isTimer, hn]
  have hns : kv.type ≠ .string := by rcases hn with hn | hn <;> simp [hn]
  unfold view at hv
  rw [hk] at hv
  have hv' : (st.values[rank KV.isScalar tab k]?.bind fun v =>
      (readFlag st (rank KV.isScalar tab k)).map fun f => View.num v f) = some (.num v f) := by
    rcases hn with hn | hn <;> simpa [hn] using hv
  obtain ⟨v', h1, h2⟩ := Option.bind_eq_some_iff.mp hv'
  obtain ⟨f', h3, h4⟩ := Option.map_eq_some_iff.mp h2
  obtain ⟨rfl, rfl⟩ : v' = v ∧ f' = f := by simpa using h4
  refine ⟨?_, h1, h3⟩
  unfold findValue
  rw [hk]
  simp [valueIndex, stringIndex, findTimer, hk, hsc, htm, hns, hn, h3]

theorem findValue_timer {tab : Table} {st : State} {k : Nat} {kv : KV} (hk : tab[k]? = some kv)
    (hn : kv.type = .timer) {v : BitVec 32} {m : Meta} (hv : view tab st k = some (.timer v m)) :
    findValue tab st k = some (some ⟨.timer, .value (rank KV.isScalar tab k),
      some (rank KV.isTimer tab k), false⟩) ∧
      st.values[rank KV.isScalar tab k]? = some v ∧ st.timers[rank KV.isTimer tab k]? = some m := by
  have hsc : kv.isScalar = true := by simp [KV.isScalar, hn]
  have htm : kv.isTimer = true := by simp [KV.isTimer, hn]
  unfold view at hv
  rw [hk] at hv
  have hv' : (st.values[rank KV.isScalar tab k]?.bind fun v =>
      st.timers[rank KV.isTimer tab k]?.map fun m => View.timer v m) = some (.timer v m) := by
    simpa [hn] using hv
  obtain ⟨v', h1, h2⟩ := Option.bind_eq_some_iff.mp hv'
  obtain ⟨f', h3, h4⟩ := Option.map_eq_some_iff.mp h2
  obtain ⟨rfl, rfl⟩ : v' = v ∧ f' = m := by simpa using h4
  refine ⟨?_, h1, h3⟩
  unfold findValue
  rw [hk]
  simp [valueIndex, stringIndex, findTimer, hk, hsc, htm, hn]

theorem findValue_str {tab : Table} {st : State} {k : Nat} {kv : KV} (hk : tab[k]? = some kv)
    (hn : kv.type = .string) {buf : Bytes} (hv : view tab st k = some (.str buf)) :
    findValue tab st k = some (some ⟨.string, .string (rank KV.isString tab k), none, false⟩) ∧
      st.strings[rank KV.isString tab k]? = some buf := by
  have hst : kv.isString = true := by simp [KV.isString, hn]
  have hsc : kv.isScalar = false := by simp [KV.isScalar, hn]
  have htm : kv.isTimer = false := by simp [KV.isTimer, hn]
  unfold view at hv
  rw [hk] at hv
  have hv' : (st.strings[rank KV.isString tab k]?.map View.str) = some (.str buf) := by
    simpa [hn] using hv
  obtain ⟨f', h3, h4⟩ := Option.map_eq_some_iff.mp hv'
  obtain rfl : f' = buf := by simpa using h4
  refine ⟨?_, h3⟩
  unfold findValue
  rw [hk]
  simp [valueIndex, stringIndex, findTimer, hk, hst, htm, hn]

/-- What is known about a key, by type. -/
theorem Rel.cases {tab : Table} {st : State} {s : Spec.Metrics.State} (h : Rel tab st s) {k : Nat}
    {kv : KV} (hk : tab[k]? = some kv) :
    ((kv.type = .unsigned ∨ kv.type = .signed) ∧ ∃ v f o, view tab st k = some (.num v f) ∧
      s k = .int o ∧ RelV kv (.num v f) (.int o)) ∨
    (kv.type = .timer ∧ ∃ v m total since, view tab st k = some (.timer v m) ∧
      s k = .timer total since ∧ RelV kv (.timer v m) (.timer total since)) ∨
    (kv.type = .string ∧ ∃ buf t, view tab st k = some (.str buf) ∧
      s k = .text t ∧ RelV kv (.str buf) (.text t)) := by
  obtain ⟨w, h1, h2⟩ := h.vals k kv hk
  cases hs : s k with
  | int o =>
    rw [hs] at h2
    cases w with
    | num v f =>
      refine .inl ⟨?_, v, f, o, h1, rfl, h2⟩
      rcases h2.1 with h2 | h2
      · exact .inl h2.1
      · exact .inr h2.1
    | timer v m => exact h2.elim
    | str buf => exact h2.elim
  | timer total since =>
    rw [hs] at h2
    cases w with
    | num v f => exact h2.elim
    | timer v m => exact .inr (.inl ⟨h2.1, v, m, total, since, h1, rfl, h2⟩)
    | str buf => exact h2.elim
  | text t =>
    rw [hs] at h2
    cases w with
    | num v f => exact h2.elim
    | timer v m => exact h2.elim
    | str buf => exact .inr (.inr ⟨h2.1, buf, t, h1, rfl, h2⟩)

/-- Writing a number and setting its flag. -/
theorem write_num {tab : Table} {st : State} {s : Spec.Metrics.State} (h : Rel tab st s) {k : Nat}
    {kv : KV} (hk : tab[k]? = some kv) (hn : kv.type = .unsigned ∨ kv.type = .signed) (v : BitVec 32) :
    ∃ st', ((writeLoc st (.value (rank KV.isScalar tab k)) v).bind fun st =>
        (valueIndex tab k).bind fun i => (setFlag st i).map fun st => ((0 : Int), st)) = some (0, st') ∧
      Rel tab st' (Spec.Metrics.upd s k
        (.int (some (if kv.type = .unsigned then (v.toNat : Int) else v.toInt)))) := by
  have hsc : kv.isScalar = true := by rcases hn with hn | hn <;> simp [KV.isScalar, hn]
  have hr := rank_lt_count hk hsc
  have hl : rank KV.isScalar tab k < st.values.length := by rw [h.sized.values]; exact hr
  obtain ⟨fl, f1, f2, f3⟩ := setFlag_some
    (st := { st with values := st.values.set (rank KV.isScalar tab k) v })
    (j := rank KV.isScalar tab k) (h.sized.flag hk hsc)
  refine ⟨{ st with values := st.values.set (rank KV.isScalar tab k) v, flags := fl }, ?_, ?_⟩
  · simp only [writeLoc, if_pos hl, Option.bind_some, valueIndex, hk, Option.map_some, hsc, if_true, f1]
  · refine h.upd hk (upd_num h.sized hk hn v (f := true) f2 f3) ⟨?_, by simp⟩
    rcases hn with hn | hn
    · exact .inl ⟨hn, by simp [hn]⟩
    · exact .inr ⟨hn, by simp [hn]⟩

/-- Where a timer is. -/
def timerInfo (tab : Table) (k : Nat) : Info :=
  ⟨.timer, .value (rank KV.isScalar tab k), some (rank KV.isTimer tab k), false⟩

theorem get_set {α} {l : List α} {j : Nat} (h : j < l.length) (a : α) (i : Nat) :
    (l.set j a)[i]? = if i = j then some a else l[i]? := by
  rw [List.getElem?_set]
  by_cases hij : i = j
  · subst hij; simp [h]
  · simp [hij, Ne.symm hij]

theorem set_timer {tab : Table} {st : State} {s : Spec.Metrics.State} (h : Rel tab st s) {k : Nat}
    {kv : KV} (hk : tab[k]? = some kv) (hn : kv.type = .timer) (v : BitVec 32) (m : Meta)
    (total : Nat) (since : Option Nat) (hv : v.toNat = total) (hm : m.running = since.isSome)
    (hst : ∀ t, since = some t → m.start = t % 2 ^ 31) :
    Rel tab { st with values := st.values.set (rank KV.isScalar tab k) v
                      timers := st.timers.set (rank KV.isTimer tab k) m }
      (Spec.Metrics.upd s k (.timer total since)) := by
  have hsc : kv.isScalar = true := by simp [KV.isScalar, hn]
  have htm : kv.isTimer = true := by simp [KV.isTimer, hn]
  refine h.upd hk (upd_timer h.sized hk hn v m (fl := st.flags) rfl (by simp) (by simp)
    (get_set (by rw [h.sized.values]; exact rank_lt_count hk hsc) v)
    (get_set (by rw [h.sized.timers]; have := rank_lt_count hk htm; omega) m)
    (fun i _ _ => rfl)) ⟨hn, hv, hm, hst⟩

theorem timer_start {tab : Table} {st : State} {s : Spec.Metrics.State} (h : Rel tab st s) {k : Nat}
    {kv : KV} (hk : tab[k]? = some kv) (hn : kv.type = .timer) {total : Nat} (hs : s k = .timer total none)
    (now : Nat) :
    ∃ st', updateTimer st (timerInfo tab k) .start now = some (true, st') ∧
      Rel tab st' (Spec.Metrics.upd s k (.timer total (some now))) := by
  rcases h.cases hk with ⟨hn', -⟩ | ⟨-, v, m, total', since', h1, h2, h3⟩ | ⟨hn', -⟩
  · rw [hn] at hn'; simp at hn'
  · obtain ⟨rfl, rfl⟩ : total' = total ∧ since' = none := by rw [hs] at h2; simpa using h2.symm
    obtain ⟨-, f1, f2⟩ := findValue_timer hk hn h1
    have hrun : m.running = false := by simpa using h3.2.2.1
    refine ⟨{ st with timers := st.timers.set (rank KV.isTimer tab k) ⟨true, now % 2 ^ 31⟩ }, ?_, ?_⟩
    · simp [updateTimer, timerInfo, f2, hrun]
    · have := set_timer h hk hn v ⟨true, now % 2 ^ 31⟩ total' (some now) h3.2.1 rfl
        (fun t ht => by cases ht; rfl)
      rwa [show st.values.set (rank KV.isScalar tab k) v = st.values from ?_] at this
      have hl := List.getElem?_eq_some_iff.mp f1
      rw [← hl.2]; exact List.set_getElem_self _
  · rw [hn] at hn'; simp at hn'

theorem timer_idle {tab : Table} {st : State} {s : Spec.Metrics.State} (h : Rel tab st s) {k : Nat}
    {kv : KV} (hk : tab[k]? = some kv) (hn : kv.type = .timer) {total : Nat} {since : Option Nat}
    (hs : s k = .timer total since) (op : TimerOp) (hop : (op = .start) = since.isSome)
    (now : Nat) : updateTimer st (timerInfo tab k) op now = some (false, st) := by
  rcases h.cases hk with ⟨hn', -⟩ | ⟨-, v, m, total', since', h1, h2, h3⟩ | ⟨hn', -⟩
  · rw [hn] at hn'; simp at hn'
  · obtain ⟨rfl, rfl⟩ : total' = total ∧ since' = since := by rw [hs] at h2; simpa [eq_comm] using h2
    obtain ⟨-, f1, f2⟩ := findValue_timer hk hn h1
    have hrun : m.running = since'.isSome := h3.2.2.1
    cases since' with
    | none =>
      have hop' : op ≠ .start := by simpa using hop
      simp [updateTimer, timerInfo, f2, hrun, hop']
    | some t =>
      have hop' : op = .start := by simpa using hop
      simp [updateTimer, timerInfo, f2, hrun, hop']
  · rw [hn] at hn'; simp at hn'

theorem timer_tick {tab : Table} {st : State} {s : Spec.Metrics.State} (h : Rel tab st s) {k : Nat}
    {kv : KV} (hk : tab[k]? = some kv) (hn : kv.type = .timer) {total since now total' : Nat}
    (hs : s k = .timer total (some since)) (ht : Spec.Metrics.tick total since now = some total')
    (op : TimerOp) (hop : op ≠ .start) :
    ∃ st', updateTimer st (timerInfo tab k) op now = some (true, st') ∧
      Rel tab st' (Spec.Metrics.upd s k (.timer total' (if op = .stop then none else some now))) := by
  rcases h.cases hk with ⟨hn', -⟩ | ⟨-, v, m, total1, since1, h1, h2, h3⟩ | ⟨hn', -⟩
  · rw [hn] at hn'; simp at hn'
  · obtain ⟨rfl, rfl⟩ : total1 = total ∧ since1 = some since := by rw [hs] at h2; simpa [eq_comm] using h2
    obtain ⟨-, f1, f2⟩ := findValue_timer hk hn h1
    have hrun : m.running = true := h3.2.2.1
    have hstart : m.start = since % 2 ^ 31 := h3.2.2.2 since rfl
    have hv := h3.2.1
    unfold Spec.Metrics.tick at ht
    split at ht
    · rename_i hc
      obtain rfl : total1 + (now - since) = total' := by simpa using ht
      have hd : (if now % 2 ^ 31 ≥ m.start then now % 2 ^ 31 - m.start
          else 0x80000000 - m.start + now % 2 ^ 31) = now - since := by
        rw [hstart]; split <;> omega
      have hl : rank KV.isScalar tab k < st.values.length := (List.getElem?_eq_some_iff.mp f1).1
      refine ⟨{ st with
        values := st.values.set (rank KV.isScalar tab k) (v + BitVec.ofNat 32 (now - since))
        timers := st.timers.set (rank KV.isTimer tab k)
          (if op = .stop then ⟨false, 0⟩ else ⟨true, now % 2 ^ 31⟩) }, ?_, ?_⟩
      · have hop' : (op == TimerOp.start) = false := by simpa using hop
        simp only [updateTimer, timerInfo, f2, hrun, hop', Option.bind_some, Bool.not_true,
          Bool.false_and, Bool.false_eq_true, if_false, bne, Bool.not_false, Bool.and_self, if_true,
          readLoc, f1, writeLoc, if_pos hl, Option.map_some, hd]
      · refine set_timer h hk hn _ _ _ _ ?_ ?_ ?_
        · rw [BitVec.toNat_add, BitVec.toNat_ofNat, hv]; omega
        · split <;> rfl
        · intro t ht
          by_cases hst : op = .stop
          · simp [hst] at ht
          · rw [if_neg hst] at ht ⊢
            cases ht; rfl
    · cases ht
  · rw [hn] at hn'; simp at hn'

/-! ## Strings -/

theorem takeWhile_cstr {s junk : Bytes} (h : 0 ∉ s) :
    (s ++ 0 :: junk).takeWhile (fun b => b ≠ 0) = s := by
  induction s with
  | nil => simp
  | cons a s ih =>
    simp only [List.mem_cons, not_or] at h
    rw [List.cons_append, List.takeWhile_cons]
    have : (decide (a ≠ 0)) = true := by simpa using Ne.symm h.1
    rw [this, if_pos rfl, ih h.2]

theorem cstring_eq {s junk : Bytes} (h : 0 ∉ s) : cstring (s ++ 0 :: junk) = some s := by
  unfold cstring
  rw [if_pos (by simp), takeWhile_cstr h]

theorem set_str {tab : Table} {st : State} {s : Spec.Metrics.State} (h : Rel tab st s) {k : Nat}
    {kv : KV} (hk : tab[k]? = some kv) (hn : kv.type = .string) {buf t : Bytes}
    (hl : buf.length = kv.range + 1) (hz : 0 ∉ t) (hb : ∃ junk, buf = t ++ 0 :: junk) :
    Rel tab { st with strings := st.strings.set (rank KV.isString tab k) buf }
      (Spec.Metrics.upd s k (.text t)) :=
  h.upd hk (upd_str h.sized hk hn buf) ⟨hn, hl, hz, hb⟩

theorem setString_rel {tab : Table} {st : State} {s : Spec.Metrics.State} (h : Rel tab st s) {k : Nat}
    {kv : KV} (hk : tab[k]? = some kv) (hn : kv.type = .string) {t : Bytes} (hz : 0 ∉ t) :
    ∃ st', setString tab st k t = some (0, st') ∧
      Rel tab st' (Spec.Metrics.upd s k (.text (t.take kv.range))) := by
  rcases h.cases hk with ⟨hn', -⟩ | ⟨hn', -⟩ | ⟨-, buf, t', h1, h2, h3⟩
  · rw [hn] at hn'; simp at hn'
  · rw [hn] at hn'; cases hn'
  · obtain ⟨f1, f2⟩ := findValue_str hk hn h1
    have hlen : min t.length kv.range < buf.length := by rw [h3.2.1]; omega
    have htk : t.take (min t.length kv.range) = t.take kv.range := by
      rw [List.take_eq_take_iff]; omega
    refine ⟨_, ?_, set_str h hk hn (buf := t.take kv.range ++ 0 :: buf.drop (min t.length kv.range + 1))
      ?_ (fun hm => hz (List.mem_of_mem_take hm)) ⟨_, rfl⟩⟩
    · unfold setString
      rw [f1, hk]
      simp only [Option.bind_some, f2, if_pos hlen, htk]
    · have := h3.2.1
      simp; omega

/-! ## Loops over the keys -/

/-- A loop whose body changes key `k` according to `g k`. -/
theorem forKeys_rel {tab : Table} {f : State → Nat → Option State}
    (g : Nat → Spec.Metrics.Val → Spec.Metrics.Val) :
    ∀ (ks : List Nat) (st : State) (s : Spec.Metrics.State), Rel tab st s → ks.Nodup →
      (∀ k ∈ ks, ∀ st1 s1, Rel tab st1 s1 → s1 k = s k →
        ∃ st2, f st1 k = some st2 ∧ Rel tab st2 (Spec.Metrics.upd s1 k (g k (s1 k)))) →
      ∃ st', forKeys f st ks = some st' ∧ Rel tab st' (fun k => if k ∈ ks then g k (s k) else s k) := by
  intro ks
  induction ks with
  | nil => intro st s h _ _; exact ⟨st, rfl, by simpa using h⟩
  | cons k ks ih =>
    intro st s h hn hf
    obtain ⟨hk, hn'⟩ := List.nodup_cons.mp hn
    obtain ⟨st2, a1, a2⟩ := hf k (by simp) st s h rfl
    obtain ⟨st3, b1, b2⟩ := ih st2 _ a2 hn' (fun k' hk' st1 s1 hr he => hf k' (by simp [hk']) st1 s1 hr (by
      rw [he]
      unfold Spec.Metrics.upd
      rw [if_neg]; rintro rfl; exact hk hk'))
    refine ⟨st3, by rw [forKeys, a1]; exact b1, ?_⟩
    convert b2 using 2 with k'
    by_cases hkk : k' = k
    · subst hkk
      simp [hk, Spec.Metrics.upd]
    · by_cases hm : k' ∈ ks
      · simp [hm, Spec.Metrics.upd, hkk]
      · simp [hm, Spec.Metrics.upd, hkk]

theorem Rel.congr {tab : Table} {st : State} {s s' : Spec.Metrics.State} (h : Rel tab st s)
    (he : ∀ k, k < tab.length → s' k = s k) : Rel tab st s' :=
  ⟨h.sized, fun k kv hk => by rw [he k (List.getElem?_eq_some_iff.mp hk).1]; exact h.vals k kv hk⟩

theorem Rel.self {tab : Table} {st : State} {s : Spec.Metrics.State} (h : Rel tab st s) (k : Nat) :
    Rel tab st (Spec.Metrics.upd s k (s k)) :=
  h.congr fun k' _ => by unfold Spec.Metrics.upd; split <;> simp_all

theorem timersUpdate_rel {tab : Table} {st : State} {s : Spec.Metrics.State} (h : Rel tab st s)
    (times : Nat → Nat)
    (ht : ∀ k, k < tab.length → (Spec.Metrics.ticked (s k) (times k)).isSome) :
    ∃ st', timersUpdate tab st times = some st' ∧ Rel tab st' (fun k => if k < tab.length then
      (Spec.Metrics.ticked (s k) (times k)).getD (s k) else s k) := by
  unfold timersUpdate
  obtain ⟨st', a, b⟩ := forKeys_rel (f := fun st k => tallyStep tab st k (times k))
    (fun k v => (Spec.Metrics.ticked v (times k)).getD v) (List.range tab.length) st s h
    List.nodup_range (by
      intro k hk st1 s1 hr he
      have hkl : k < tab.length := List.mem_range.mp hk
      have htk := ht k hkl
      rw [← he] at htk
      have hkv : tab[k]? = some tab[k] := List.getElem?_eq_getElem hkl
      rcases hr.cases hkv with ⟨hn, v, f, o, h1, h2, h3⟩ | ⟨hn, v, m, total, since, h1, h2, h3⟩ |
        ⟨hn, buf, t, h1, h2, h3⟩
      · have f1 := (findValue_num hkv hn h1).1
        refine ⟨st1, ?_, ?_⟩
        · unfold tallyStep
          rw [f1]
          rcases hn with hn | hn <;> simp [hn]
        · rw [h2]; simp only [Spec.Metrics.ticked, Option.getD_some]; rw [← h2]; exact hr.self k
      · have f1 := (findValue_timer hkv hn h1).1
        have hu : tallyStep tab st1 k (times k) =
            (updateTimer st1 (timerInfo tab k) .force (times k)).map fun r => r.2 := by
          unfold tallyStep
          rw [f1]
          simp [timerInfo]
        simp only [hu]
        cases since with
        | none =>
          rw [timer_idle hr hkv hn h2 .force (by simp) (times k)]
          refine ⟨st1, rfl, ?_⟩
          rw [h2]; simp only [Spec.Metrics.ticked, Option.getD_some]; rw [← h2]; exact hr.self k
        | some t =>
          rw [h2] at htk ⊢
          simp only [Spec.Metrics.ticked, Option.isSome_map] at htk ⊢
          obtain ⟨t', ht'⟩ := Option.isSome_iff_exists.mp htk
          obtain ⟨st2, c1, c2⟩ := timer_tick hr hkv hn h2 ht' .force (by simp)
          rw [c1, ht']
          exact ⟨st2, rfl, by simpa using c2⟩
      · have f1 := (findValue_str hkv hn h1).1
        refine ⟨st1, ?_, ?_⟩
        · unfold tallyStep
          rw [f1]
          simp
        · rw [h2]; simp only [Spec.Metrics.ticked, Option.getD_some]; rw [← h2]; exact hr.self k)
  exact ⟨st', a, b.congr fun k hk => by simp⟩

/-! ## Clearing -/

theorem RelV.cleared_num {kv : KV} {v : BitVec 32} {f : Bool} {o : Option Int}
    (h : RelV kv (.num v f) (.int o)) : RelV kv (.num 0 false) (.int none) := by
  refine ⟨?_, fun _ => rfl⟩
  rcases h.1 with h | h
  · exact .inl ⟨h.1, rfl⟩
  · exact .inr ⟨h.1, rfl⟩

theorem emptyString_rel {kv : KV} {buf t : Bytes} (h : RelV kv (.str buf) (.text t)) :
    RelV kv (.str (emptyString buf)) (.text []) := by
  obtain ⟨h1, h2, -, -⟩ := h
  refine ⟨h1, by simpa [emptyString] using h2, by simp, ?_⟩
  cases buf with
  | nil => simp at h2
  | cons a b => exact ⟨b, rfl⟩

theorem resetStep_rel {tab : Table} {session : Nat} {st : State} {s : Spec.Metrics.State}
    (h : Rel tab st s) {k : Nat} {kv : KV} (hk : tab[k]? = some kv) :
    ∃ st', resetStep tab session st k = some st' ∧ Rel tab st' (Spec.Metrics.upd s k
      (if kv.session = session then Spec.Metrics.cleared (s k) else s k)) := by
  unfold resetStep
  rw [hk]
  dsimp only
  by_cases hs : kv.session = session
  · rw [if_neg (not_not_intro hs), if_pos hs]
    rcases h.cases hk with ⟨hn, v, f, o, h1, h2, h3⟩ | ⟨hn, v, m, total, since, h1, h2, h3⟩ |
        ⟨hn, buf, t, h1, h2, h3⟩
    · have hsc : kv.isScalar = true := by rcases hn with hn | hn <;> simp [KV.isScalar, hn]
      have hns : kv.type ≠ .string := by rcases hn with hn | hn <;> simp [hn]
      have hl : rank KV.isScalar tab k < st.values.length := by
        rw [h.sized.values]; exact rank_lt_count hk hsc
      obtain ⟨fl, f1, f2, f3⟩ := clearFlag_some
        (st := { st with values := st.values.set (rank KV.isScalar tab k) 0 })
        (j := rank KV.isScalar tab k) (h.sized.flag hk hsc)
      refine ⟨{ st with values := st.values.set (rank KV.isScalar tab k) 0, flags := fl }, ?_, ?_⟩
      · rw [if_neg hns]
        simp only [valueIndex, hk, Option.map_some, hsc, if_true, Option.bind_some, writeLoc, if_pos hl]
        exact f1
      · rw [h2]
        exact h.upd hk (upd_num h.sized hk hn 0 (f := false) f2 f3) h3.cleared_num
    · have hsc : kv.isScalar = true := by simp [KV.isScalar, hn]
      have htm : kv.isTimer = true := by simp [KV.isTimer, hn]
      have hl : rank KV.isScalar tab k < st.values.length := by
        rw [h.sized.values]; exact rank_lt_count hk hsc
      obtain ⟨-, g1, g2⟩ := findValue_timer hk hn h1
      obtain ⟨fl, f1, f2, f3⟩ := clearFlag_some
        (st := { st with values := st.values.set (rank KV.isScalar tab k) 0 })
        (j := rank KV.isScalar tab k) (h.sized.flag hk hsc)
      refine ⟨{ st with values := st.values.set (rank KV.isScalar tab k) 0, flags := fl }, ?_, ?_⟩
      · rw [if_neg (by simp [hn])]
        simp only [valueIndex, hk, Option.map_some, hsc, if_true, Option.bind_some, writeLoc, if_pos hl]
        exact f1
      · rw [h2]
        refine h.upd hk (upd_timer h.sized hk hn 0 m f2 (by simp) rfl (get_set hl 0) (fun i => ?_)
          (fun i hi hne => ?_)) ⟨hn, rfl, h3.2.2⟩
        · split
          · rename_i he; rw [he, g2]
          · rfl
        · have := f3 i hi
          rw [if_neg hne] at this
          exact this
    · have hst : kv.isString = true := by simp [KV.isString, hn]
      obtain ⟨-, g⟩ := findValue_str hk hn h1
      refine ⟨_, ?_, h.upd hk (upd_str h.sized hk hn (emptyString buf)) ?_⟩
      · rw [if_pos hn]
        simp only [stringIndex, hk, Option.map_some, hst, if_true, Option.bind_some, g]
        rw [if_neg (by rw [h3.2.1]; omega)]
      · rw [h2]; exact emptyString_rel h3
  · rw [if_pos hs, if_neg hs]
    exact ⟨st, rfl, h.self k⟩

theorem resetSession_rel {tab : Table} {session : Nat} {st : State} {s : Spec.Metrics.State}
    (h : Rel tab st s) :
    ∃ st', resetSession tab session st = some st' ∧ Rel tab st' (fun k =>
      if (tab[k]?.map KV.session) = some session then Spec.Metrics.cleared (s k) else s k) := by
  unfold resetSession
  obtain ⟨st', a, b⟩ := forKeys_rel (f := resetStep tab session)
    (fun k v => if (tab[k]?.map KV.session) = some session then Spec.Metrics.cleared v else v)
    (List.range tab.length) st s h List.nodup_range (by
      intro k hk st1 s1 hr he
      have hkl : k < tab.length := List.mem_range.mp hk
      have hkv : tab[k]? = some tab[k] := List.getElem?_eq_getElem hkl
      obtain ⟨st2, c1, c2⟩ := resetStep_rel (session := session) hr hkv
      refine ⟨st2, c1, ?_⟩
      rw [hkv]
      simpa using c2)
  exact ⟨st', a, b.congr fun k hk => by simp [hk]⟩

theorem resetAll_rel {tab : Table} {st : State} {s : Spec.Metrics.State} (h : Rel tab st s) :
    Rel tab (resetAll st) (fun k => if k < tab.length then Spec.Metrics.cleared (s k) else s k) := by
  refine ⟨⟨by simp [resetAll, h.sized.values], by simp [resetAll, h.sized.flags],
    by simp [resetAll, h.sized.strings], h.sized.timers⟩, fun k kv hk => ?_⟩
  rw [if_pos (List.getElem?_eq_some_iff.mp hk).1]
  have hfl : ∀ i f, readFlag st i = some f → readFlag (resetAll st) i = some false := by
    intro i f hf
    rw [readFlag_eq] at hf ⊢
    obtain ⟨b, hb, -⟩ := Option.map_eq_some_iff.mp hf
    simp [resetAll, hb]
  rcases h.cases hk with ⟨hn, v, f, o, h1, h2, h3⟩ | ⟨hn, v, m, total, since, h1, h2, h3⟩ |
        ⟨hn, buf, t, h1, h2, h3⟩
  · obtain ⟨-, g1, g2⟩ := findValue_num hk hn h1
    refine ⟨.num 0 false, ?_, by rw [h2]; exact h3.cleared_num⟩
    unfold view
    rw [hk]
    have hv : (resetAll st).values[rank KV.isScalar tab k]? = some 0 := by simp [resetAll, g1]
    rcases hn with hn | hn <;> simp only [hn, hv, hfl _ _ g2, Option.bind_some, Option.map_some]
  · obtain ⟨-, g1, g2⟩ := findValue_timer hk hn h1
    refine ⟨.timer 0 m, ?_, by rw [h2]; exact ⟨hn, rfl, h3.2.2⟩⟩
    unfold view
    rw [hk]
    simp [hn, resetAll, g1, g2]
  · obtain ⟨-, g1⟩ := findValue_str hk hn h1
    refine ⟨.str (emptyString buf), ?_, by rw [h2]; exact emptyString_rel h3⟩
    unfold view
    rw [hk]
    simp [hn, resetAll, g1]

/-! ## Addition -/

theorem clamp_signed (v a : BitVec 32) :
    (addSigned v a).toInt = Spec.Metrics.clamp (-2147483648) 2147483647 (v.toInt + a.toInt) := by
  unfold addSigned Spec.Metrics.clamp
  dsimp only
  by_cases h1 : v.toInt + a.toInt > 2147483647
  · rw [if_pos h1, if_neg (by omega), if_pos (by omega)]; rfl
  · rw [if_neg h1]
    by_cases h2 : v.toInt + a.toInt < -2147483648
    · rw [if_pos h2, if_pos h2]; rfl
    · rw [if_neg h2, if_neg h2, if_neg (by omega), BitVec.toInt_ofInt, Int.bmod_eq_of_le] <;> omega

theorem clamp_unsigned (v a : BitVec 32) :
    ((addUnsigned v a).toNat : Int) = Spec.Metrics.clamp 0 4294967295 (v.toNat + a.toInt) := by
  have hv := v.isLt
  have ha := a.isLt
  have hsum : (v + a).toNat = (v.toNat + a.toNat) % 4294967296 := BitVec.toNat_add v a
  have hi : a.toInt = if a.toNat < 2147483648 then (a.toNat : Int) else (a.toNat : Int) - 4294967296 := by
    rw [BitVec.toInt_eq_toNat_cond]
    split <;> split <;> omega
  unfold addUnsigned Spec.Metrics.clamp
  dsimp only
  have hx : ∀ p q : Prop, [Decidable p] → [Decidable q] → (decide p ^^ decide q) = true → (p ↔ ¬ q) := by
    intro p q _ _ h
    by_cases hp : p <;> by_cases hq : q <;> simp_all
  have hy : ∀ p q : Prop, [Decidable p] → [Decidable q] → ¬ (decide p ^^ decide q) = true → (p ↔ q) := by
    intro p q _ _ h
    by_cases hp : p <;> by_cases hq : q <;> simp_all
  by_cases hb : (decide (a.toInt > 0) ^^ decide ((v + a).toNat > v.toNat)) = true
  · rw [if_pos hb]
    have hb' := hx _ _ hb
    rw [hsum] at hb'
    by_cases hp : a.toInt > 0
    · have := hb'.mp hp
      rw [if_pos (by simpa using hp)]
      have hl : (4294967295#32).toNat = 4294967295 := rfl
      rw [hl, if_neg (by omega)]
      rw [hi] at hp ⊢
      split at hp
      · rename_i hc
        rw [if_pos hc]
        split <;> omega
      · omega
    · have : ¬ ¬ (v.toNat + a.toNat) % 4294967296 > v.toNat := fun hc => hp (hb'.mpr hc)
      rw [if_neg (by simpa using hp)]
      have hl : (0#32).toNat = 0 := rfl
      rw [hl]
      rw [hi] at hp ⊢
      by_cases hc : a.toNat < 2147483648
      · rw [if_pos hc] at hp ⊢; split <;> omega
      · rw [if_neg hc] at hp ⊢; split <;> omega
  · rw [if_neg hb]
    have hb' := hy _ _ hb
    rw [hsum] at hb' ⊢
    by_cases hp : a.toInt > 0
    · have := hb'.mp hp
      rw [hi] at hp ⊢
      by_cases hc : a.toNat < 2147483648
      · rw [if_pos hc] at hp ⊢; rw [if_neg (by omega), if_neg (by omega)]; omega
      · rw [if_neg hc] at hp; omega
    · have : ¬ (v.toNat + a.toNat) % 4294967296 > v.toNat := fun hc => hp (hb'.mpr hc)
      rw [hi] at hp ⊢
      by_cases hc : a.toNat < 2147483648
      · rw [if_pos hc] at hp ⊢; rw [if_neg (by omega), if_neg (by omega)]; omega
      · rw [if_neg hc] at hp ⊢; rw [if_neg (by omega), if_neg (by omega)]; omega

/-! ## Reporting -/

def datumVal : Datum → Props.CborVal
  | .str s => .text s
  | .num .timer v _ => .u32 v
  | .num .signed v isSet => if isSet then .i32 v else .null
  | .num _ v isSet => if isSet then .u32 v else .null

theorem datumVal_calls (d : Datum) : (datumVal d).calls = [datumCall false d] := by
  cases d with
  | str s => rfl
  | num t v f => cases t <;> cases f <;> rfl

theorem datum_rel {tab : Table} {st : State} {s : Spec.Metrics.State} (h : Rel tab st s)
    (hr : ∀ kv ∈ tab, kv.type = .string → kv.range < 2 ^ 31) {k : Nat} (hk : k < tab.length) :
    ∃ d, datum tab st k = some d ∧ (datumVal d).item = (s k).item ∧ (datumVal d).ok := by
  have hkv : tab[k]? = some tab[k] := List.getElem?_eq_getElem hk
  rcases h.cases hkv with ⟨hn, v, f, o, h1, h2, h3⟩ | ⟨hn, v, m, total, since, h1, h2, h3⟩ |
        ⟨hn, buf, t, h1, h2, h3⟩
  · obtain ⟨g0, g1, g2⟩ := findValue_num hkv hn h1
    refine ⟨.num tab[k].type v f, ?_, ?_, ?_⟩
    · unfold datum; rw [g0]; simp [g1]
    · rw [h2]
      rcases h3.1 with ⟨ht, ho⟩ | ⟨ht, ho⟩
      · rw [ht, ho]
        cases f with
        | true => simp [datumVal, Spec.Metrics.Val.item, Props.CborVal.item, Spec.Cbor.Item.int]
        | false => rfl
      · rw [ht, ho]
        cases f <;> rfl
    · rcases hn with hn | hn <;> rw [hn] <;> cases f <;> simp [datumVal, Props.CborVal.ok]
  · obtain ⟨g0, g1, g2⟩ := findValue_timer hkv hn h1
    refine ⟨.num .timer v false, ?_, ?_, ?_⟩
    · unfold datum; rw [g0]; simp [g1]
    · rw [h2, ← h3.2.1]; rfl
    · simp [datumVal, Props.CborVal.ok]
  · obtain ⟨g0, g1⟩ := findValue_str hkv hn h1
    obtain ⟨-, q2, q3, junk, rfl⟩ := h3
    have hrng := hr tab[k] (List.getElem_mem hk) hn
    refine ⟨.str t, ?_, ?_, ?_⟩
    · unfold datum; rw [g0]; simp [g1, cstring_eq q3]
    · rw [h2]; rfl
    · simp only [datumVal, Props.CborVal.ok]
      simp at q2
      exact ⟨by omega, q3⟩

theorem dataOf_rel {tab : Table} {st : State} {s : Spec.Metrics.State} (h : Rel tab st s)
    (hr : ∀ kv ∈ tab, kv.type = .string → kv.range < 2 ^ 31) : ∀ (ks : List Nat), (∀ k ∈ ks, k < tab.length) →
      ∃ ds, dataOf tab st ks = some ds ∧ ds.length = ks.length ∧
        Props.CborVal.items (ds.map datumVal) = ks.map (fun k => (s k).item) ∧
        Props.CborVal.okList (ds.map datumVal) ∧
        Props.CborVal.callsList (ds.map datumVal) = ds.map (datumCall false) := by
  intro ks
  induction ks with
  | nil => intro _; exact ⟨[], rfl, rfl, rfl, trivial, rfl⟩
  | cons k ks ih =>
    intro hk
    obtain ⟨d, a1, a2, a3⟩ := datum_rel h hr (hk k (by simp))
    obtain ⟨ds, b1, b2, b3, b4, b5⟩ := ih fun k hk' => hk k (by simp [hk'])
    refine ⟨d :: ds, by simp [dataOf, a1, b1], by simp [b2], ?_, ?_, ?_⟩
    · simp only [List.map_cons, Props.CborVal.items, a2, b3]
    · simp only [List.map_cons, Props.CborVal.okList]; exact ⟨a3, b4⟩
    · simp only [List.map_cons, Props.CborVal.callsList, b5, datumVal_calls]; rfl

theorem sessionKeys_lt (tab : Table) (session : Nat) : ∀ k ∈ sessionKeys tab session, k < tab.length := by
  intro k hk
  unfold sessionKeys at hk
  exact List.mem_range.mp (List.mem_filter.mp hk).1

theorem keys_session (tab : Table) (k : Nat) :
    ((tab.map keyOf)[k]?.map Spec.Metrics.Key.session) = tab[k]?.map KV.session := by
  rw [List.getElem?_map, Option.map_map]; rfl

/-- The information of a session event. -/
def heartbeatVal (session : Nat) (ds : List Datum) : Props.CborVal :=
  .map [SerializerHelper.val 2, SerializerHelper.val session, SerializerHelper.val 1,
    .array (ds.map datumVal)]

theorem encodeHeartbeat_eq {σ : Type} (dev : SerializerHelper.Device) (time : Option Nat) (session : Nat)
    (worst : Bool) (ds : List Datum) (e : Cbor.Encoder σ) :
    encodeHeartbeat dev time session worst ds e = Cbor.callAll e (SerializerHelper.eventCalls dev 1 time
      ([.dictionaryBegin 2, SerializerHelper.u32 2, SerializerHelper.u32 session, SerializerHelper.u32 1,
        .arrayBegin ds.length] ++ ds.map (datumCall worst))) := by
  unfold encodeHeartbeat heartbeatCalls
  exact SerializerHelper.encodeEvent_eq dev 1 time _ e

theorem collectBytes_eq (ws : List Bytes) (off : Nat) (acc : Bytes) :
    Cbor.feedWrites collectBytes off ws acc = acc ++ ws.flatten := by
  induction ws generalizing off acc with
  | nil => simp [Cbor.feedWrites]
  | cons p ps ih => simp [Cbor.feedWrites, ih, collectBytes]

theorem callAll_collect (cs : List Cbor.Call) :
    (Cbor.callAll (.init collectBytes [] (SerializerHelper.computeSize
      (fun e => Cbor.callAll e cs))) cs) =
      (true, { Cbor.Encoder.init collectBytes (Cbor.emitAll cs) (Cbor.emitAll cs).length with
        encodedSize := (Cbor.emitAll cs).length }) := by
  have hsz : SerializerHelper.computeSize (fun e => Cbor.callAll e cs) = (Cbor.emitAll cs).length := by
    unfold SerializerHelper.computeSize
    dsimp only
    rw [Cbor.callAll_eq_addAll, Cbor.addAll_sizeOnly _ rfl, Cbor.emitAll_eq]
    simp [Cbor.Encoder.initSizeOnly]
  rw [hsz]
  have hne : ∀ p ∈ cs.flatMap Cbor.pieces, p ≠ [] := by
    intro p hp
    obtain ⟨c, -, hc⟩ := List.mem_flatMap.mp hp
    exact Cbor.pieces_ne_nil hc
  obtain ⟨ws, h1, h2, h3, h4, h5⟩ := Cbor.addAll_bounded
    (Cbor.Encoder.init collectBytes [] (Cbor.emitAll cs).length) collectBytes rfl
    (by simp [Cbor.Encoder.init]) (cs.flatMap Cbor.pieces) hne
  rw [Cbor.callAll_eq_addAll]
  have hok := h4.mpr (by rw [← Cbor.emitAll_eq]; simp [Cbor.Encoder.init])
  have hws := h5 hok
  refine Prod.ext hok ?_
  rw [h2, hws, ← Cbor.emitAll_eq, collectBytes_eq, ← Cbor.emitAll_eq]
  simp [Cbor.Encoder.init]

theorem report_rel {dev : SerializerHelper.Device} (hd : Spec.Event.DeviceOk dev) {tab : Table}
    {st : State} {s : Spec.Metrics.State} (h : Rel tab st s) (hr : ∀ kv ∈ tab, kv.type = .string → kv.range < 2 ^ 31)
    (hl : tab.length < 2 ^ 32) {session : Nat} (hs : session < 2 ^ 32) (time : Option Nat) :
    ∃ ds b, dataOf tab st (sessionKeys tab session) = some ds ∧
      b = Cbor.emitAll (SerializerHelper.eventCalls dev 1 time (heartbeatVal session ds).calls) ∧
      (∀ (σ : Type) (e : Cbor.Encoder σ), encodeHeartbeat dev time session false ds e =
        Cbor.callAll e (SerializerHelper.eventCalls dev 1 time (heartbeatVal session ds).calls)) ∧
      reportBytes tab st dev time session = some b ∧
      Spec.Cbor.decode b = some (Spec.Metrics.sessionEvent dev time (tab.map keyOf) s session) := by
  obtain ⟨ds, d1, d2, d3, d4, d5⟩ := dataOf_rel h hr (sessionKeys tab session) (sessionKeys_lt tab session)
  have hlen : (sessionKeys tab session).length ≤ tab.length := by
    unfold sessionKeys
    exact Nat.le_trans (List.length_filter_le _ _) (by simp)
  have hcalls : (heartbeatVal session ds).calls =
      [.dictionaryBegin 2, SerializerHelper.u32 2, SerializerHelper.u32 session, SerializerHelper.u32 1,
        .arrayBegin ds.length] ++ ds.map (datumCall false) := by
    unfold heartbeatVal
    simp [Props.CborVal.calls, Props.CborVal.callsList, d5, SerializerHelper.val, SerializerHelper.u32]
  have hwr : ∀ (σ : Type) (e : Cbor.Encoder σ), encodeHeartbeat dev time session false ds e =
        Cbor.callAll e (SerializerHelper.eventCalls dev 1 time (heartbeatVal session ds).calls) := by
    intro σ e
    rw [encodeHeartbeat_eq, hcalls]
  refine ⟨ds, _, d1, rfl, hwr, ?_, ?_⟩
  · unfold reportBytes
    rw [d1]
    simp only [Option.map_some]
    have he : (encodeHeartbeat dev time session false ds : Cbor.Encoder Unit → _) = fun e => Cbor.callAll e
        (SerializerHelper.eventCalls dev 1 time (heartbeatVal session ds).calls) := by
      funext e; exact hwr _ e
    rw [he, hwr, callAll_collect]
    rfl
  · rw [SerializerHelper.decode_event hd (by decide) time _ ?_]
    · unfold heartbeatVal Spec.Metrics.sessionEvent Spec.Metrics.reported
      simp only [Props.CborVal.item, Props.CborVal.items, d3, SerializerHelper.val_item hs,
        SerializerHelper.val_item (show 2 < 2 ^ 32 by decide),
        SerializerHelper.val_item (show 1 < 2 ^ 32 by decide), List.length_map, keys_session]
      rfl
    · simp only [heartbeatVal, Props.CborVal.ok, Props.CborVal.okList, List.length_map]
      refine ⟨by simp, by simp, ?_⟩
      simp only [SerializerHelper.val, Props.CborVal.ok, true_and, and_true]
      exact ⟨by omega, d4⟩

end Mflt.Metrics
