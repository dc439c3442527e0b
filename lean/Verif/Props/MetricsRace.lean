import Verif.Spec.MetricsRace
import Verif.Lemmas.Metrics

/-! # C102: counters while heartbeats are made -/

namespace Mflt.Props

open Metrics MetricsRace Spec.MetricsRace

/-! ## Shape of the memory -/

private theorem valueIndex_eq {tab : Table} {k : Nat} {kv : KV} (h : tab[k]? = some kv)
    (hs : kv.type ≠ .string) : valueIndex tab k = some (rank KV.isScalar tab k) := by
  unfold valueIndex; rw [h]; simp [KV.isScalar, hs]

private theorem scalar_of {kv : KV} (hs : kv.type ≠ .string) : kv.isScalar = true := by
  simp [KV.isScalar, hs]

private theorem shift3 (i : Nat) : i >>> 3 = i / 8 := by rw [Nat.shiftRight_eq_div_pow]

/-- A numeric key. -/
private def Num (tab : Table) (k : Nat) : Prop :=
  ∃ kv, tab[k]? = some kv ∧ (kv.type = .unsigned ∨ kv.type = .signed)

private def Scalar (tab : Table) (k : Nat) : Prop := ∃ kv, tab[k]? = some kv ∧ kv.type ≠ .string

private theorem Num.scalar {tab : Table} {k : Nat} (h : Num tab k) : Scalar tab k := by
  obtain ⟨kv, h1, h2⟩ := h
  exact ⟨kv, h1, by rcases h2 with h2 | h2 <;> rw [h2] <;> decide⟩

private theorem Scalar.index {tab : Table} {k : Nat} (h : Scalar tab k) :
    valueIndex tab k = some (rank KV.isScalar tab k) := by
  obtain ⟨kv, h1, h2⟩ := h; exact valueIndex_eq h1 h2

private theorem Scalar.lt {tab : Table} {k : Nat} (h : Scalar tab k) :
    rank KV.isScalar tab k < tab.countP KV.isScalar := by
  obtain ⟨kv, h1, h2⟩ := h; exact rank_lt_count h1 (scalar_of h2)

private theorem Scalar.inj {tab : Table} {j k : Nat} (hj : Scalar tab j) (hk : Scalar tab k) (h : j ≠ k) :
    rank KV.isScalar tab j ≠ rank KV.isScalar tab k := by
  obtain ⟨a, h1, h2⟩ := hj
  obtain ⟨b, h3, h4⟩ := hk
  exact fun he => h (rank_inj h1 h3 (scalar_of h2) (scalar_of h4) he)

private structure Fine (tab : Table) (s : Sys) : Prop where
  sized : Sized tab s.mem
  text : ∀ buf ∈ s.mem.strings, (0 : UInt8) ∈ buf
  call : ∀ k pc, s.call = some (k, pc) → Num tab k
  hb1 : ∀ k, s.hb = .loadFlag k → Scalar tab k
  hb2 : ∀ k b, s.hb = .storeFlag k b → Scalar tab k

private theorem init_fine (tab : Table) : Fine tab (Sys.init tab) := by
  refine ⟨⟨by simp [Sys.init, State.init], by simp [Sys.init, State.init], ?_, by simp [Sys.init, State.init]⟩,
    ?_, by simp [Sys.init], by simp [Sys.init], by simp [Sys.init]⟩
  · simp [Sys.init, State.init, List.countP_eq_length_filter]
  · intro buf hb
    simp only [Sys.init, State.init, List.mem_map] at hb
    obtain ⟨kv, -, rfl⟩ := hb
    simp

private theorem flag_some {tab : Table} {st : State} (h : Sized tab st) {k : Nat} (hk : Scalar tab k) :
    ∃ b, st.flags[rank KV.isScalar tab k / 8]? = some b ∧
      readFlag st (rank KV.isScalar tab k) = some (b.getLsbD (rank KV.isScalar tab k % 8)) := by
  obtain ⟨kv, h1, h2⟩ := hk
  have hl := h.flag h1 (scalar_of h2)
  exact ⟨_, List.getElem?_eq_getElem hl, by rw [readFlag_eq, List.getElem?_eq_getElem hl]; rfl⟩

private theorem find_some {tab : Table} {st : State} (h : Sized tab st) {k : Nat} {kv : KV}
    (hk : tab[k]? = some kv) :
    ∃ info, findValue tab st k = some (some info) ∧ info.type = kv.type ∧
      (kv.type = .string → info.loc = .string (rank KV.isString tab k)) ∧
      (kv.type ≠ .string → info.loc = .value (rank KV.isScalar tab k)) ∧
      (kv.type = .unsigned → some info.isSet = readFlag st (rank KV.isScalar tab k)) := by
  unfold findValue
  rw [hk]
  by_cases hs : kv.type = .string
  · simp [valueIndex, stringIndex, hk, hs, KV.isScalar, KV.isString]
  · obtain ⟨b, -, hf⟩ := flag_some h ⟨kv, hk, hs⟩
    dsimp only
    rw [valueIndex_eq hk hs]
    simp only [stringIndex, hk, Option.map_some, Option.bind_eq_bind, Option.bind_some, hf]
    by_cases hn : kv.type = .unsigned ∨ kv.type = .signed
    · simp [hn, hs]
    · simp only [if_neg hn]
      refine ⟨_, rfl, rfl, fun h => absurd h hs, fun _ => by simp [hs], fun hu => absurd (.inl hu) hn⟩

private theorem datum_some {tab : Table} {s : Sys} (h : Fine tab s) {k : Nat} (hk : k < tab.length) :
    ∃ d, datum tab s.mem k = some d := by
  have hkv : tab[k]? = some tab[k] := List.getElem?_eq_getElem hk
  obtain ⟨info, h1, -, h3, h4, -⟩ := find_some h.sized hkv
  unfold datum
  rw [h1]
  simp only [Option.bind_some]
  by_cases hs : tab[k].type = .string
  · rw [h3 hs]
    have hl : rank KV.isString tab k < s.mem.strings.length := by
      rw [h.sized.strings]; exact rank_lt_count hkv (by simp [KV.isString, hs])
    dsimp only
    rw [List.getElem?_eq_getElem hl]
    have h0 := h.text _ (List.getElem_mem hl)
    exact ⟨.str _, by simp [cstring, h0]; rfl⟩
  · rw [h4 hs]
    have hl : rank KV.isScalar tab k < s.mem.values.length := by
      rw [h.sized.values]; exact Scalar.lt ⟨_, hkv, hs⟩
    dsimp only
    rw [List.getElem?_eq_getElem hl]
    exact ⟨_, rfl⟩

private theorem data_some {tab : Table} {s : Sys} (h : Fine tab s) (ks : List Nat)
    (hk : ∀ k ∈ ks, k < tab.length) :
    ∃ ds, dataOf tab s.mem ks = some ds ∧ ∀ (p k : Nat), ks[p]? = some k → ds[p]? = datum tab s.mem k := by
  induction ks with
  | nil => exact ⟨[], rfl, by simp⟩
  | cons k ks ih =>
    obtain ⟨d, h1⟩ := datum_some h (hk k (by simp))
    obtain ⟨ds, h2, h3⟩ := ih fun k hk' => hk k (by simp [hk'])
    refine ⟨d :: ds, by simp [dataOf, h1, h2], fun p j hp => ?_⟩
    cases p with
    | zero => simp at hp ⊢; rw [← hp, h1]
    | succ p => simp at hp ⊢; exact h3 p j hp

private theorem place_key {tab : Table} {k : Nat} {kv : KV} (hk : tab[k]? = some kv) :
    (sessionKeys tab kv.session)[place tab kv.session k]? = some k := by
  have hlt : k < tab.length := (List.getElem?_eq_some_iff.mp hk).1
  have hp : place tab kv.session k =
      ((List.range k).filter fun i => (tab[i]?.map KV.session) == some kv.session).length := by
    unfold place
    rw [List.countP_eq_length_filter]
    have : tab.take k = (List.range k).filterMap fun i => tab[i]? := by
      apply List.ext_getElem?
      intro n
      have hall : ∀ m, m ≤ tab.length → (List.range m).filterMap (fun i => tab[i]?) = tab.take m := by
        intro m
        induction m with
        | zero => simp
        | succ m ih =>
          intro hm
          rw [List.range_succ, List.filterMap_append, ih (by omega)]
          have : tab[m]? = some tab[m] := List.getElem?_eq_getElem (by omega)
          rw [List.filterMap_cons_some this, take_succ_some this, List.filterMap_nil]
      rw [hall k (by omega)]
    rw [this, List.filter_filterMap, List.length_filterMap_eq_countP, ← List.countP_eq_length_filter]
    apply List.countP_congr
    intro x hx
    cases h : tab[x]? with
    | none => simp
    | some y => simp [Option.filter]
  rw [hp]
  unfold sessionKeys
  obtain ⟨m, hm⟩ : ∃ m, tab.length = k + 1 + m := ⟨tab.length - (k + 1), by omega⟩
  rw [hm, List.range_add, List.range_succ, List.filter_append, List.filter_append, List.append_assoc]
  rw [List.getElem?_append_right (Nat.le_refl _), Nat.sub_self]
  simp [hk]

/-! ## Nothing outside of the tables -/

private theorem call_fine {tab : Table} {s : Sys} (h : Fine tab s) {k : Nat} {pc : Pc}
    (hc : s.call = some (k, pc)) :
    ∃ r, callAccess tab s.mem k pc = some r ∧ Sized tab r.2 ∧ r.2.strings = s.mem.strings := by
  have hn := h.call k pc hc
  have hs := hn.scalar
  have hv : rank KV.isScalar tab k < s.mem.values.length := by rw [h.sized.values]; exact hs.lt
  obtain ⟨b, hb, -⟩ := flag_some h.sized hs
  have hl : rank KV.isScalar tab k / 8 < s.mem.flags.length := (List.getElem?_eq_some_iff.mp hb).1
  unfold callAccess
  rw [hs.index]
  simp only [Option.bind_some]
  cases pc with
  | load a =>
    obtain ⟨kv, h1, -⟩ := hn
    simp only [h1, Option.bind_some, List.getElem?_eq_getElem hv, Option.map_some]
    exact ⟨_, rfl, h.sized, rfl⟩
  | store v =>
    simp only [writeLoc, hv, if_true, Option.map_some]
    exact ⟨_, rfl, ⟨by simp [h.sized.values], h.sized.flags, h.sized.strings, h.sized.timers⟩, rfl⟩
  | loadFlag =>
    simp only [shift3, hb, Option.map_some]
    exact ⟨_, rfl, h.sized, rfl⟩
  | storeFlag b' =>
    simp only [shift3, hl, if_true]
    exact ⟨_, rfl, ⟨h.sized.values, by simp [h.sized.flags], h.sized.strings, h.sized.timers⟩, rfl⟩

private theorem hb_fine {tab : Table} {session : Nat} {s : Sys} (h : Fine tab s) :
    ∃ r, hbAccess tab session s.mem s.hb = some r ∧ Fine tab { s with mem := r.2, hb := r.1 } := by
  cases hh : s.hb with
  | idle =>
    refine ⟨_, rfl, ?_⟩
    rw [← hh]; exact h
  | key k =>
    simp only [hbAccess]
    cases hk : tab[k]? with
    | none => exact ⟨_, rfl, h.sized, h.text, h.call, by simp, by simp⟩
    | some kv =>
      dsimp only
      by_cases h1 : kv.session ≠ session
      · rw [if_pos h1]; exact ⟨_, rfl, h.sized, h.text, h.call, by simp, by simp⟩
      · rw [if_neg h1]
        by_cases hs : kv.type = .string
        · rw [if_pos hs]
          have hl : rank KV.isString tab k < s.mem.strings.length := by
            rw [h.sized.strings]; exact rank_lt_count hk (by simp [KV.isString, hs])
          have h0 := h.text _ (List.getElem_mem hl)
          have hne : s.mem.strings[rank KV.isString tab k].length ≠ 0 := by
            intro he; rw [List.length_eq_zero_iff] at he; rw [he] at h0; cases h0
          simp only [stringIndex, hk, Option.map_some, KV.isString, hs, beq_self_eq_true, if_true,
            Option.bind_some]
          rw [List.getElem?_eq_getElem hl]
          simp only [Option.bind_some, if_neg hne]
          refine ⟨_, rfl, ⟨h.sized.values, h.sized.flags, by simp [h.sized.strings], h.sized.timers⟩, ?_,
            h.call, by simp, by simp⟩
          intro buf hb
          rcases List.mem_or_eq_of_mem_set hb with hb | rfl
          · exact h.text _ hb
          · unfold emptyString
            exact List.mem_iff_getElem.mpr ⟨0, by simpa using Nat.pos_of_ne_zero hne, by simp⟩
        · rw [if_neg hs, valueIndex_eq hk hs]
          have hv : rank KV.isScalar tab k < s.mem.values.length := by
            rw [h.sized.values]; exact Scalar.lt ⟨_, hk, hs⟩
          simp only [Option.bind_some, writeLoc, hv, if_true, Option.map_some]
          refine ⟨_, rfl, ⟨by simp [h.sized.values], h.sized.flags, h.sized.strings, h.sized.timers⟩, h.text,
            h.call, ?_, by simp⟩
          intro k' hk'
          cases hk'
          exact ⟨kv, hk, hs⟩
  | loadFlag k =>
    have hs := h.hb1 k hh
    obtain ⟨b, hb, -⟩ := flag_some h.sized hs
    simp only [hbAccess, hs.index, Option.bind_some, shift3, hb, Option.map_some]
    refine ⟨_, rfl, h.sized, h.text, h.call, by simp, ?_⟩
    intro k' b' hk'
    cases hk'
    exact hs
  | storeFlag k b =>
    have hs := h.hb2 k b hh
    obtain ⟨b', hb, -⟩ := flag_some h.sized hs
    have hl : rank KV.isScalar tab k / 8 < s.mem.flags.length := (List.getElem?_eq_some_iff.mp hb).1
    simp only [hbAccess, hs.index, Option.bind_some, shift3, hl, if_true]
    exact ⟨_, rfl, ⟨h.sized.values, by simp [h.sized.flags], h.sized.strings, h.sized.timers⟩, h.text, h.call,
      by simp, by simp⟩

private theorem enter_cases {tab : Table} {st : State} (h : Sized tab st) (k : Nat) (c : Change) :
    ∃ r, enter tab st k c = some r ∧ ∀ pc, r = .inr pc → Num tab k ∧
      ((∃ a, c = .add a ∧ pc = .load a) ∨ ∃ v, (c = .setUnsigned v ∨ c = .setSigned v) ∧ pc = .store v) := by
  unfold enter
  cases hk : tab[k]? with
  | none => rw [findValue_none hk]; exact ⟨_, rfl, by simp⟩
  | some kv =>
    obtain ⟨info, h1, h2, -⟩ := find_some h hk
    rw [h1]
    refine ⟨_, rfl, fun pc hp => ?_⟩
    dsimp only at hp
    cases c with
    | setUnsigned v =>
      by_cases ht : info.type = .unsigned
      · simp [ht] at hp
        exact ⟨⟨kv, hk, .inl (by rw [← h2, ht])⟩, .inr ⟨v, .inl rfl, hp.symm⟩⟩
      · simp [ht] at hp
    | setSigned v =>
      by_cases ht : info.type = .signed
      · simp [ht] at hp
        exact ⟨⟨kv, hk, .inr (by rw [← h2, ht])⟩, .inr ⟨v, .inr rfl, hp.symm⟩⟩
      · simp [ht] at hp
    | add a =>
      by_cases ht : info.type = .signed ∨ info.type = .unsigned
      · simp [ht] at hp
        refine ⟨⟨kv, hk, ?_⟩, .inl ⟨a, rfl, hp.symm⟩⟩
        rw [← h2]; exact ht.symm
      · simp [ht] at hp

private theorem read_some {tab : Table} {s : Sys} (h : Fine tab s) (k : Nat) :
    ∃ r, readValue tab s.mem k .unsigned = some r := by
  unfold readValue findKeyOfType
  cases hk : tab[k]? with
  | none => rw [findValue_none hk]; exact ⟨_, rfl⟩
  | some kv =>
    obtain ⟨info, h1, h2, -, h4, -⟩ := find_some h.sized hk
    rw [h1]
    simp only [Option.map_some, Option.bind_some]
    by_cases ht : info.type ≠ .unsigned
    · rw [if_pos ht]; exact ⟨_, rfl⟩
    · rw [if_neg ht]
      split
      · rename_i heq
        exact ⟨_, rfl⟩
      · rename_i heq
        have hu : kv.type = .unsigned := by rw [← h2]; exact Decidable.not_not.mp ht
        have hs : kv.type ≠ .string := by rw [hu]; decide
        split at heq
        · cases heq
        · cases heq
          rw [h4 hs]
          have hv : rank KV.isScalar tab k < s.mem.values.length := by
            rw [h.sized.values]; exact Scalar.lt ⟨_, hk, hs⟩
          simp [readLoc, hv]

private theorem step_fine {tab : Table} {session : Nat} {s : Sys} (h : Fine tab s) (op : Op) :
    ∃ r, MetricsRace.step tab session s op = some r ∧ Fine tab r.1 := by
  cases op with
  | call k c =>
    simp only [MetricsRace.step]
    cases hc : s.call with
    | some x => exact ⟨_, rfl, h⟩
    | none =>
      dsimp only
      obtain ⟨r, h1, h2⟩ := enter_cases h.sized k c
      rw [h1]
      cases r with
      | inl rv => exact ⟨_, rfl, h⟩
      | inr pc =>
        refine ⟨_, rfl, h.sized, h.text, ?_, h.hb1, h.hb2⟩
        intro k' pc' he
        cases he
        exact (h2 pc rfl).1
  | callStep =>
    simp only [MetricsRace.step]
    cases hc : s.call with
    | none => exact ⟨_, rfl, h⟩
    | some x =>
      obtain ⟨k, pc⟩ := x
      dsimp only
      obtain ⟨⟨o, st⟩, h1, h2, h3⟩ := call_fine h hc
      have ht : ∀ buf ∈ st.strings, (0 : UInt8) ∈ buf := by rw [h3]; exact h.text
      rw [h1]
      cases o with
      | none => exact ⟨_, rfl, h2, ht, by simp, h.hb1, h.hb2⟩
      | some pc' =>
        refine ⟨_, rfl, h2, ht, ?_, h.hb1, h.hb2⟩
        intro k' pc'' he
        cases he
        exact h.call k pc hc
  | read k =>
    simp only [MetricsRace.step]
    cases hc : s.call with
    | some x => exact ⟨_, rfl, h⟩
    | none =>
      obtain ⟨r, h1⟩ := read_some h k
      dsimp only
      rw [h1]
      exact ⟨_, rfl, h⟩
  | report =>
    simp only [MetricsRace.step]
    split
    · obtain ⟨ds, h1, -⟩ := data_some h _ (sessionKeys_lt tab session)
      rw [h1]
      exact ⟨_, rfl, h.sized, h.text, h.call, by simp, by simp⟩
    · exact ⟨_, rfl, h⟩
  | hbStep =>
    simp only [MetricsRace.step]
    obtain ⟨r, h1, h2⟩ := hb_fine (session := session) h
    split
    · exact ⟨_, rfl, h⟩
    · rw [h1]
      exact ⟨_, rfl, h2⟩

private theorem run_fine {tab : Table} {session : Nat} (ops : List Op) :
    ∀ {s : Sys}, Fine tab s → ∃ r, MetricsRace.run tab session s ops = some r ∧ Fine tab r.1 := by
  induction ops with
  | nil => intro s h; exact ⟨_, rfl, h⟩
  | cons op ops ih =>
    intro s h
    obtain ⟨r, h1, h2⟩ := step_fine (session := session) h op
    obtain ⟨q, h3, h4⟩ := ih h2
    refine ⟨(q.1, r.2 ++ q.2), ?_, h4⟩
    simp [MetricsRace.run, h1, h3]

/-! ## One counter -/

/-- The stored value of a key. -/
private def val (tab : Table) (st : State) (k : Nat) : Nat :=
  (st.values[rank KV.isScalar tab k]?.getD 0).toNat

/-- The flag of a key in a byte. -/
private def bitIn (tab : Table) (b : BitVec 8) (k : Nat) : Bool := b.getLsbD (rank KV.isScalar tab k % 8)

private def flag (tab : Table) (st : State) (k : Nat) : Bool :=
  bitIn tab (st.flags[rank KV.isScalar tab k / 8]?.getD 0) k

private theorem reported_value {tab : Table} {s : Sys} (h : Fine tab s) {k : Nat} {kv : KV}
    (hk : tab[k]? = some kv) (hu : kv.type = .unsigned) {ds : List Datum}
    (hd : dataOf tab s.mem (sessionKeys tab kv.session) = some ds) :
    valueAt (place tab kv.session k) ds = if flag tab s.mem k then val tab s.mem k else 0 := by
  obtain ⟨ds', h1, h2⟩ := data_some h _ (sessionKeys_lt tab kv.session)
  rw [hd] at h1
  cases h1
  have hs : kv.type ≠ .string := by rw [hu]; decide
  have hv : rank KV.isScalar tab k < s.mem.values.length := by
    rw [h.sized.values]; exact Scalar.lt ⟨_, hk, hs⟩
  obtain ⟨info, g1, g2, -, g4, g5⟩ := find_some h.sized hk
  obtain ⟨b, f1, f2⟩ := flag_some h.sized ⟨kv, hk, hs⟩
  have hset : info.isSet = flag tab s.mem k := by
    have := g5 hu
    rw [f2] at this
    unfold flag bitIn
    rw [f1]
    exact Option.some.inj this
  unfold valueAt
  rw [h2 _ _ (place_key hk)]
  unfold datum
  rw [g1]
  simp only [Option.bind_some, g4 hs, List.getElem?_eq_getElem hv, Option.map_some]
  rw [hset]
  unfold val
  rw [List.getElem?_eq_getElem hv]
  cases flag tab s.mem k <;> rfl

private theorem val_set {tab : Table} {st : State} (h : Sized tab st) {j k : Nat} (hj : Scalar tab j)
    (hk : Scalar tab k) (v : BitVec 32) (fl : List (BitVec 8)) :
    val tab { st with values := st.values.set (rank KV.isScalar tab j) v, flags := fl } k =
      if j = k then v.toNat else val tab st k := by
  have hv : rank KV.isScalar tab j < st.values.length := by rw [h.values]; exact hj.lt
  unfold val
  dsimp only
  by_cases he : j = k
  · subst he; simp [hv]
  · rw [List.getElem?_set_ne (hj.inj hk he), if_neg he]

private theorem flag_set {tab : Table} {st : State} (h : Sized tab st) {j k : Nat} (hj : Scalar tab j)
    (b : BitVec 8) :
    flag tab { st with flags := st.flags.set (rank KV.isScalar tab j / 8) b } k =
      if rank KV.isScalar tab j / 8 = rank KV.isScalar tab k / 8 then bitIn tab b k else flag tab st k := by
  obtain ⟨b', f1, -⟩ := flag_some h hj
  have hl : rank KV.isScalar tab j / 8 < st.flags.length := (List.getElem?_eq_some_iff.mp f1).1
  unfold flag
  dsimp only
  by_cases he : rank KV.isScalar tab j / 8 = rank KV.isScalar tab k / 8
  · rw [if_pos he, ← he]; simp [hl]
  · rw [List.getElem?_set_ne he, if_neg he]

private theorem add_le {v a : BitVec 32} (ha : a.toNat < 2147483648) :
    v.toNat ≤ (addUnsigned v a).toNat ∧ (addUnsigned v a).toNat ≤ v.toNat + a.toNat ∧
      min (v.toNat + a.toNat) 4294967295 ≤ (addUnsigned v a).toNat := by
  have h := clamp_unsigned v a
  have hi : a.toInt = (a.toNat : Int) := by
    rw [BitVec.toInt_eq_toNat_cond, if_pos (by omega)]
  have hv := v.isLt
  rw [hi] at h
  unfold Spec.Metrics.clamp at h
  rw [Nat.min_def]
  split at h
  · omega
  · split at h <;> split <;> omega

/-! ## At most once -/

/-- The heartbeat has yet to clear the value of `k`. -/
private def Pending (k : Nat) : Hb → Prop
  | .idle => False
  | .key j => j ≤ k
  | .loadFlag j => j < k
  | .storeFlag j _ => j < k

private theorem hb_effect {tab : Table} {s : Sys} (h : Fine tab s) {k : Nat} {kv : KV}
    (hk : tab[k]? = some kv) (hu : kv.type = .unsigned) {r : Hb × State}
    (hr : hbAccess tab kv.session s.mem s.hb = some r) :
    ((Pending k r.1 ↔ Pending k s.hb) ∧ val tab r.2 k = val tab s.mem k) ∨
      (Pending k s.hb ∧ ¬ Pending k r.1 ∧ val tab r.2 k = 0) := by
  have hs : kv.type ≠ .string := by rw [hu]; decide
  have hsk : Scalar tab k := ⟨kv, hk, hs⟩
  have hlt : k < tab.length := (List.getElem?_eq_some_iff.mp hk).1
  cases hh : s.hb with
  | idle =>
    rw [hh] at hr; simp only [hbAccess] at hr
    cases hr
    exact .inl ⟨Iff.rfl, rfl⟩
  | key j =>
    rw [hh] at hr; simp only [hbAccess] at hr
    cases hj : tab[j]? with
    | none =>
      rw [hj] at hr
      cases hr
      have := List.getElem?_eq_none_iff.mp hj
      exact .inl ⟨⟨fun h => (show False from h).elim, fun (h : j ≤ k) => absurd h (by omega)⟩, rfl⟩
    | some kj =>
      rw [hj] at hr
      dsimp only at hr
      by_cases hjk : j = k
      · subst hjk
        obtain rfl : kv = kj := by rw [hk] at hj; exact Option.some.inj hj
        rw [if_neg (by simp), if_neg hs, valueIndex_eq hk hs] at hr
        have hv : rank KV.isScalar tab j < s.mem.values.length := by rw [h.sized.values]; exact hsk.lt
        simp only [Option.bind_some, writeLoc, hv, if_true, Option.map_some] at hr
        cases hr
        refine .inr ⟨Nat.le_refl _, ?_, ?_⟩
        · simp [Pending]
        · exact (val_set h.sized hsk hsk 0 s.mem.flags).trans (by simp)
      · split at hr
        · cases hr
          refine .inl ⟨?_, rfl⟩
          simp only [Pending]; omega
        · split at hr
          · obtain ⟨i, -, hr⟩ := Option.bind_eq_some_iff.mp hr
            obtain ⟨buf, -, hr⟩ := Option.bind_eq_some_iff.mp hr
            split at hr
            · cases hr
            · cases hr
              refine .inl ⟨?_, rfl⟩
              simp only [Pending]; omega
          · rename_i hns
            have hsj : Scalar tab j := ⟨kj, hj, hns⟩
            rw [valueIndex_eq hj hns] at hr
            have hv : rank KV.isScalar tab j < s.mem.values.length := by rw [h.sized.values]; exact hsj.lt
            simp only [Option.bind_some, writeLoc, hv, if_true, Option.map_some] at hr
            cases hr
            refine .inl ⟨?_, ?_⟩
            · simp only [Pending]; omega
            · exact (val_set h.sized hsj hsk 0 s.mem.flags).trans (if_neg hjk)
  | loadFlag j =>
    rw [hh] at hr; simp only [hbAccess] at hr
    obtain ⟨i, -, hr⟩ := Option.bind_eq_some_iff.mp hr
    obtain ⟨b, -, hr⟩ := Option.map_eq_some_iff.mp hr
    cases hr
    exact .inl ⟨Iff.rfl, rfl⟩
  | storeFlag j b =>
    rw [hh] at hr; simp only [hbAccess] at hr
    obtain ⟨i, -, hr⟩ := Option.bind_eq_some_iff.mp hr
    split at hr
    · cases hr
      refine .inl ⟨?_, rfl⟩
      simp only [Pending]; omega
    · cases hr

/-- The value that a key will have when the call is over. -/
private def coming (tab : Table) (s : Sys) (k : Nat) : Nat :=
  match s.call with
  | some (j, .load a) => if j = k then val tab s.mem k + a.toNat else val tab s.mem k
  | some (j, .store v) => if j = k then v.toNat else val tab s.mem k
  | _ => val tab s.mem k

private structure Upper (tab : Table) (k : Nat) (s : Sys) (a r : Nat) : Prop where
  sum : ∃ q, q ≤ val tab s.mem k ∧ (¬ Pending k s.hb → q = 0) ∧ r + coming tab s k ≤ a + q
  load : ∀ x, s.call = some (k, .load x) → x.toNat < 2147483648
  store : ∀ v, s.call = some (k, .store v) → val tab s.mem k ≤ v.toNat

/-- The steps of a call. -/
private theorem call_effect {tab : Table} {s : Sys} (h : Fine tab s) {j : Nat} {pc : Pc}
    (hc : s.call = some (j, pc)) {r : Option Pc × State} (hr : callAccess tab s.mem j pc = some r) :
    (∃ a kv v, tab[j]? = some kv ∧ pc = .load a ∧ r = (some (.store (added kv.type v a)), s.mem) ∧
        v.toNat = val tab s.mem j) ∨
      (∃ v, pc = .store v ∧ r = (some .loadFlag,
        { s.mem with values := s.mem.values.set (rank KV.isScalar tab j) v })) ∨
      (∃ b, pc = .loadFlag ∧ s.mem.flags[rank KV.isScalar tab j / 8]? = some b ∧ r = (some (.storeFlag b), s.mem)) ∨
      (∃ b, pc = .storeFlag b ∧ r = (none, { s.mem with
        flags := s.mem.flags.set (rank KV.isScalar tab j / 8) (b ||| (1#8 <<< (rank KV.isScalar tab j % 8))) })) := by
  have hn := h.call j pc hc
  have hs := hn.scalar
  have hv : rank KV.isScalar tab j < s.mem.values.length := by rw [h.sized.values]; exact hs.lt
  obtain ⟨b, hb, -⟩ := flag_some h.sized hs
  have hl : rank KV.isScalar tab j / 8 < s.mem.flags.length := (List.getElem?_eq_some_iff.mp hb).1
  unfold callAccess at hr
  rw [hs.index] at hr
  simp only [Option.bind_some] at hr
  cases pc with
  | load a =>
    obtain ⟨kv, h1, -⟩ := hn
    simp only [h1, Option.bind_some, List.getElem?_eq_getElem hv, Option.map_some, Option.some.injEq] at hr
    refine .inl ⟨a, kv, _, h1, rfl, hr.symm, ?_⟩
    unfold val
    rw [List.getElem?_eq_getElem hv]; rfl
  | store v =>
    simp only [writeLoc, hv, if_true, Option.map_some, Option.some.injEq] at hr
    exact .inr (.inl ⟨v, rfl, hr.symm⟩)
  | loadFlag =>
    simp only [shift3, hb, Option.map_some, Option.some.injEq] at hr
    exact .inr (.inr (.inl ⟨b, rfl, hb, hr.symm⟩))
  | storeFlag b' =>
    simp only [shift3, hl, if_true, Option.some.injEq] at hr
    exact .inr (.inr (.inr ⟨b', rfl, hr.symm⟩))

private theorem reportedAt_append (p : Nat) (a b : List Ev) :
    reportedAt p (a ++ b) = reportedAt p a + reportedAt p b := by
  induction a with
  | nil => simp [reportedAt]
  | cons e a ih => cases e <;> simp [reportedAt, ih, Nat.add_assoc]

private theorem addedTo_append (k : Nat) (a b : List Ev) : addedTo k (a ++ b) = addedTo k a + addedTo k b := by
  simp [addedTo]

private theorem step_upper {tab : Table} {k : Nat} {kv : KV} (hk : tab[k]? = some kv)
    (hu : kv.type = .unsigned) {s : Sys} (h : Fine tab s) {a r : Nat} (hi : Upper tab k s a r) {op : Op}
    {t : Sys × List Ev} (ht : MetricsRace.step tab kv.session s op = some t) (hc : OnlyCounts k t.2)
    (hd : Undisturbed s.call.isSome t.2) :
    Upper tab k t.1 (a + addedTo k t.2) (r + reportedAt (place tab kv.session k) t.2) := by
  have hs : kv.type ≠ .string := by rw [hu]; decide
  have hsk : Scalar tab k := ⟨kv, hk, hs⟩
  cases op with
  | call j c =>
    simp only [MetricsRace.step] at ht
    cases hcall : s.call with
    | some x => rw [hcall] at ht; cases ht; exact hi
    | none =>
      rw [hcall] at ht
      dsimp only at ht
      obtain ⟨x, h1, h2⟩ := enter_cases h.sized j c
      rw [h1] at ht
      simp only [Option.map_some, Option.some.injEq] at ht
      obtain ⟨q, q1, q2, q3⟩ := hi.sum
      cases x with
      | inl rv =>
        dsimp only at ht
        subst ht
        refine ⟨⟨q, q1, q2, ?_⟩, hi.load, hi.store⟩
        simp only [reportedAt, Nat.add_zero]
        exact Nat.le_trans q3 (by omega)
      | inr pc =>
        dsimp only at ht
        subst ht
        have hco : coming tab s k = val tab s.mem k := by unfold coming; rw [hcall]
        rw [hco] at q3
        obtain ⟨-, h3⟩ := h2 pc rfl
        by_cases hj : j = k
        · subst hj
          obtain ⟨x, rfl, hx⟩ := hc c (by simp)
          rcases h3 with ⟨x', he, rfl⟩ | ⟨v, he, -⟩
          · cases he
            refine ⟨⟨q, q1, q2, ?_⟩, ?_, by simp⟩
            · simp [coming, reportedAt, addedTo, amountOf]; simp only [val] at q3 ⊢; omega
            · intro y hy; cases hy; exact hx
          · rcases he with he | he <;> cases he
        · refine ⟨⟨q, q1, q2, ?_⟩, ?_, ?_⟩
          · have : coming tab { s with call := some (j, pc) } k = val tab s.mem k := by
              unfold coming; cases pc <;> simp [hj]
            rw [this]
            have : reportedAt (place tab kv.session k) [.begun j c] = 0 := rfl
            rw [this]; omega
          · intro y hy; cases hy; exact absurd rfl hj
          · intro y hy; cases hy; exact absurd rfl hj
  | callStep =>
    simp only [MetricsRace.step] at ht
    cases hcall : s.call with
    | none => rw [hcall] at ht; cases ht; exact hi
    | some x =>
      obtain ⟨j, pc⟩ := x
      rw [hcall] at ht
      dsimp only at ht
      obtain ⟨w, h1, -⟩ := call_fine h hcall
      rw [h1] at ht
      simp only [Option.map_some, Option.some.injEq] at ht
      obtain ⟨q, q1, q2, q3⟩ := hi.sum
      have hsj := (h.call j pc hcall).scalar
      rcases call_effect h hcall h1 with ⟨x, kj, v, g1, rfl, rfl, g3⟩ | ⟨v, rfl, rfl⟩ | ⟨b, rfl, -, rfl⟩ | ⟨b, rfl, rfl⟩
      · dsimp only at ht
        subst ht
        unfold coming at q3
        rw [hcall] at q3
        dsimp only at q3
        by_cases hj : j = k
        · subst hj
          obtain rfl : kv = kj := by rw [hk] at g1; exact Option.some.inj g1
          have hx := hi.load x hcall
          have had : added kv.type v x = addUnsigned v x := by simp [added, hu]
          obtain ⟨e1, e2, -⟩ := add_le (v := v) hx
          rw [if_pos rfl] at q3
          refine ⟨⟨q, q1, q2, ?_⟩, by simp, ?_⟩
          · simp only [coming, if_true, addedTo, reportedAt, List.map_nil, List.sum_nil, Nat.add_zero, had]
            omega
          · intro y hy; cases hy
            rw [had]; simp only; omega
        · rw [if_neg hj] at q3
          refine ⟨⟨q, q1, q2, ?_⟩, by simp, ?_⟩
          · simp only [coming, if_neg hj, addedTo, reportedAt, List.map_nil, List.sum_nil, Nat.add_zero]
            exact q3
          · intro y hy; cases hy; exact absurd rfl hj
      · dsimp only at ht
        subst ht
        unfold coming at q3
        rw [hcall] at q3
        dsimp only at q3
        have hval := val_set h.sized hsj hsk v s.mem.flags
        refine ⟨⟨q, ?_, q2, ?_⟩, by simp, by simp⟩
        · refine Nat.le_trans ?_ (Nat.le_of_eq hval.symm)
          split
          · rename_i hj; subst hj
            exact Nat.le_trans q1 (hi.store v hcall)
          · exact q1
        · simp only [coming, addedTo, reportedAt, List.map_nil, List.sum_nil, Nat.add_zero]
          refine Nat.le_trans (Nat.le_of_eq ?_) q3
          exact congrArg (r + ·) hval
      · dsimp only at ht
        subst ht
        unfold coming at q3
        rw [hcall] at q3
        exact ⟨⟨q, q1, q2, q3⟩, by simp, by simp⟩
      · dsimp only at ht
        subst ht
        unfold coming at q3
        rw [hcall] at q3
        exact ⟨⟨q, q1, q2, q3⟩, by simp, by simp⟩
  | read j =>
    simp only [MetricsRace.step] at ht
    cases hcall : s.call with
    | some x => rw [hcall] at ht; cases ht; exact hi
    | none =>
      rw [hcall] at ht
      dsimp only at ht
      obtain ⟨x, -, ht⟩ := Option.map_eq_some_iff.mp ht
      subst ht
      exact hi
  | report =>
    simp only [MetricsRace.step] at ht
    split at ht
    · rename_i hcall hidle
      obtain ⟨ds, h1, ht⟩ := Option.map_eq_some_iff.mp ht
      subst ht
      obtain ⟨q, q1, q2, q3⟩ := hi.sum
      have hq := q2 (by rw [hidle]; simp [Pending])
      have hrep := reported_value h hk hu h1
      unfold coming at q3
      rw [hcall] at q3
      dsimp only at q3
      refine ⟨⟨val tab s.mem k, Nat.le_refl _, fun hp => absurd (Nat.zero_le k) hp, ?_⟩, hi.load, hi.store⟩
      have hco : coming tab { s with hb := .key 0 } k = val tab s.mem k := by unfold coming; rw [hcall]
      rw [hco]
      simp only [reportedAt, addedTo, amountOf, List.map_cons, List.map_nil, List.sum_cons, List.sum_nil, hrep]
      split <;> omega
    · cases ht; exact hi
  | hbStep =>
    simp only [MetricsRace.step] at ht
    split at ht
    · cases ht; exact hi
    · obtain ⟨x, h1, ht⟩ := Option.map_eq_some_iff.mp ht
      subst ht
      have hcall : s.call = none := by
        have := hd.1 rfl
        cases hx : s.call with
        | none => rfl
        | some y => rw [hx] at this; cases this
      have e1 : addedTo k (Ev.clearing :: if x.1 = .idle then [.cleared] else []) = 0 := by
        split <;> rfl
      have e2 : reportedAt (place tab kv.session k) (Ev.clearing :: if x.1 = .idle then [.cleared] else []) = 0 := by
        split <;> rfl
      rw [e1, e2]
      obtain ⟨q, q1, q2, q3⟩ := hi.sum
      have hco : ∀ m hb, coming tab { s with mem := m, hb := hb } k = val tab m k := by
        intro m hb; unfold coming; rw [hcall]
      have hco' : coming tab s k = val tab s.mem k := by unfold coming; rw [hcall]
      rw [hco'] at q3
      rcases hb_effect h hk hu h1 with ⟨p1, p2⟩ | ⟨p1, p2, p3⟩
      · refine ⟨⟨q, ?_, ?_, ?_⟩, hi.load, ?_⟩
        · dsimp only; rw [p2]; exact q1
        · intro hp; exact q2 fun hq => hp (p1.mpr hq)
        · rw [hco, p2]; exact q3
        · intro v hv; rw [hcall] at hv; cases hv
      · refine ⟨⟨0, Nat.zero_le _, fun _ => rfl, ?_⟩, hi.load, ?_⟩
        · rw [hco, p3]; omega
        · intro v hv; rw [hcall] at hv; cases hv

private theorem step_busy {tab : Table} {session : Nat} {s : Sys} {op : Op} {t : Sys × List Ev}
    (ht : MetricsRace.step tab session s op = some t) (evs : List Ev)
    (hd : Undisturbed s.call.isSome (t.2 ++ evs)) :
    Undisturbed s.call.isSome t.2 ∧ Undisturbed t.1.call.isSome evs := by
  cases op with
  | call k c =>
    simp only [MetricsRace.step] at ht
    cases hcall : s.call with
    | some x =>
      rw [hcall] at ht
      cases ht
      rw [hcall] at hd ⊢
      exact ⟨trivial, hd⟩
    | none =>
      rw [hcall] at ht hd
      dsimp only at ht
      obtain ⟨x, -, ht⟩ := Option.map_eq_some_iff.mp ht
      cases x with
      | inl rv => subst ht; simpa [Undisturbed, hcall] using hd
      | inr pc => subst ht; simpa [Undisturbed] using hd
  | callStep =>
    simp only [MetricsRace.step] at ht
    cases hcall : s.call with
    | none =>
      rw [hcall] at ht
      cases ht
      rw [hcall] at hd ⊢
      exact ⟨trivial, hd⟩
    | some x =>
      rw [hcall] at ht hd
      dsimp only at ht
      obtain ⟨x, -, ht⟩ := Option.map_eq_some_iff.mp ht
      split at ht
      · subst ht; simpa [Undisturbed] using hd
      · subst ht; simpa [Undisturbed] using hd
  | read k =>
    simp only [MetricsRace.step] at ht
    cases hcall : s.call with
    | some x =>
      rw [hcall] at ht
      cases ht
      rw [hcall] at hd ⊢
      exact ⟨trivial, hd⟩
    | none =>
      rw [hcall] at ht hd
      dsimp only at ht
      obtain ⟨x, -, ht⟩ := Option.map_eq_some_iff.mp ht
      subst ht; simpa [Undisturbed, hcall] using hd
  | report =>
    simp only [MetricsRace.step] at ht
    split at ht
    · obtain ⟨x, -, ht⟩ := Option.map_eq_some_iff.mp ht
      subst ht; simpa [Undisturbed] using hd
    · cases ht; exact ⟨trivial, hd⟩
  | hbStep =>
    simp only [MetricsRace.step] at ht
    split at ht
    · cases ht; exact ⟨trivial, hd⟩
    · obtain ⟨x, -, ht⟩ := Option.map_eq_some_iff.mp ht
      subst ht
      by_cases hx : x.1 = .idle
      · simpa [Undisturbed, hx, and_assoc] using hd
      · simpa [Undisturbed, hx] using hd

private theorem run_upper {tab : Table} {k : Nat} {kv : KV} (hk : tab[k]? = some kv)
    (hu : kv.type = .unsigned) (ops : List Op) :
    ∀ {s : Sys} {a r : Nat} {t : Sys × List Ev}, Fine tab s → Upper tab k s a r →
      MetricsRace.run tab kv.session s ops = some t → OnlyCounts k t.2 → Undisturbed s.call.isSome t.2 →
      Upper tab k t.1 (a + addedTo k t.2) (r + reportedAt (place tab kv.session k) t.2) := by
  induction ops with
  | nil => intro s a r t _ hi ht _ _; cases ht; exact hi
  | cons op ops ih =>
    intro s a r t h hi ht hc hd
    simp only [MetricsRace.run] at ht
    obtain ⟨u, h1, ht⟩ := Option.bind_eq_some_iff.mp ht
    obtain ⟨w, h2, ht⟩ := Option.map_eq_some_iff.mp ht
    subst ht
    obtain ⟨u', h3, h4⟩ := step_fine (session := kv.session) h op
    rw [h1] at h3
    cases h3
    obtain ⟨d1, d2⟩ := step_busy h1 _ hd
    have hs := step_upper hk hu h hi h1 (fun c hc' => hc c (List.mem_append_left _ hc')) d1
    have := ih h4 hs h2 (fun c hc' => hc c (List.mem_append_right _ hc')) d2
    dsimp only
    rw [addedTo_append, reportedAt_append, ← Nat.add_assoc, ← Nat.add_assoc]
    exact this

/-! ## At least once -/

/-- The value that a key will have at least when the call is over. -/
private def least (tab : Table) (s : Sys) (k : Nat) : Nat :=
  match s.call with
  | some (j, .load a) => if j = k then min (val tab s.mem k + a.toNat) 4294967295 else val tab s.mem k
  | some (j, .store v) => if j = k then v.toNat else val tab s.mem k
  | _ => val tab s.mem k

/-- The key is marked, or will be when the call is over. -/
private def Marked (tab : Table) (s : Sys) (k : Nat) : Prop :=
  (∃ pc, s.call = some (k, pc)) ∨
    (flag tab s.mem k = true ∧ ∀ j b, s.call = some (j, .storeFlag b) →
      rank KV.isScalar tab j / 8 = rank KV.isScalar tab k / 8 → bitIn tab b k = true)

private structure Lower (tab : Table) (k : Nat) (s : Sys) (o r : Nat) : Prop where
  busy : s.hb ≠ .idle → o ≤ r
  calm : s.hb = .idle → o - r ≤ least tab s k ∧ (0 < o - r → Marked tab s k)
  load : ∀ x, s.call = some (k, .load x) → x.toNat < 2147483648

private theorem Lower.covered {tab : Table} {k : Nat} {s : Sys} {o r : Nat} (h : o ≤ r)
    (hl : ∀ x, s.call = some (k, .load x) → x.toNat < 2147483648) : Lower tab k s o r :=
  ⟨fun _ => h, fun _ => ⟨by omega, fun hp => by omega⟩, hl⟩

/-- What is added apart from heartbeats in one step. -/
private def apart (k : Nat) (s : Sys) (evs : List Ev) : Nat := addedApart k (decide (s.hb ≠ .idle)) evs

private theorem step_lower {tab : Table} {k : Nat} {kv : KV} (hk : tab[k]? = some kv)
    (hu : kv.type = .unsigned) {s : Sys} (h : Fine tab s) {o r : Nat} (hi : Lower tab k s o r) {op : Op}
    {t : Sys × List Ev} (ht : MetricsRace.step tab kv.session s op = some t) (hc : OnlyCounts k t.2)
    (hb : o + apart k s t.2 < 4294967296) :
    Lower tab k t.1 (o + apart k s t.2) (r + reportedAt (place tab kv.session k) t.2) := by
  have hs : kv.type ≠ .string := by rw [hu]; decide
  have hsk : Scalar tab k := ⟨kv, hk, hs⟩
  cases op with
  | call j c =>
    simp only [MetricsRace.step] at ht
    cases hcall : s.call with
    | some x => rw [hcall] at ht; cases ht; exact hi
    | none =>
      rw [hcall] at ht
      dsimp only at ht
      obtain ⟨x, h1, h2⟩ := enter_cases h.sized j c
      rw [h1] at ht
      simp only [Option.map_some, Option.some.injEq] at ht
      cases x with
      | inl rv =>
        dsimp only at ht
        subst ht
        -- a call of the counter does not fail
        have hap : apart k s [.begun j c, .ended rv] = 0 := by
          by_cases hj : j = k
          · subst hj
            obtain ⟨a, rfl, -⟩ := hc c (by simp)
            obtain ⟨info, g1, g2, -⟩ := find_some h.sized hk
            unfold enter at h1
            rw [g1] at h1
            simp [g2, hu] at h1
          · unfold apart
            cases c <;> simp [addedApart, amountOf, hj]
        rw [hap]
        exact hi
      | inr pc =>
        dsimp only at ht
        subst ht
        obtain ⟨-, h3⟩ := h2 pc rfl
        have hrep : reportedAt (place tab kv.session k) [.begun j c] = 0 := rfl
        rw [hrep]
        by_cases hj : j = k
        · subst hj
          obtain ⟨x, rfl, hx⟩ := hc c (by simp)
          rcases h3 with ⟨x', he, rfl⟩ | ⟨v, he, -⟩
          · cases he
            have hl : ∀ y, (some (j, Pc.load x) : Option (Nat × Pc)) = some (j, .load y) → y.toNat < 2147483648 := by
              intro y hy; cases hy; exact hx
            by_cases hidle : s.hb = .idle
            · have hap : apart j s [.begun j (.add x)] = x.toNat := by
                unfold apart; simp [hidle, addedApart, amountOf]
              rw [hap] at hb ⊢
              obtain ⟨c1, c2⟩ := hi.calm hidle
              refine ⟨fun hn => absurd hidle hn, fun _ => ⟨?_, fun _ => .inl ⟨_, rfl⟩⟩, hl⟩
              have e1 : least tab s j = val tab s.mem j := by unfold least; rw [hcall]
              rw [e1] at c1
              simp only [least, if_true]
              rw [Nat.min_def]
              split <;> omega
            · have hap : apart j s [.begun j (.add x)] = 0 := by
                unfold apart; simp [hidle, addedApart]
              rw [hap]
              exact Lower.covered (by have := hi.busy hidle; omega) hl
          · rcases he with he | he <;> cases he
        · have hap : apart k s [.begun j c] = 0 := by
            unfold apart
            cases c <;> simp [addedApart, amountOf, hj]
          rw [hap]
          refine ⟨hi.busy, fun hidle => ?_, ?_⟩
          · obtain ⟨c1, c2⟩ := hi.calm hidle
            have e1 : least tab s k = val tab s.mem k := by unfold least; rw [hcall]
            have e2 : least tab { s with call := some (j, pc) } k = val tab s.mem k := by
              unfold least; cases pc <;> simp [hj]
            rw [e1] at c1
            rw [e2]
            refine ⟨c1, fun hp => ?_⟩
            rcases c2 hp with ⟨pc', hm⟩ | ⟨hm, -⟩
            · rw [hcall] at hm; cases hm
            · refine .inr ⟨hm, fun j' b' hx => ?_⟩
              cases hx
              rcases h3 with ⟨_, -, he⟩ | ⟨_, -, he⟩ <;> cases he
          · intro y hy; cases hy; exact absurd rfl hj
  | callStep =>
    simp only [MetricsRace.step] at ht
    cases hcall : s.call with
    | none => rw [hcall] at ht; cases ht; exact hi
    | some x =>
      obtain ⟨j, pc⟩ := x
      rw [hcall] at ht
      dsimp only at ht
      obtain ⟨w, h1, -⟩ := call_fine h hcall
      rw [h1] at ht
      simp only [Option.map_some, Option.some.injEq] at ht
      have hsj := (h.call j pc hcall).scalar
      have hap : apart k s t.2 = 0 := by
        split at ht <;> subst ht <;> simp [apart, addedApart, amountOf]
      have hrep : reportedAt (place tab kv.session k) t.2 = 0 := by
        split at ht <;> subst ht <;> rfl
      have hhb : t.1.hb = s.hb := by split at ht <;> subst ht <;> rfl
      rw [hap, hrep, Nat.add_zero, Nat.add_zero]
      have hl : ∀ x, t.1.call = some (k, .load x) → x.toNat < 2147483648 := by
        intro x hx
        exfalso
        rcases call_effect h hcall h1 with ⟨_, _, _, -, -, rfl, -⟩ | ⟨_, -, rfl⟩ | ⟨_, -, -, rfl⟩ | ⟨_, -, rfl⟩ <;>
          (subst ht; simp at hx)
      by_cases hidle : s.hb = .idle
      · obtain ⟨c1, c2⟩ := hi.calm hidle
        refine ⟨fun hn => absurd (hhb.trans hidle) hn, fun _ => ?_, hl⟩
        unfold least at c1
        rw [hcall] at c1
        have hmark : ∀ hp : 0 < o - r, j ≠ k → flag tab s.mem k = true ∧
            ∀ b, pc = .storeFlag b → rank KV.isScalar tab j / 8 = rank KV.isScalar tab k / 8 → bitIn tab b k = true := by
          intro hp hj
          rcases c2 hp with ⟨pc', hm⟩ | ⟨hm1, hm2⟩
          · rw [hcall] at hm; cases hm; exact absurd rfl hj
          · exact ⟨hm1, fun b hb he => hm2 j b (by rw [hcall, hb]) he⟩
        rcases call_effect h hcall h1 with ⟨x, kj, v, g1, rfl, rfl, g3⟩ | ⟨v, rfl, rfl⟩ | ⟨b, rfl, hbyte, rfl⟩ | ⟨b, rfl, rfl⟩
        · dsimp only at ht c1
          subst ht
          by_cases hj : j = k
          · subst hj
            obtain rfl : kv = kj := by rw [hk] at g1; exact Option.some.inj g1
            have hx := hi.load x hcall
            have had : added kv.type v x = addUnsigned v x := by simp [added, hu]
            obtain ⟨-, -, e3⟩ := add_le (v := v) hx
            rw [if_pos rfl, ← g3] at c1
            refine ⟨?_, fun _ => .inl ⟨_, rfl⟩⟩
            simp only [least, if_true, had]
            exact Nat.le_trans c1 e3
          · rw [if_neg hj] at c1
            refine ⟨?_, fun hp => .inr ⟨(hmark hp hj).1, ?_⟩⟩
            · simp only [least, if_neg hj]; exact c1
            · intro j' b' hx; cases hx
        · dsimp only at ht c1
          subst ht
          have hval := val_set h.sized hsj hsk v s.mem.flags
          refine ⟨?_, fun hp => ?_⟩
          · simp only [least]
            exact Nat.le_trans c1 (Nat.le_of_eq hval.symm)
          · by_cases hj : j = k
            · subst hj; exact .inl ⟨_, rfl⟩
            · exact .inr ⟨(hmark hp hj).1, fun j' b' hx => by cases hx⟩
        · dsimp only at ht c1
          subst ht
          refine ⟨c1, fun hp => ?_⟩
          by_cases hj : j = k
          · subst hj; exact .inl ⟨_, rfl⟩
          · have hm := (hmark hp hj).1
            refine .inr ⟨hm, fun j' b' hx he => ?_⟩
            cases hx
            unfold flag at hm
            rw [← he, hbyte] at hm
            exact hm
        · dsimp only at ht c1
          subst ht
          refine ⟨c1, fun hp => .inr ⟨?_, fun j' b' hx => by cases hx⟩⟩
          refine (flag_set h.sized hsj _).trans ?_
          have h8 : ∀ n, n % 8 < 8 := fun n => Nat.mod_lt _ (by decide)
          by_cases hj : j = k
          · subst hj
            rw [if_pos rfl]
            unfold bitIn
            rw [set_bit _ (h8 _) (h8 _), if_pos rfl]
          · obtain ⟨m1, m2⟩ := hmark hp hj
            split
            · rename_i he
              have := m2 b rfl he
              unfold bitIn at this ⊢
              rw [set_bit _ (h8 _) (h8 _), this]
              simp
            · exact m1
      · exact Lower.covered (hi.busy hidle) hl
  | read j =>
    simp only [MetricsRace.step] at ht
    cases hcall : s.call with
    | some x => rw [hcall] at ht; cases ht; exact hi
    | none =>
      rw [hcall] at ht
      dsimp only at ht
      obtain ⟨x, -, ht⟩ := Option.map_eq_some_iff.mp ht
      subst ht
      have hap : apart k s [.read j x] = 0 := by simp [apart, addedApart, amountOf]
      rw [hap]
      exact hi
  | report =>
    simp only [MetricsRace.step] at ht
    split at ht
    · rename_i hcall hidle
      obtain ⟨ds, h1, ht⟩ := Option.map_eq_some_iff.mp ht
      subst ht
      have hap : apart k s [.reported ds] = 0 := by simp [apart, addedApart, amountOf]
      rw [hap]
      have hrep := reported_value h hk hu h1
      obtain ⟨c1, c2⟩ := hi.calm hidle
      unfold least at c1
      rw [hcall] at c1
      dsimp only at c1
      refine Lower.covered ?_ hi.load
      simp only [reportedAt, hrep, Nat.add_zero]
      by_cases hp : 0 < o - r
      · rcases c2 hp with ⟨pc, hm⟩ | ⟨hm, -⟩
        · rw [hcall] at hm; cases hm
        · rw [if_pos hm]; omega
      · omega
    · cases ht; exact hi
  | hbStep =>
    simp only [MetricsRace.step] at ht
    split at ht
    · cases ht; exact hi
    · rename_i hn
      obtain ⟨x, h1, ht⟩ := Option.map_eq_some_iff.mp ht
      subst ht
      have hap : apart k s (.clearing :: if x.1 = .idle then [.cleared] else []) = 0 := by
        by_cases hx : x.1 = .idle <;> simp [apart, addedApart, amountOf, hx]
      rw [hap]
      refine Lower.covered ?_ hi.load
      have := hi.busy hn
      omega

private theorem step_apart {tab : Table} {session : Nat} {s : Sys} {op : Op} {t : Sys × List Ev}
    (ht : MetricsRace.step tab session s op = some t) (k : Nat) (evs : List Ev) :
    apart k s (t.2 ++ evs) = apart k s t.2 + apart k t.1 evs := by
  unfold apart
  cases op with
  | call j c =>
    simp only [MetricsRace.step] at ht
    cases hcall : s.call with
    | some x => rw [hcall] at ht; cases ht; simp [addedApart]
    | none =>
      rw [hcall] at ht
      dsimp only at ht
      obtain ⟨x, -, ht⟩ := Option.map_eq_some_iff.mp ht
      cases x <;> (subst ht; simp [addedApart, Nat.add_assoc])
  | callStep =>
    simp only [MetricsRace.step] at ht
    cases hcall : s.call with
    | none => rw [hcall] at ht; cases ht; simp [addedApart]
    | some x =>
      rw [hcall] at ht
      dsimp only at ht
      obtain ⟨x, -, ht⟩ := Option.map_eq_some_iff.mp ht
      split at ht <;> (subst ht; simp [addedApart])
  | read j =>
    simp only [MetricsRace.step] at ht
    cases hcall : s.call with
    | some x => rw [hcall] at ht; cases ht; simp [addedApart]
    | none =>
      rw [hcall] at ht
      dsimp only at ht
      obtain ⟨x, -, ht⟩ := Option.map_eq_some_iff.mp ht
      subst ht; simp [addedApart]
  | report =>
    simp only [MetricsRace.step] at ht
    split at ht
    · obtain ⟨x, -, ht⟩ := Option.map_eq_some_iff.mp ht
      subst ht; simp [addedApart]
    · cases ht; simp [addedApart]
  | hbStep =>
    simp only [MetricsRace.step] at ht
    split at ht
    · cases ht; simp [addedApart]
    · rename_i hn
      obtain ⟨x, -, ht⟩ := Option.map_eq_some_iff.mp ht
      subst ht
      have hn' : ¬ s.hb = .idle := hn
      by_cases hx : x.1 = .idle <;> simp [addedApart, hx, hn']

private theorem run_lower {tab : Table} {k : Nat} {kv : KV} (hk : tab[k]? = some kv)
    (hu : kv.type = .unsigned) (ops : List Op) :
    ∀ {s : Sys} {o r : Nat} {t : Sys × List Ev}, Fine tab s → Lower tab k s o r →
      MetricsRace.run tab kv.session s ops = some t → OnlyCounts k t.2 → o + apart k s t.2 < 4294967296 →
      Lower tab k t.1 (o + apart k s t.2) (r + reportedAt (place tab kv.session k) t.2) := by
  induction ops with
  | nil => intro s a r t _ hi ht _ _; cases ht; exact hi
  | cons op ops ih =>
    intro s o r t h hi ht hc hb
    simp only [MetricsRace.run] at ht
    obtain ⟨u, h1, ht⟩ := Option.bind_eq_some_iff.mp ht
    obtain ⟨w, h2, ht⟩ := Option.map_eq_some_iff.mp ht
    subst ht
    obtain ⟨u', h3, h4⟩ := step_fine (session := kv.session) h op
    rw [h1] at h3
    cases h3
    dsimp only at hb ⊢
    rw [step_apart h1, ← Nat.add_assoc] at hb ⊢
    have hs := step_lower hk hu h hi h1 (fun c hc' => hc c (List.mem_append_left _ hc')) (by omega)
    rw [reportedAt_append, ← Nat.add_assoc]
    exact ih h4 hs h2 (fun c hc' => hc c (List.mem_append_right _ hc')) hb

/-- A run up to a heartbeat. -/
private theorem run_until {tab : Table} {session : Nat} (ops : List Op) :
    ∀ {s : Sys} {t : Sys × List Ev} {before after : List Ev} {ds : List Datum},
      MetricsRace.run tab session s ops = some t → t.2 = before ++ .reported ds :: after →
      ∃ ops' u, MetricsRace.run tab session s ops' = some u ∧ u.2 = before ++ [.reported ds] ∧ u.1.hb ≠ .idle := by
  induction ops with
  | nil => intro s t b a ds h he; cases h; simp at he
  | cons op ops ih =>
    intro s t b a ds h he
    simp only [MetricsRace.run] at h
    obtain ⟨u, h1, h⟩ := Option.bind_eq_some_iff.mp h
    obtain ⟨w, h2, h⟩ := Option.map_eq_some_iff.mp h
    subst h
    dsimp only at he
    have hone : (u.2 = [.reported ds] ∧ b = [] ∧ u.1.hb ≠ .idle) ∨
        ∃ b', b = u.2 ++ b' ∧ w.2 = b' ++ .reported ds :: a := by
      rcases List.append_eq_append_iff.mp he with ⟨x, hx1, hx2⟩ | ⟨x, hx1, hx2⟩
      · exact .inr ⟨x, hx1, hx2⟩
      · cases x with
        | nil => exact .inr ⟨[], by simpa using hx1.symm, by simpa using hx2.symm⟩
        | cons e x =>
          have he' : e = .reported ds := by simp at hx2; exact hx2.1.symm
          subst he'
          have hmem : Ev.reported ds ∈ u.2 := by rw [hx1]; simp
          left
          have : u.2 = [.reported ds] ∧ u.1.hb ≠ .idle := by
            clear ih hx1 hx2 he
            cases op with
            | call k c =>
              simp only [MetricsRace.step] at h1
              split at h1
              · cases h1; cases hmem
              · obtain ⟨y, -, h1⟩ := Option.map_eq_some_iff.mp h1
                cases y <;> (subst h1; simp at hmem)
            | callStep =>
              simp only [MetricsRace.step] at h1
              split at h1
              · cases h1; cases hmem
              · obtain ⟨y, -, h1⟩ := Option.map_eq_some_iff.mp h1
                split at h1 <;> (subst h1; simp at hmem)
            | read k =>
              simp only [MetricsRace.step] at h1
              split at h1
              · cases h1; cases hmem
              · obtain ⟨y, -, h1⟩ := Option.map_eq_some_iff.mp h1
                subst h1; simp at hmem
            | report =>
              simp only [MetricsRace.step] at h1
              split at h1
              · obtain ⟨y, -, h1⟩ := Option.map_eq_some_iff.mp h1
                subst h1; simp at hmem; subst hmem; exact ⟨rfl, by simp⟩
              · cases h1; cases hmem
            | hbStep =>
              simp only [MetricsRace.step] at h1
              split at h1
              · cases h1; cases hmem
              · obtain ⟨y, -, h1⟩ := Option.map_eq_some_iff.mp h1
                subst h1
                by_cases hy : y.1 = .idle <;> simp [hy] at hmem
          refine ⟨this.1, ?_, this.2⟩
          rw [this.1] at hx1
          cases b with
          | nil => rfl
          | cons y b => simp at hx1
    rcases hone with ⟨e1, rfl, e3⟩ | ⟨b', rfl, e2⟩
    · exact ⟨[op], (u.1, u.2 ++ []), by simp [MetricsRace.run, h1], by simp [e1], e3⟩
    · obtain ⟨ops', v, g1, g2, g3⟩ := ih h2 e2
      refine ⟨op :: ops', (v.1, u.2 ++ v.2), by simp [MetricsRace.run, h1, g1], ?_, g3⟩
      simp [g2]

/-! ## The claims -/

/-- **C102 (no access outside of the tables).** Whatever calls tasks make, and wherever they and the
heartbeat interrupt each other, no step leaves the tables of metrics. -/
theorem C102_safe (tab : Table) (session : Nat) (ops : List Op) :
    (MetricsRace.run tab session (Sys.init tab) ops).isSome := by
  obtain ⟨r, h, -⟩ := run_fine (session := session) ops (init_fine tab)
  rw [h]; rfl

/-- **C102 (nothing is lost, partial: except during a heartbeat).** Wherever tasks and the heartbeat
interrupt each other: when a heartbeat is made, all amounts that were added to a counter before it, by
calls that were not made between the values of an earlier heartbeat being read and that heartbeat being
over, have been reported. The counter is only added to, and less than 2^32 in total. Missing: amounts added
during a heartbeat (`C102_false_lost`). -/
theorem C102_counted_partial {tab : Table} {k : Nat} {kv : KV} (hk : tab[k]? = some kv)
    (hu : kv.type = .unsigned) {ops : List Op} {s : Sys} {before after : List Ev} {ds : List Datum}
    (h : MetricsRace.run tab kv.session (Sys.init tab) ops = some (s, before ++ .reported ds :: after))
    (hc : OnlyCounts k before) (hb : addedApart k false before < 4294967296) :
    addedApart k false before ≤ reportedAt (place tab kv.session k) (before ++ [.reported ds]) := by
  obtain ⟨ops', u, h1, h2, h3⟩ := run_until ops h rfl
  have hap : ∀ (evs : List Ev) (busy : Bool), addedApart k busy (evs ++ [.reported ds]) = addedApart k busy evs := by
    intro evs
    induction evs with
    | nil => intro busy; simp [addedApart, amountOf]
    | cons e evs ih => intro busy; simp only [List.cons_append, addedApart, ih]
  have happ : apart k (Sys.init tab) u.2 = addedApart k false before := by
    rw [h2]
    exact hap before false
  have hl : Lower tab k (Sys.init tab) 0 0 := Lower.covered (Nat.le_refl _) (by simp [Sys.init])
  have := run_lower hk hu ops' (init_fine tab) hl h1
    (fun c hm => hc c (by rw [h2] at hm; simpa using hm)) (by rw [happ]; omega)
  have := this.busy h3
  rw [happ, h2] at this
  omega

/-- **C102 (nothing is counted twice, partial: if no call is interrupted by a heartbeat).** If a heartbeat
clears metrics only while no call is under way (but calls come between its accesses), the values
reported for a counter never add up to more than the amounts that were added. The counter is only added to.
Missing: calls interrupted by a heartbeat (`C102_false_twice`). -/
theorem C102_once_partial {tab : Table} {k : Nat} {kv : KV} (hk : tab[k]? = some kv)
    (hu : kv.type = .unsigned) {ops : List Op} {s : Sys} {evs : List Ev}
    (h : MetricsRace.run tab kv.session (Sys.init tab) ops = some (s, evs)) (hc : OnlyCounts k evs)
    (hd : Undisturbed false evs) :
    reportedAt (place tab kv.session k) evs ≤ addedTo k evs := by
  have h0 : Upper tab k (Sys.init tab) 0 0 := by
    refine ⟨⟨0, Nat.zero_le _, fun _ => rfl, ?_⟩, by simp [Sys.init], by simp [Sys.init]⟩
    simp only [coming, Sys.init, val, State.init, List.getElem?_replicate]
    split <;> simp
  have := run_upper hk hu ops (init_fine tab) h0 h hc hd
  obtain ⟨q, q1, q2, q3⟩ := this.sum
  have hco : val tab s.mem k ≤ coming tab s k := by
    unfold coming
    split
    · split <;> omega
    · rename_i j v hcall
      by_cases hj : j = k
      · subst hj; rw [if_pos rfl]; exact this.store v hcall
      · rw [if_neg hj]; exact Nat.le_refl _
    · exact Nat.le_refl _
  simp only at q1 q3
  omega

/-- **C102 (exactly once, partial: no call during a heartbeat).** If calls that add to the counter are not
made between the values of a heartbeat being read and that heartbeat being over, and no call is
interrupted by a heartbeat, every heartbeat completes the sum of all amounts that were added before it. Missing:
both of these (`C102_false_lost`, `C102_false_twice`). -/
theorem C102_exact_partial {tab : Table} {k : Nat} {kv : KV} (hk : tab[k]? = some kv)
    (hu : kv.type = .unsigned) {ops : List Op} {s : Sys} {before : List Ev} {ds : List Datum}
    (h : MetricsRace.run tab kv.session (Sys.init tab) ops = some (s, before ++ [.reported ds]))
    (hc : OnlyCounts k before) (hd : Undisturbed false (before ++ [.reported ds]))
    (ha : addedApart k false before = addedTo k before) (hb : addedTo k before < 4294967296) :
    reportedAt (place tab kv.session k) (before ++ [.reported ds]) = addedTo k before := by
  have h1 := C102_counted_partial hk hu h hc (by omega)
  have h2 := C102_once_partial hk hu h
    (fun c hm => hc c (by simpa using hm)) hd
  rw [addedTo_append] at h2
  have : addedTo k [.reported ds] = 0 := rfl
  omega

/-! ## Examples and counterexamples -/

/-- Two counters of the heartbeat and one of a session. -/
private def raceTab : Table := [⟨.unsigned, 0, 0⟩, ⟨.unsigned, 0, 0⟩, ⟨.unsigned, 0, 1⟩]

private def whole (k : Nat) (a : BitVec 32) : List Op :=
  [.call k (.add a), .callStep, .callStep, .callStep, .callStep]

private def steps (n : Nat) : List Op := List.replicate n .hbStep

/-- Calls between all accesses of two heartbeats. -/
private def busyOps : List Op :=
  whole 0 5 ++ [.report] ++ whole 0 7 ++ steps 1 ++ whole 1 3 ++ steps 2 ++ whole 0 1 ++ steps 5 ++ whole 0 4 ++
    [.report]

example : ((MetricsRace.run raceTab 0 (Sys.init raceTab) busyOps).map fun r =>
    (addedTo 0 r.2, addedApart 0 false r.2, reportedAt (place raceTab 0 0) r.2)) = some (17, 9, 10) := by
  decide +kernel

/-- What is observed before the second heartbeat. -/
private def busyBefore : List Ev :=
  [.begun 0 (.add 5), .ended 0, .reported [.num .unsigned 5 true, .num .unsigned 0 false], .begun 0 (.add 7), .ended 0,
    .clearing, .begun 1 (.add 3), .ended 0, .clearing, .clearing, .begun 0 (.add 1), .ended 0, .clearing, .clearing,
    .clearing, .clearing, .clearing, .cleared, .begun 0 (.add 4), .ended 0]

/-- The hypotheses of the theorems hold of this schedule. -/
example : ((MetricsRace.run raceTab 0 (Sys.init raceTab) busyOps).map Prod.snd = some (busyBefore ++
      .reported [.num .unsigned 5 true, .num .unsigned 0 false] :: [])) ∧
    OnlyCounts 0 busyBefore ∧ Undisturbed false busyBefore ∧ addedApart 0 false busyBefore = 9 := by
  refine ⟨by decide +kernel, ?_, by simp [busyBefore, Undisturbed], by decide⟩
  intro c hc
  simp [busyBefore] at hc
  rcases hc with rfl | rfl | rfl | rfl <;> exact ⟨_, rfl, by decide⟩

/-- **C102 is false (lost).** A task adds 5 to a counter after the values of a heartbeat are read and
before they are cleared, without interrupting any access. The call succeeds, but neither this heartbeat
nor the next reports the amount, and after both the counter has no value. -/
theorem C102_false_lost : ∃ (tab : Table) (ops : List Op) (evs : List Ev),
    tab[0]? = some ⟨.unsigned, 0, 0⟩ ∧
      (MetricsRace.run tab 0 (Sys.init tab) ops).map Prod.snd = some evs ∧
      OnlyCounts 0 evs ∧ Undisturbed false evs ∧ Ev.ended 0 ∈ evs ∧
      addedTo 0 evs = 5 ∧ reportedAt (place tab 0 0) evs = 0 ∧ evs.count .cleared = 2 ∧
      evs.getLast? = some (.read 0 (.inl (-7))) := by
  refine ⟨raceTab, [.report] ++ whole 0 5 ++ steps 8 ++ [.report] ++ steps 8 ++ [.read 0],
    [.reported [.num .unsigned 0 false, .num .unsigned 0 false], .begun 0 (.add 5), .ended 0,
      .clearing, .clearing, .clearing, .clearing, .clearing, .clearing, .clearing, .clearing, .cleared,
      .reported [.num .unsigned 0 false, .num .unsigned 0 false],
      .clearing, .clearing, .clearing, .clearing, .clearing, .clearing, .clearing, .clearing, .cleared,
      .read 0 (.inl (-7))], rfl, by decide +kernel, ?_, by simp [Undisturbed], by decide, by decide, by decide,
    by decide, rfl⟩
  intro c hc
  simp at hc
  exact ⟨_, hc, by decide⟩

/-- **C102 is false (twice).** 5 was added to a counter and reported. A heartbeat comes while a call that
adds 1 has read the counter and not yet written it: after 6 was added in total, 11 is reported. -/
theorem C102_false_twice : ∃ (tab : Table) (ops : List Op) (evs : List Ev),
    tab[0]? = some ⟨.unsigned, 0, 0⟩ ∧
      (MetricsRace.run tab 0 (Sys.init tab) ops).map Prod.snd = some evs ∧ OnlyCounts 0 evs ∧
      addedTo 0 evs = 6 ∧ reportedAt (place tab 0 0) evs = 11 := by
  refine ⟨raceTab, whole 0 5 ++ [.report, .call 0 (.add 1), .callStep] ++ steps 8 ++
      [.callStep, .callStep, .callStep, .report],
    [.begun 0 (.add 5), .ended 0, .reported [.num .unsigned 5 true, .num .unsigned 0 false], .begun 0 (.add 1),
      .clearing, .clearing, .clearing, .clearing, .clearing, .clearing, .clearing, .clearing, .cleared,
      .ended 0, .reported [.num .unsigned 6 true, .num .unsigned 0 false]], rfl, by decide +kernel, ?_, by decide,
    by decide⟩
  intro c hc
  simp at hc
  rcases hc with rfl | rfl <;> exact ⟨_, rfl, by decide⟩

/-- **C102 is false (another session).** A heartbeat takes away the value of a metric that does not belong
to the heartbeat: a task adds to it while the heartbeat clears the flag of one of its own metrics, reads
it back, and when the heartbeat is over, the metric has no value. -/
theorem C102_false_session : ∃ (tab : Table) (ops : List Op) (before : List Ev),
    tab[2]? = some ⟨.unsigned, 0, 1⟩ ∧
      (MetricsRace.run tab 0 (Sys.init tab) ops).map Prod.snd =
        some (before ++ [.begun 2 (.add 9), .ended 0, .read 2 (.inr 9), .clearing, .clearing, .clearing, .cleared,
          .read 2 (.inl (-7))]) := by
  exact ⟨raceTab, [.report] ++ steps 5 ++ whole 2 9 ++ [.read 2] ++ steps 3 ++ [.read 2],
    [.reported [.num .unsigned 0 false, .num .unsigned 0 false], .clearing, .clearing, .clearing, .clearing, .clearing],
    rfl, by decide +kernel⟩

end Mflt.Props
