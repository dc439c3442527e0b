import Verif.Lemmas.Metrics

/-! # Lemmas: every metrics call refines the specification -/

namespace Mflt.Metrics

open Spec.Metrics (Op Out)

/-- A table the x-macros can generate. -/
structure TableOk (tab : Table) : Prop where
  length : tab.length < 2 ^ 32
  range : ∀ kv ∈ tab, kv.type = .string → kv.range < 2 ^ 31

theorem keys_get (tab : Table) (k : Nat) : (tab.map keyOf)[k]? = tab[k]?.map keyOf := List.getElem?_map

theorem keys_ty (tab : Table) (k : Nat) :
    ((tab.map keyOf)[k]?.map Spec.Metrics.Key.ty) = tab[k]?.map fun kv => tyOf kv.type := by
  rw [List.getElem?_map, Option.map_map]; rfl

theorem setSigned_rel {tab : Table} {st : State} {s : Spec.Metrics.State} (h : Rel tab st s) {k : Nat}
    {kv : KV} (hk : tab[k]? = some kv) (e : MType) (he : e = .signed ∨ e = .unsigned) (v : BitVec 32) :
    (kv.type ≠ e → setValue tab st e k v = some (-2, st)) ∧
    (kv.type = e → ∃ st', setValue tab st e k v = some (0, st') ∧
      Rel tab st' (Spec.Metrics.upd s k (.int (some (if kv.type = .unsigned then (v.toNat : Int) else v.toInt))))) := by
  rcases h.cases hk with ⟨hn, w, f, o, h1, h2, h3⟩ | ⟨hn, w, m, total, since, h1, h2, h3⟩ |
        ⟨hn, buf, t, h1, h2, h3⟩
  · obtain ⟨g0, -, -⟩ := findValue_num hk hn h1
    constructor
    · intro hne
      unfold setValue; rw [g0]; simp [hne]
    · intro heq
      obtain ⟨st', a, b⟩ := write_num h hk hn v
      refine ⟨st', ?_, b⟩
      unfold setValue; rw [g0]
      simp only [Option.bind_some, heq, ne_eq, not_true_eq_false, if_false]
      exact a
  · obtain ⟨g0, -, -⟩ := findValue_timer hk hn h1
    have hne : MType.timer ≠ e := by rcases he with rfl | rfl <;> simp
    constructor
    · intro _
      unfold setValue; rw [g0]; simp [hne]
    · intro heq; rw [hn] at heq; exact absurd heq hne
  · obtain ⟨g0, -⟩ := findValue_str hk hn h1
    have hne : MType.string ≠ e := by rcases he with rfl | rfl <;> simp
    constructor
    · intro _
      unfold setValue; rw [g0]; simp [hne]
    · intro heq; rw [hn] at heq; exact absurd heq hne

theorem add_rel {tab : Table} {st : State} {s : Spec.Metrics.State} (h : Rel tab st s) {k : Nat}
    {kv : KV} (hk : tab[k]? = some kv) (a : BitVec 32) :
    (kv.type ≠ .signed → kv.type ≠ .unsigned → add tab st k a = some (-2, st)) ∧
    (∀ o, s k = .int o → (kv.type = .signed → ∃ st', add tab st k a = some (0, st') ∧
      Rel tab st' (Spec.Metrics.upd s k (.int (some
        (Spec.Metrics.clamp (-2147483648) 2147483647 (o.getD 0 + a.toInt)))))) ∧
      (kv.type = .unsigned → ∃ st', add tab st k a = some (0, st') ∧
      Rel tab st' (Spec.Metrics.upd s k (.int (some
        (Spec.Metrics.clamp 0 4294967295 (o.getD 0 + a.toInt))))))) := by
  rcases h.cases hk with ⟨hn, w, f, o, h1, h2, h3⟩ | ⟨hn, w, m, total, since, h1, h2, h3⟩ |
        ⟨hn, buf, t, h1, h2, h3⟩
  · obtain ⟨g0, g1, -⟩ := findValue_num hk hn h1
    refine ⟨fun hs hu => by rcases hn with hn | hn <;> simp [hn] at hs hu, fun o' ho => ?_⟩
    obtain rfl : o = o' := by rw [h2] at ho; simpa using ho
    refine ⟨fun ht => ?_, fun ht => ?_⟩
    · obtain ⟨st', a1, b⟩ := write_num h hk hn (addSigned w a)
      refine ⟨st', ?_, ?_⟩
      · unfold add; rw [g0]
        simp only [Option.bind_some, ht, readLoc, g1]
        exact a1
      · rw [ht, if_neg (by simp), clamp_signed] at b
        rcases h3.1 with ⟨hc, -⟩ | ⟨-, ho⟩
        · rw [ht] at hc; cases hc
        · have : o.getD 0 = w.toInt := by
            rw [ho]; cases f with
            | true => rfl
            | false => rw [h3.2 rfl]; rfl
          rwa [this]
    · obtain ⟨st', a1, b⟩ := write_num h hk hn (addUnsigned w a)
      refine ⟨st', ?_, ?_⟩
      · unfold add; rw [g0]
        simp only [Option.bind_some, ht, readLoc, g1]
        exact a1
      · rw [ht, if_pos rfl, clamp_unsigned] at b
        rcases h3.1 with ⟨-, ho⟩ | ⟨hc, -⟩
        · have : o.getD 0 = w.toNat := by
            rw [ho]; cases f with
            | true => rfl
            | false => rw [h3.2 rfl]; rfl
          rwa [this]
        · rw [ht] at hc; cases hc
  · obtain ⟨g0, -, -⟩ := findValue_timer hk hn h1
    refine ⟨fun _ _ => ?_, fun o ho => ?_⟩
    · unfold add; rw [g0]; rfl
    · rw [h2] at ho; cases ho
  · obtain ⟨g0, -⟩ := findValue_str hk hn h1
    refine ⟨fun _ _ => ?_, fun o ho => ?_⟩
    · unfold add; rw [g0]; rfl
    · rw [h2] at ho; cases ho

/-- Timer calls on a key that is not a timer. -/
theorem timerOp_other {tab : Table} {st : State} {s : Spec.Metrics.State} (h : Rel tab st s) {k : Nat}
    {kv : KV} (hk : tab[k]? = some kv) (hn : kv.type ≠ .timer) (op : TimerOp) (now : Nat) :
    timerOp tab st k op now = some (-2, st) := by
  unfold timerOp
  rcases h.cases hk with ⟨hn', w, f, o, h1, h2, h3⟩ | ⟨hn', -⟩ | ⟨hn', buf, t, h1, h2, h3⟩
  · rw [(findValue_num hk hn' h1).1]; simp [hn]
  · exact absurd hn' hn
  · rw [(findValue_str hk hn' h1).1]; simp

theorem timerOp_timer {tab : Table} {st : State} {s : Spec.Metrics.State} (h : Rel tab st s) {k : Nat}
    {kv : KV} (hk : tab[k]? = some kv) (hn : kv.type = .timer) (op : TimerOp) (now : Nat) :
    timerOp tab st k op now = (updateTimer st (timerInfo tab k) op now).map fun r =>
      (if r.1 then 0 else -4, r.2) := by
  unfold timerOp
  rcases h.cases hk with ⟨hn', -⟩ | ⟨-, w, m, total, since, h1, h2, h3⟩ | ⟨hn', -⟩
  · rw [hn] at hn'; simp at hn'
  · rw [(findValue_timer hk hn h1).1]; simp [timerInfo]
  · rw [hn] at hn'; cases hn'

theorem readValue_timer {tab : Table} {st : State} {s : Spec.Metrics.State} (h : Rel tab st s) {k : Nat}
    {kv : KV} (hk : tab[k]? = some kv) (hn : kv.type = .timer) {total : Nat} {since : Option Nat}
    (hs : s k = .timer total since) : ∃ v, readValue tab st k .timer = some (.inr v) ∧ v.toNat = total := by
  rcases h.cases hk with ⟨hn', -⟩ | ⟨-, w, m, total', since', h1, h2, h3⟩ | ⟨hn', -⟩
  · rw [hn] at hn'; simp at hn'
  · obtain ⟨g0, g1, -⟩ := findValue_timer hk hn h1
    obtain ⟨rfl, rfl⟩ : total' = total ∧ since' = since := by rw [hs] at h2; simpa [eq_comm] using h2
    refine ⟨w, ?_, h3.2.1⟩
    unfold readValue findKeyOfType
    rw [g0]
    simp [readLoc, g1]
  · rw [hn] at hn'; cases hn'

theorem readValue_wrong {tab : Table} {st : State} {s : Spec.Metrics.State} (h : Rel tab st s) {k : Nat}
    {kv : KV} (hk : tab[k]? = some kv) (e : MType) (hn : kv.type ≠ e) :
    readValue tab st k e = some (.inl (-2)) := by
  unfold readValue findKeyOfType
  rcases h.cases hk with ⟨hn', w, f, o, h1, h2, h3⟩ | ⟨hn', w, m, total, since, h1, h2, h3⟩ |
    ⟨hn', buf, t, h1, h2, h3⟩
  · rw [(findValue_num hk hn' h1).1]; simp [hn]
  · rw [(findValue_timer hk hn' h1).1]; rw [hn'] at hn; simp [hn]
  · rw [(findValue_str hk hn' h1).1]; rw [hn'] at hn; simp [hn]

theorem readValue_num {tab : Table} {st : State} {s : Spec.Metrics.State} (h : Rel tab st s) {k : Nat}
    {kv : KV} (hk : tab[k]? = some kv) (hn : kv.type = .unsigned ∨ kv.type = .signed) :
    (s k = .int none ∧ readValue tab st k kv.type = some (.inl (-7))) ∨
    ∃ v, s k = .int (some (if kv.type = .unsigned then (v.toNat : Int) else v.toInt)) ∧
      readValue tab st k kv.type = some (.inr v) := by
  rcases h.cases hk with ⟨-, w, f, o, h1, h2, h3⟩ | ⟨hn', -⟩ | ⟨hn', -⟩
  · obtain ⟨g0, g1, -⟩ := findValue_num hk hn h1
    cases f with
    | false =>
      left
      refine ⟨?_, ?_⟩
      · rw [h2]; rcases h3.1 with ⟨-, ho⟩ | ⟨-, ho⟩ <;> rw [ho] <;> rfl
      · unfold readValue findKeyOfType
        rw [g0]
        rcases hn with hn | hn <;> simp [hn]
    | true =>
      right
      refine ⟨w, ?_, ?_⟩
      · rw [h2]; rcases h3.1 with ⟨ht, ho⟩ | ⟨ht, ho⟩ <;> rw [ho, ht] <;> rfl
      · unfold readValue findKeyOfType
        rw [g0]
        simp [readLoc, g1]
  · rw [hn'] at hn; simp at hn
  · rw [hn'] at hn; simp at hn

theorem readString_eq {tab : Table} {st : State} {s : Spec.Metrics.State} (h : Rel tab st s) {k : Nat}
    {kv : KV} (hk : tab[k]? = some kv) (hn : kv.type = .string) {t : Bytes} (hs : s k = .text t)
    (out : Bytes) (ho : out.length ≠ 0) :
    ∃ junk, readString tab st k out = some (0, t.take (out.length - 1) ++ 0 :: junk) ∧
      0 ∉ t.take (out.length - 1) := by
  rcases h.cases hk with ⟨hn', -⟩ | ⟨hn', -⟩ | ⟨-, buf, t', h1, h2, h3⟩
  · rw [hn] at hn'; simp at hn'
  · rw [hn] at hn'; cases hn'
  · obtain ⟨g0, g1⟩ := findValue_str hk hn h1
    obtain rfl : t' = t := by rw [hs] at h2; simpa [eq_comm] using h2
    obtain ⟨-, q2, q3, junk, rfl⟩ := h3
    have hz : 0 ∉ t'.take (out.length - 1) := fun hm => q3 (List.mem_of_mem_take hm)
    have hread : readString tab st k out = some (0, (((t' ++ 0 :: junk).take
        (min (t'.length + 1) out.length)) ++ out.drop (min (t'.length + 1) out.length)).set
          (out.length - 1) 0) := by
      unfold readString findKeyOfType
      rw [if_neg ho, g0, hk]
      simp [g1, cstring_eq q3]
    rw [hread]
    by_cases hc : t'.length + 1 ≤ out.length
    · have h1 : (t' ++ 0 :: junk).take (t'.length + 1) = t' ++ [0] := by
        rw [List.take_append, List.take_of_length_le (by omega)]
        rw [show t'.length + 1 - t'.length = 1 by omega]; rfl
      rw [Nat.min_eq_left hc, h1, List.take_of_length_le (by omega)]
      by_cases hl : out.length - 1 = t'.length
      · refine ⟨out.drop (t'.length + 1), ?_, q3⟩
        rw [hl, List.append_assoc, List.set_append_right _ _ (Nat.le_refl _)]
        simp
      · refine ⟨(out.drop (t'.length + 1)).set (out.length - 1 - t'.length - 1) 0, ?_, q3⟩
        rw [List.append_assoc, List.set_append_right _ _ (by omega)]
        obtain ⟨j, hj⟩ : ∃ j, out.length - 1 - t'.length = j + 1 := ⟨out.length - 1 - t'.length - 1, by omega⟩
        rw [hj]
        simp
    · refine ⟨[], ?_, hz⟩
      rw [Nat.min_eq_right (by omega), List.drop_length, List.append_nil,
        List.take_append_of_le_length (by omega)]
      obtain ⟨m, hm⟩ : ∃ m, out.length = m + 1 := ⟨out.length - 1, by omega⟩
      rw [hm]
      have hml : m < t'.length := by omega
      rw [take_succ_some (List.getElem?_eq_getElem hml), Nat.add_sub_cancel,
        List.set_append_right _ _ (by simp; omega)]
      simp [Nat.min_eq_left (Nat.le_of_lt hml)]

theorem step_rel {dev : SerializerHelper.Device} (hd : Spec.Event.DeviceOk dev) {tab : Table}
    (ht : TableOk tab) {st : State} {s : Spec.Metrics.State} (h : Rel tab st s) {op : Op} {o : Out}
    {s' : Spec.Metrics.State} (hs : Spec.Metrics.step dev (tab.map keyOf) s op = some (o, s')) :
    ∃ st', exec dev tab st op = some (o, st') ∧ Rel tab st' s' := by
  cases op with
  | setSigned k v =>
    simp only [Spec.Metrics.step, keys_ty] at hs
    split at hs
    · cases hs
    rename_i hv
    have hv := Decidable.not_not.mp hv
    unfold Spec.Metrics.isInt32 at hv
    simp only [exec]
    cases hk : tab[k]? with
    | none =>
      rw [hk] at hs
      obtain ⟨rfl, rfl⟩ : Out.code (-1) = o ∧ s = s' := by simpa using hs
      exact ⟨st, by simp [setValue, findValue_none hk], h⟩
    | some kv =>
      rw [hk] at hs
      obtain ⟨a, b⟩ := setSigned_rel h hk .signed (.inl rfl) (BitVec.ofInt 32 v)
      cases hty : kv.type with
      | signed =>
        simp only [Option.map_some, hty, tyOf, Option.some.injEq, Prod.mk.injEq] at hs
        obtain ⟨rfl, rfl⟩ := hs
        obtain ⟨st', b1, b2⟩ := b hty
        refine ⟨st', by rw [b1]; rfl, ?_⟩
        rw [hty, if_neg (by simp), BitVec.toInt_ofInt, Int.bmod_eq_of_le (by omega) (by omega)] at b2
        exact b2
      | unsigned | timer | string =>
        simp only [Option.map_some, hty, tyOf, Option.some.injEq, Prod.mk.injEq] at hs
        obtain ⟨rfl, rfl⟩ := hs
        exact ⟨st, by rw [a (by simp [hty])]; rfl, h⟩
  | setUnsigned k v =>
    simp only [Spec.Metrics.step, keys_ty] at hs
    split at hs
    · cases hs
    rename_i hv
    simp only [exec]
    cases hk : tab[k]? with
    | none =>
      rw [hk] at hs
      obtain ⟨rfl, rfl⟩ : Out.code (-1) = o ∧ s = s' := by simpa using hs
      exact ⟨st, by simp [setValue, findValue_none hk], h⟩
    | some kv =>
      rw [hk] at hs
      obtain ⟨a, b⟩ := setSigned_rel h hk .unsigned (.inr rfl) (BitVec.ofNat 32 v)
      cases hty : kv.type with
      | unsigned =>
        simp only [Option.map_some, hty, tyOf, Option.some.injEq, Prod.mk.injEq] at hs
        obtain ⟨rfl, rfl⟩ := hs
        obtain ⟨st', b1, b2⟩ := b hty
        refine ⟨st', by rw [b1]; rfl, ?_⟩
        rw [hty, if_pos rfl, BitVec.toNat_ofNat, Nat.mod_eq_of_lt (by omega)] at b2
        exact b2
      | signed | timer | string =>
        simp only [Option.map_some, hty, tyOf, Option.some.injEq, Prod.mk.injEq] at hs
        obtain ⟨rfl, rfl⟩ := hs
        exact ⟨st, by rw [a (by simp [hty])]; rfl, h⟩
  | setText k t =>
    simp only [Spec.Metrics.step, keys_get] at hs
    split at hs
    · cases hs
    rename_i hz
    simp only [exec]
    cases hk : tab[k]? with
    | none =>
      rw [hk] at hs
      obtain ⟨rfl, rfl⟩ : Out.code (-1) = o ∧ s = s' := by simpa using hs
      exact ⟨st, by simp [setString, findValue_none hk], h⟩
    | some kv =>
      rw [hk] at hs
      rcases h.cases hk with ⟨hn, w, f, o', h1, h2, h3⟩ | ⟨hn, w, m, total, since, h1, h2, h3⟩ |
        ⟨hn, buf, t', h1, h2, h3⟩
      · have hw : setString tab st k t = some (-1, st) := by
          unfold setString
          rw [(findValue_num hk hn h1).1, hk]
          rcases hn with hn | hn <;> rw [hn] <;> rfl
        refine ⟨st, ?_, ?_⟩
        · rw [hw]
          rcases hn with hn | hn <;> simp [keyOf, hn, tyOf] at hs <;> simp [hs]
        · rcases hn with hn | hn <;> simp [keyOf, hn, tyOf] at hs <;> rw [← hs.2] <;> exact h
      · have hw : setString tab st k t = some (-1, st) := by
          unfold setString
          rw [(findValue_timer hk hn h1).1, hk]
          rfl
        refine ⟨st, ?_, ?_⟩
        · rw [hw]
          simp [keyOf, hn, tyOf] at hs; simp [hs]
        · simp [keyOf, hn, tyOf] at hs; rw [← hs.2]; exact h
      · obtain ⟨st', a, b⟩ := setString_rel h hk hn hz
        simp only [Option.map_some, keyOf, hn, tyOf, Option.some.injEq, Prod.mk.injEq] at hs
        obtain ⟨rfl, rfl⟩ := hs
        exact ⟨st', by rw [a]; rfl, b⟩
  | add k a =>
    simp only [Spec.Metrics.step, keys_ty] at hs
    split at hs
    · cases hs
    rename_i hv
    have hv := Decidable.not_not.mp hv
    unfold Spec.Metrics.isInt32 at hv
    simp only [exec]
    cases hk : tab[k]? with
    | none =>
      rw [hk] at hs
      obtain ⟨rfl, rfl⟩ : Out.code (-1) = o ∧ s = s' := by simpa using hs
      exact ⟨st, by simp [add, findValue_none hk], h⟩
    | some kv =>
      rw [hk] at hs
      have hai : (BitVec.ofInt 32 a).toInt = a := by
        rw [BitVec.toInt_ofInt, Int.bmod_eq_of_le (by omega) (by omega)]
      obtain ⟨p, q⟩ := add_rel h hk (BitVec.ofInt 32 a)
      rw [hai] at q
      rcases h.cases hk with ⟨hn, w, f, o', h1, h2, h3⟩ | ⟨hn, w, m, total, since, h1, h2, h3⟩ |
        ⟨hn, buf, t', h1, h2, h3⟩
      · obtain ⟨q1, q2⟩ := q o' h2
        rcases hn with hn | hn
        · obtain ⟨st', b1, b2⟩ := q2 hn
          simp only [Option.map_some, hn, tyOf, h2, Option.some.injEq, Prod.mk.injEq] at hs
          obtain ⟨rfl, rfl⟩ := hs
          exact ⟨st', by rw [b1]; rfl, b2⟩
        · obtain ⟨st', b1, b2⟩ := q1 hn
          simp only [Option.map_some, hn, tyOf, h2, Option.some.injEq, Prod.mk.injEq] at hs
          obtain ⟨rfl, rfl⟩ := hs
          exact ⟨st', by rw [b1]; rfl, b2⟩
      · simp only [Option.map_some, hn, tyOf, h2, Option.some.injEq, Prod.mk.injEq] at hs
        obtain ⟨rfl, rfl⟩ := hs
        exact ⟨st, by rw [p (by simp [hn]) (by simp [hn])]; rfl, h⟩
      · simp only [Option.map_some, hn, tyOf, h2, Option.some.injEq, Prod.mk.injEq] at hs
        obtain ⟨rfl, rfl⟩ := hs
        exact ⟨st, by rw [p (by simp [hn]) (by simp [hn])]; rfl, h⟩
  | timerStart k now =>
    simp only [Spec.Metrics.step, keys_ty] at hs
    simp only [exec]
    cases hk : tab[k]? with
    | none =>
      rw [hk] at hs
      obtain ⟨rfl, rfl⟩ : Out.code (-1) = o ∧ s = s' := by simpa using hs
      exact ⟨st, by simp [timerOp, findValue_none hk], h⟩
    | some kv =>
      rw [hk] at hs
      rcases h.cases hk with ⟨hn, w, f, o', h1, h2, h3⟩ | ⟨hn, w, m, total, since, h1, h2, h3⟩ |
        ⟨hn, buf, t', h1, h2, h3⟩
      · rw [timerOp_other h hk (by rcases hn with hn | hn <;> simp [hn])]
        refine ⟨st, ?_, ?_⟩
        · rcases hn with hn | hn <;> simp [hn, tyOf] at hs <;> simp [hs]
        · rcases hn with hn | hn <;> simp [hn, tyOf] at hs <;> rw [← hs.2] <;> exact h
      · rw [timerOp_timer h hk hn]
        cases since with
        | none =>
          obtain ⟨st', b1, b2⟩ := timer_start h hk hn h2 now
          simp only [Option.map_some, hn, tyOf, h2, Option.some.injEq, Prod.mk.injEq] at hs
          obtain ⟨rfl, rfl⟩ := hs
          exact ⟨st', by rw [b1]; rfl, b2⟩
        | some t =>
          rw [timer_idle h hk hn h2 .start (by simp)]
          simp only [Option.map_some, hn, tyOf, h2, Option.some.injEq, Prod.mk.injEq] at hs
          obtain ⟨rfl, rfl⟩ := hs
          exact ⟨st, rfl, h⟩
      · rw [timerOp_other h hk (by simp [hn])]
        refine ⟨st, ?_, ?_⟩
        · simp [hn, tyOf] at hs; simp [hs]
        · simp [hn, tyOf] at hs; rw [← hs.2]; exact h
  | timerStop k now =>
    simp only [Spec.Metrics.step, keys_ty] at hs
    simp only [exec]
    cases hk : tab[k]? with
    | none =>
      rw [hk] at hs
      obtain ⟨rfl, rfl⟩ : Out.code (-1) = o ∧ s = s' := by simpa using hs
      exact ⟨st, by simp [timerOp, findValue_none hk], h⟩
    | some kv =>
      rw [hk] at hs
      rcases h.cases hk with ⟨hn, w, f, o', h1, h2, h3⟩ | ⟨hn, w, m, total, since, h1, h2, h3⟩ |
        ⟨hn, buf, t', h1, h2, h3⟩
      · rw [timerOp_other h hk (by rcases hn with hn | hn <;> simp [hn])]
        refine ⟨st, ?_, ?_⟩
        · rcases hn with hn | hn <;> simp [hn, tyOf] at hs <;> simp [hs]
        · rcases hn with hn | hn <;> simp [hn, tyOf] at hs <;> rw [← hs.2] <;> exact h
      · rw [timerOp_timer h hk hn]
        cases since with
        | none =>
          rw [timer_idle h hk hn h2 .stop (by simp)]
          simp only [Option.map_some, hn, tyOf, h2, Option.some.injEq, Prod.mk.injEq] at hs
          obtain ⟨rfl, rfl⟩ := hs
          exact ⟨st, rfl, h⟩
        | some t =>
          simp only [Option.map_some, hn, tyOf, h2] at hs
          obtain ⟨t', ht', hs⟩ := Option.map_eq_some_iff.mp hs
          obtain ⟨st', b1, b2⟩ := timer_tick h hk hn h2 ht' .stop (by simp)
          obtain ⟨rfl, rfl⟩ := Prod.mk.injEq .. ▸ hs
          exact ⟨st', by rw [b1]; rfl, by simpa using b2⟩
      · rw [timerOp_other h hk (by simp [hn])]
        refine ⟨st, ?_, ?_⟩
        · simp [hn, tyOf] at hs; simp [hs]
        · simp [hn, tyOf] at hs; rw [← hs.2]; exact h
  | timerRead k now =>
    simp only [Spec.Metrics.step, keys_ty] at hs
    simp only [exec, timerRead]
    cases hk : tab[k]? with
    | none =>
      rw [hk] at hs
      obtain ⟨rfl, rfl⟩ : Out.code (-1) = o ∧ s = s' := by simpa using hs
      refine ⟨st, ?_, h⟩
      simp [timerOp, findValue_none hk, readValue, findKeyOfType, outValue]
    | some kv =>
      rw [hk] at hs
      rcases h.cases hk with ⟨hn, w, f, o', h1, h2, h3⟩ | ⟨hn, w, m, total, since, h1, h2, h3⟩ |
        ⟨hn, buf, t', h1, h2, h3⟩
      · have hne : kv.type ≠ .timer := by rcases hn with hn | hn <;> simp [hn]
        rw [timerOp_other h hk hne]
        simp only [Option.bind_some, readValue_wrong h hk .timer hne]
        refine ⟨st, ?_, ?_⟩
        · rcases hn with hn | hn <;> simp [hn, tyOf] at hs <;> simp [hs, outValue]
        · rcases hn with hn | hn <;> simp [hn, tyOf] at hs <;> rw [← hs.2] <;> exact h
      · rw [timerOp_timer h hk hn]
        cases since with
        | none =>
          rw [timer_idle h hk hn h2 .force (by simp)]
          simp only [Option.map_some, hn, tyOf, h2, Option.some.injEq, Prod.mk.injEq] at hs
          obtain ⟨rfl, rfl⟩ := hs
          obtain ⟨v, c1, c2⟩ := readValue_timer h hk hn h2
          refine ⟨st, ?_, h⟩
          simp [c1, outValue, c2]
        | some t =>
          simp only [Option.map_some, hn, tyOf, h2] at hs
          obtain ⟨t', ht', hs⟩ := Option.map_eq_some_iff.mp hs
          obtain ⟨st', b1, b2⟩ := timer_tick h hk hn h2 ht' .force (by simp)
          obtain ⟨rfl, rfl⟩ := Prod.mk.injEq .. ▸ hs
          obtain ⟨v, c1, c2⟩ := readValue_timer b2 hk hn (total := t') (since := some now)
            (by simp [Spec.Metrics.upd])
          refine ⟨st', ?_, by simpa using b2⟩
          rw [b1]
          simp [c1, outValue, c2]
      · have hne : kv.type ≠ .timer := by simp [hn]
        rw [timerOp_other h hk hne]
        simp only [Option.bind_some, readValue_wrong h hk .timer hne]
        refine ⟨st, ?_, ?_⟩
        · simp [hn, tyOf] at hs; simp [hs, outValue]
        · simp [hn, tyOf] at hs; rw [← hs.2]; exact h
  | readSigned k =>
    simp only [Spec.Metrics.step, keys_ty] at hs
    simp only [exec]
    cases hk : tab[k]? with
    | none =>
      rw [hk] at hs
      obtain ⟨rfl, rfl⟩ : Out.code (-1) = o ∧ s = s' := by simpa using hs
      refine ⟨st, ?_, h⟩
      simp [findValue_none hk, readValue, findKeyOfType, outValue]
    | some kv =>
      rw [hk] at hs
      by_cases hty : kv.type = .signed
      · rcases readValue_num h hk (.inr hty) with ⟨a, b⟩ | ⟨v, a, b⟩
        · rw [hty] at b
          simp only [Option.map_some, hty, tyOf, a, Option.some.injEq, Prod.mk.injEq] at hs
          obtain ⟨rfl, rfl⟩ := hs
          exact ⟨st, by simp [b, outValue], h⟩
        · rw [hty] at a b
          rw [if_neg (by simp)] at a
          simp only [Option.map_some, hty, tyOf, a, Option.some.injEq, Prod.mk.injEq] at hs
          obtain ⟨rfl, rfl⟩ := hs
          exact ⟨st, by simp [b, outValue], h⟩
      · rw [readValue_wrong h hk _ hty]
        have hs' : some (Out.code (-2), s) = some (o, s') := by
          cases hty' : kv.type with
          | signed => exact absurd hty' hty
          | unsigned | timer | string => simpa [hty', tyOf] using hs
        obtain ⟨rfl, rfl⟩ : Out.code (-2) = o ∧ s = s' := by simpa using hs'
        exact ⟨st, rfl, h⟩
  | readUnsigned k =>
    simp only [Spec.Metrics.step, keys_ty] at hs
    simp only [exec]
    cases hk : tab[k]? with
    | none =>
      rw [hk] at hs
      obtain ⟨rfl, rfl⟩ : Out.code (-1) = o ∧ s = s' := by simpa using hs
      refine ⟨st, ?_, h⟩
      simp [findValue_none hk, readValue, findKeyOfType, outValue]
    | some kv =>
      rw [hk] at hs
      by_cases hty : kv.type = .unsigned
      · rcases readValue_num h hk (.inl hty) with ⟨a, b⟩ | ⟨v, a, b⟩
        · rw [hty] at b
          simp only [Option.map_some, hty, tyOf, a, Option.some.injEq, Prod.mk.injEq] at hs
          obtain ⟨rfl, rfl⟩ := hs
          exact ⟨st, by simp [b, outValue], h⟩
        · rw [hty] at a b
          rw [if_pos rfl] at a
          simp only [Option.map_some, hty, tyOf, a, Option.some.injEq, Prod.mk.injEq] at hs
          obtain ⟨rfl, rfl⟩ := hs
          exact ⟨st, by simp [b, outValue], h⟩
      · rw [readValue_wrong h hk _ hty]
        have hs' : some (Out.code (-2), s) = some (o, s') := by
          cases hty' : kv.type with
          | unsigned => exact absurd hty' hty
          | signed | timer | string => simpa [hty', tyOf] using hs
        obtain ⟨rfl, rfl⟩ : Out.code (-2) = o ∧ s = s' := by simpa using hs'
        exact ⟨st, rfl, h⟩
  | readText k n =>
    simp only [Spec.Metrics.step, keys_ty] at hs
    simp only [exec]
    split at hs
    · rename_i hn
      obtain ⟨rfl, rfl⟩ : Out.code (-3) = o ∧ s = s' := by simpa using hs
      exact ⟨st, by simp [hn, readString], h⟩
    rename_i hn0
    have hlen : (List.replicate n (0xaa : UInt8)).length ≠ 0 := by simpa using hn0
    cases hk : tab[k]? with
    | none =>
      rw [hk] at hs
      obtain ⟨rfl, rfl⟩ : Out.code (-1) = o ∧ s = s' := by simpa using hs
      refine ⟨st, ?_, h⟩
      simp [readString, hn0, findKeyOfType, findValue_none hk]
    | some kv =>
      rw [hk] at hs
      rcases h.cases hk with ⟨hn, w, f, o', h1, h2, h3⟩ | ⟨hn, w, m, total, since, h1, h2, h3⟩ |
        ⟨hn, buf, t', h1, h2, h3⟩
      · have hw : readString tab st k (List.replicate n 0xaa) = some (-1, List.replicate n 0xaa) := by
          unfold readString findKeyOfType
          rw [if_neg hlen, (findValue_num hk hn h1).1]
          rcases hn with hn | hn <;> simp [hn]
        rw [hw]
        refine ⟨st, ?_, ?_⟩
        · rcases hn with hn | hn <;> simp [hn, tyOf] at hs <;> simp [hs]
        · rcases hn with hn | hn <;> simp [hn, tyOf] at hs <;> rw [← hs.2] <;> exact h
      · have hw : readString tab st k (List.replicate n 0xaa) = some (-1, List.replicate n 0xaa) := by
          unfold readString findKeyOfType
          rw [if_neg hlen, (findValue_timer hk hn h1).1]
          simp
        rw [hw]
        refine ⟨st, ?_, ?_⟩
        · simp [hn, tyOf] at hs; simp [hs]
        · simp [hn, tyOf] at hs; rw [← hs.2]; exact h
      · obtain ⟨junk, a, b⟩ := readString_eq h hk hn h2 (List.replicate n 0xaa) hlen
        rw [List.length_replicate] at a b
        simp only [Option.map_some, hn, tyOf, h2, Option.some.injEq, Prod.mk.injEq] at hs
        obtain ⟨rfl, rfl⟩ := hs
        refine ⟨st, ?_, h⟩
        rw [a]
        simp only [Option.bind_some, ne_eq, not_true_eq_false, if_false, cstring_eq b, Option.map_some]
  | updateTimers times =>
    simp only [Spec.Metrics.step, List.length_map] at hs
    split at hs
    · rename_i hc
      obtain ⟨rfl, rfl⟩ := Prod.mk.injEq .. ▸ Option.some.inj hs
      obtain ⟨st', a, b⟩ := timersUpdate_rel h times hc
      exact ⟨st', by simp [exec, a], b⟩
    · cases hs
  | report session time =>
    simp only [Spec.Metrics.step] at hs
    split at hs
    · cases hs
    · rename_i hc
      obtain ⟨rfl, rfl⟩ := Prod.mk.injEq .. ▸ Option.some.inj hs
      obtain ⟨ds, b, -, -, -, b1, b2⟩ := report_rel hd h ht.range ht.length (session := session)
        (by omega) time
      exact ⟨st, by simp [exec, b1, b2], h⟩
  | clear session =>
    simp only [Spec.Metrics.step, keys_session] at hs
    obtain ⟨rfl, rfl⟩ := Prod.mk.injEq .. ▸ Option.some.inj hs
    obtain ⟨st', a, b⟩ := resetSession_rel (session := session) h
    exact ⟨st', by simp [exec, a], b⟩
  | clearAll =>
    simp only [Spec.Metrics.step, List.length_map] at hs
    obtain ⟨rfl, rfl⟩ := Prod.mk.injEq .. ▸ Option.some.inj hs
    exact ⟨_, rfl, resetAll_rel h⟩

theorem run_rel {dev : SerializerHelper.Device} (hd : Spec.Event.DeviceOk dev) {tab : Table}
    (ht : TableOk tab) : ∀ (ops : List Op) {st : State} {s : Spec.Metrics.State} {os : List Out}
      {s' : Spec.Metrics.State}, Rel tab st s →
      Spec.Metrics.run dev (tab.map keyOf) s ops = some (os, s') →
      ∃ st', execAll dev tab st ops = some (os, st') ∧ Rel tab st' s' := by
  intro ops
  induction ops with
  | nil =>
    intro st s os s' h hs
    obtain ⟨rfl, rfl⟩ : [] = os ∧ s = s' := by simpa [Spec.Metrics.run] using hs
    exact ⟨st, rfl, h⟩
  | cons op ops ih =>
    intro st s os s' h hs
    rw [Spec.Metrics.run] at hs
    obtain ⟨⟨o, s1⟩, h1, h2⟩ := Option.bind_eq_some_iff.mp hs
    obtain ⟨⟨os2, s2⟩, h3, h4⟩ := Option.map_eq_some_iff.mp h2
    obtain ⟨rfl, rfl⟩ : o :: os2 = os ∧ s2 = s' := by simpa using h4
    obtain ⟨st1, a1, a2⟩ := step_rel hd ht h h1
    obtain ⟨st2, b1, b2⟩ := ih a2 h3
    exact ⟨st2, by simp [execAll, a1, b1], b2⟩

theorem filter_rank {p : KV → Bool} {tab : Table} {k : Nat} {kv : KV} (h : tab[k]? = some kv)
    (hp : p kv = true) : (tab.filter p)[rank p tab k]? = some kv := by
  have h1 : tab = tab.take (k + 1) ++ tab.drop (k + 1) := (List.take_append_drop _ _).symm
  have h2 : tab.filter p = (tab.take k).filter p ++ kv :: (tab.drop (k + 1)).filter p := by
    have : (tab.take (k + 1) ++ tab.drop (k + 1)).filter p = tab.filter p := by rw [← h1]
    rw [← this, List.filter_append, take_succ_some h, List.filter_append]
    simp [hp]
  have h3 : rank p tab k = ((tab.take k).filter p).length := by
    unfold rank; rw [List.countP_eq_length_filter]
  rw [h2, h3, List.getElem?_append_right (Nat.le_refl _)]
  simp

theorem init_rel (tab : Table) : Rel tab (State.init tab) (Spec.Metrics.init (tab.map keyOf)) := by
  refine ⟨⟨by simp [State.init], by simp [State.init], by simp [State.init, List.countP_eq_length_filter],
    by simp [State.init]⟩, fun k kv hk => ?_⟩
  have hi : Spec.Metrics.init (tab.map keyOf) k = Spec.Metrics.fresh (tyOf kv.type) := by
    unfold Spec.Metrics.init; rw [keys_get, hk]; rfl
  rw [hi]
  unfold view
  rw [hk]
  have hval : kv.isScalar = true → (State.init tab).values[rank KV.isScalar tab k]? = some 0 := by
    intro hs
    have := rank_lt_count hk hs
    simp [State.init, List.getElem?_replicate, this]
  have hflag : kv.isScalar = true → readFlag (State.init tab) (rank KV.isScalar tab k) = some false := by
    intro hs
    have := rank_lt_count hk hs
    rw [readFlag_eq]
    have h2 : rank KV.isScalar tab k / 8 < (tab.countP KV.isScalar + 7) / 8 := by omega
    simp [State.init, List.getElem?_replicate, h2]
  cases hty : kv.type with
  | unsigned =>
    have hs : kv.isScalar = true := by simp [KV.isScalar, hty]
    refine ⟨.num 0 false, by simp only [hty, hval hs, hflag hs, Option.bind_some, Option.map_some], ?_⟩
    exact ⟨.inl ⟨hty, rfl⟩, fun _ => rfl⟩
  | signed =>
    have hs : kv.isScalar = true := by simp [KV.isScalar, hty]
    refine ⟨.num 0 false, by simp only [hty, hval hs, hflag hs, Option.bind_some, Option.map_some], ?_⟩
    exact ⟨.inr ⟨hty, rfl⟩, fun _ => rfl⟩
  | timer =>
    have hs : kv.isScalar = true := by simp [KV.isScalar, hty]
    have hs' : kv.isTimer = true := by simp [KV.isTimer, hty]
    have ht : (State.init tab).timers[rank KV.isTimer tab k]? = some ⟨false, 0⟩ := by
      have := rank_lt_count hk hs'
      simp [State.init, List.getElem?_replicate]; omega
    refine ⟨.timer 0 ⟨false, 0⟩, by simp only [hty, hval hs, ht, Option.bind_some, Option.map_some], ?_⟩
    exact ⟨hty, rfl, rfl, fun t h => by cases h⟩
  | string =>
    have hs : kv.isString = true := by simp [KV.isString, hty]
    refine ⟨.str (List.replicate (kv.range + 1) 0), ?_, ?_⟩
    · simp [hty, State.init, filter_rank hk hs]
    · exact ⟨hty, by simp, by simp, List.replicate kv.range 0, by simp [List.replicate_succ]⟩

end Mflt.Metrics
