import Verif.Lemmas.MetricsStep

/-! # Lemmas: sizes of heartbeats -/

namespace Mflt.Metrics

open Cbor SerializerHelper

/-- The length of a CBOR head. -/
def headLen (v : Nat) : Nat := if v < 24 then 1 else if v ≤ 0xff then 2 else if v ≤ 0xffff then 3 else 5

theorem headBytes_length (m : Nat) (v : BitVec 32) : (headBytes m v).length = headLen v.toNat := by
  unfold headBytes headLen
  simp only
  split
  · rfl
  · split
    · rfl
    · split <;> rfl

theorem headLen_le (v : Nat) : 1 ≤ headLen v ∧ headLen v ≤ 5 := by
  unfold headLen
  split
  · omega
  · split
    · omega
    · split <;> omega

theorem headLen_mono {a b : Nat} (h : a ≤ b) : headLen a ≤ headLen b := by
  unfold headLen
  split <;> split <;> (try split) <;> (try split) <;> (try split) <;> (try split) <;> omega

theorem emit_string {s : Bytes} (h0 : 0 ∉ s) (hl : s.length < 2 ^ 32) :
    (emit (.string s)).length = headLen s.length + s.length := by
  have hc : cstr s = s := Props.cstr_of_no_nul h0
  have hz : ∀ l : Bytes, (nz l).flatten = l := by
    intro l; unfold nz; split <;> simp_all
  simp only [emit, pieces, hc, List.flatten_cons, hz, List.length_append, headBytes_length,
    BitVec.toNat_ofNat, Nat.mod_eq_of_lt hl]

theorem emit_unsigned (v : BitVec 32) : (emit (.unsigned v)).length = headLen v.toNat := by
  simp [emit, pieces, headBytes_length]

theorem emit_signed (v : BitVec 32) : (emit (.signed v)).length ≤ 5 := by
  simp only [emit, pieces, List.flatten_cons, List.flatten_nil, List.append_nil, headBytes_length]
  exact (headLen_le _).2

theorem emit_worst_signed : (emit (.signed 0x80000000#32)).length = 5 := by decide
theorem emit_worst_unsigned : (emit (.unsigned 0xffffffff#32)).length = 5 := by decide
theorem emit_null : (emit .null).length = 1 := by decide

/-- One metric now and when the worst case was computed. -/
theorem datum_size {tab : Table} {st st0 : State} {s s0 : Spec.Metrics.State} (h : Rel tab st s)
    (h0 : Rel tab st0 s0) (hr : ∀ kv ∈ tab, kv.type = .string → kv.range < 2 ^ 31) {k : Nat} (hk : k < tab.length)
    (hs : ∀ t t0, s k = .text t → s0 k = .text t0 → t.length ≤ t0.length) :
    ∃ d d0, datum tab st k = some d ∧ datum tab st0 k = some d0 ∧
      (emit (datumCall false d)).length ≤ (emit (datumCall true d0)).length := by
  have hkv : tab[k]? = some tab[k] := List.getElem?_eq_getElem hk
  have num : ∀ {w : BitVec 32} {f : Bool}, (emit (if (!f && !false) = true then Call.null else
      Call.unsigned (if false = true then 0xffffffff#32 else w))).length ≤ 5 := by
    intro w f
    cases f with
    | false => simp [emit_null]
    | true => simp only [Bool.not_true, Bool.false_and, Bool.false_eq_true, if_false, emit_unsigned]
              exact (headLen_le _).2
  rcases h.cases hkv with ⟨hn, v, f, o, h1, h2, h3⟩ | ⟨hn, v, m, total, since, h1, h2, h3⟩ |
        ⟨hn, buf, t, h1, h2, h3⟩
  · rcases h0.cases hkv with ⟨-, v', f', o', h1', h2', h3'⟩ | ⟨hn', -⟩ | ⟨hn', -⟩
    · obtain ⟨g0, g1, g2⟩ := findValue_num hkv hn h1
      obtain ⟨g0', g1', g2'⟩ := findValue_num hkv hn h1'
      refine ⟨.num tab[k].type v f, .num tab[k].type v' f', by unfold datum; rw [g0]; simp [g1],
        by unfold datum; rw [g0']; simp [g1'], ?_⟩
      rcases hn with hn | hn <;> rw [hn] <;> simp only [datumCall]
      · simp only [Bool.not_true, Bool.and_false, Bool.false_eq_true, if_false, if_true, emit_worst_unsigned]
        exact num
      · simp only [Bool.not_true, Bool.and_false, Bool.false_eq_true, if_false, if_true, emit_worst_signed]
        split
        · simp [emit_null]
        · exact emit_signed _
    · rw [hn'] at hn; simp at hn
    · rw [hn'] at hn; simp at hn
  · rcases h0.cases hkv with ⟨hn', -⟩ | ⟨-, v', m', total', since', h1', h2', h3'⟩ | ⟨hn', -⟩
    · rw [hn] at hn'; simp at hn'
    · obtain ⟨g0, g1, g2⟩ := findValue_timer hkv hn h1
      obtain ⟨g0', g1', g2'⟩ := findValue_timer hkv hn h1'
      refine ⟨.num .timer v false, .num .timer v' false, by unfold datum; rw [g0]; simp [g1],
        by unfold datum; rw [g0']; simp [g1'], ?_⟩
      simp only [datumCall, Bool.false_eq_true, if_false, if_true, emit_worst_unsigned, emit_unsigned]
      exact (headLen_le _).2
    · rw [hn'] at hn; simp at hn
  · rcases h0.cases hkv with ⟨hn', -⟩ | ⟨hn', -⟩ | ⟨-, buf', t', h1', h2', h3'⟩
    · rw [hn] at hn'; simp at hn'
    · rw [hn] at hn'; simp at hn'
    · obtain ⟨g0, g1⟩ := findValue_str hkv hn h1
      obtain ⟨g0', g1'⟩ := findValue_str hkv hn h1'
      obtain ⟨-, q2, q3, junk, rfl⟩ := h3
      obtain ⟨-, q2', q3', junk', rfl⟩ := h3'
      have hrng := hr tab[k] (List.getElem_mem hk) hn
      refine ⟨.str t, .str t', by unfold datum; rw [g0]; simp [g1, cstring_eq q3],
        by unfold datum; rw [g0']; simp [g1', cstring_eq q3'], ?_⟩
      simp only [List.length_append, List.length_cons] at q2 q2'
      have hle := hs t t' h2 h2'
      simp only [datumCall]
      rw [emit_string q3 (by omega), emit_string q3' (by omega)]
      have := headLen_mono hle
      omega

theorem dataOf_size {tab : Table} {st st0 : State} {s s0 : Spec.Metrics.State} (h : Rel tab st s)
    (h0 : Rel tab st0 s0) (hr : ∀ kv ∈ tab, kv.type = .string → kv.range < 2 ^ 31) : ∀ (ks : List Nat),
    (∀ k ∈ ks, k < tab.length) →
    (∀ k ∈ ks, ∀ t t0, s k = .text t → s0 k = .text t0 → t.length ≤ t0.length) →
    ∃ ds ds0, dataOf tab st ks = some ds ∧ dataOf tab st0 ks = some ds0 ∧ ds.length = ds0.length ∧
      (emitAll (ds.map (datumCall false))).length ≤ (emitAll (ds0.map (datumCall true))).length := by
  intro ks
  induction ks with
  | nil => intro _ _; exact ⟨[], [], rfl, rfl, rfl, Nat.le_refl _⟩
  | cons k ks ih =>
    intro hk hs
    obtain ⟨d, d0, a1, a2, a3⟩ := datum_size h h0 hr (hk k (by simp)) (hs k (by simp))
    obtain ⟨ds, ds0, b1, b2, b3, b4⟩ := ih (fun k hk' => hk k (by simp [hk'])) fun k hk' => hs k (by simp [hk'])
    refine ⟨d :: ds, d0 :: ds0, by simp [dataOf, a1, b1], by simp [dataOf, a2, b2], by simp [b3], ?_⟩
    simp only [List.map_cons, Props.emitAll_cons, List.length_append]
    omega

/-- Two capture times, of which the second needs at least as much space. -/
def TimeFits (time time0 : Option Nat) : Prop :=
  time = none ∨ ∃ t0, time0 = some t0 ∧ 65536 ≤ t0 % 2 ^ 32

theorem emitAll_length_append (a b : List Call) :
    (emitAll (a ++ b)).length = (emitAll a).length + (emitAll b).length := by
  simp [emitAll]

theorem eventCalls_size (dev : Device) (type : Nat) {time time0 : Option Nat} (ht : TimeFits time time0)
    {info info0 : List Call} (h : (emitAll info).length ≤ (emitAll info0).length) :
    (emitAll (eventCalls dev type time info)).length ≤
      (emitAll (eventCalls dev type time0 info0)).length := by
  have hp : ∀ t : Option Nat, (emit (.dictionaryBegin (topLevelPairs dev t))).length = 1 := by
    intro t
    simp only [emit, pieces, List.flatten_cons, List.flatten_nil, List.append_nil, headBytes_length]
    unfold topLevelPairs
    cases t <;> cases dev.serial <;> cases dev.buildId <;> rfl
  have h5 : ∀ t, (emit (u32 t)).length ≤ 5 := by
    intro t; unfold u32; rw [emit_unsigned]; exact (headLen_le _).2
  unfold eventCalls metadataCalls
  simp only [List.cons_append, Props.emitAll_cons, emitAll_length_append, List.length_append, hp,
    List.nil_append]
  rcases ht with rfl | ⟨t0, rfl, ht⟩
  · cases time0 <;> simp only [emitAll_length_append] <;> simp [emitAll] at h ⊢ <;> omega
  · have h6 : (emit (u32 t0)).length = 5 := by
      unfold u32
      rw [emit_unsigned, BitVec.toNat_ofNat]
      unfold headLen
      rw [if_neg (by omega), if_neg (by omega), if_neg (by omega)]
    cases time with
    | none => simp [emitAll] at h ⊢; omega
    | some t =>
      have := h5 t
      simp only [Props.emitAll_cons, List.length_append, h6]
      omega

theorem worst_size {dev : SerializerHelper.Device} {tab : Table} {st st0 : State}
    {s s0 : Spec.Metrics.State} (h : Rel tab st s) (h0 : Rel tab st0 s0) (ht : TableOk tab)
    (hd : Spec.Event.DeviceOk dev) {session : Nat} (hses : session < 2 ^ 32)
    {time time0 : Option Nat} (htime : TimeFits time time0)
    (hs : ∀ k, tab[k]?.map KV.session = some session → ∀ t t0, s k = .text t → s0 k = .text t0 →
      t.length ≤ t0.length) :
    ∃ b w, reportBytes tab st dev time session = some b ∧
      worstCaseSize tab st0 dev time0 session = some w ∧ b.length ≤ w := by
  obtain ⟨ds, ds0, a1, a2, a3, a4⟩ := dataOf_size h h0 ht.range (sessionKeys tab session)
    (sessionKeys_lt tab session) (fun k hk => hs k (by
      unfold sessionKeys at hk
      simpa using (List.mem_filter.mp hk).2))
  obtain ⟨ds', b, d1, d2, d3, d4, -⟩ := report_rel hd h ht.range ht.length hses time
  obtain rfl : ds = ds' := by rw [a1] at d1; exact Option.some.inj d1
  have hb : reportBytes tab st dev time session = some (emitAll (eventCalls dev 1 time
      ([.dictionaryBegin 2, u32 2, u32 session, u32 1, .arrayBegin ds.length] ++
        ds.map (datumCall false)))) := by
    unfold reportBytes
    rw [a1]
    simp only [Option.map_some]
    have he : (encodeHeartbeat dev time session false ds : Encoder Unit → _) = fun e => callAll e
        (eventCalls dev 1 time ([.dictionaryBegin 2, u32 2, u32 session, u32 1, .arrayBegin ds.length] ++
        ds.map (datumCall false))) := by
      funext e; exact encodeHeartbeat_eq _ _ _ _ _ e
    rw [he, encodeHeartbeat_eq, callAll_collect]
    rfl
  refine ⟨_, (emitAll (eventCalls dev 1 time0
      ([.dictionaryBegin 2, u32 2, u32 session, u32 1, .arrayBegin ds0.length] ++
        ds0.map (datumCall true)))).length, hb, ?_, ?_⟩
  · unfold worstCaseSize
    rw [a2]
    simp only [Option.map_some, computeSize]
    rw [encodeHeartbeat_eq, callAll_eq_addAll, addAll_sizeOnly _ rfl, emitAll_eq]
    simp [Encoder.initSizeOnly]
  · refine eventCalls_size dev 1 htime ?_
    rw [emitAll_length_append, emitAll_length_append, a3]
    omega

end Mflt.Metrics
