import Verif.Lemmas.Log

/-! # Lemmas for saving into the RAM log -/

namespace Mflt.Log

open Spec.Log (Line Entry total lineSize makeRoom evicted lineOf)

/-- The part of the invariant that evicting changes: `d` lines were dropped so far, `lost` tells that
a sent line was evicted unread. -/
structure Core (cfg : Config) (s : State) (cap : Nat) (es : List Entry) (d : Nat) (lost : Bool) :
    Prop where
  ring : ∃ ro, Ring s.cb ro cap es
  ok : ∀ e ∈ es, LineOk cfg e.line
  drop : s.dropped = d % 2 ^ 32
  pos : lost = false → ∃ rd un, es = rd ++ un ∧ (∀ e ∈ rd, e.read = true) ∧
    (∀ e ∈ un, e.read = false) ∧ s.logReadOffset = total rd

/-- The other fields are the same. -/
structure Same (s s' : State) : Prop where
  minLevel : s'.minLevel = s.minLevel
  recorded : s'.recorded = s.recorded
  lastDropped : s'.lastDropped = s.lastDropped
  trigger : s'.trigger = s.trigger

theorem Same.refl (s : State) : Same s s := ⟨rfl, rfl, rfl, rfl⟩

theorem Same.trans {a b c : State} (h : Same a b) (k : Same b c) : Same a c :=
  ⟨k.1.trans h.1, k.2.trans h.2, k.3.trans h.3, k.4.trans h.4⟩

theorem add32_mod (d : Nat) : add32 (d % 2 ^ 32) 1 = (d + 1) % 2 ^ 32 := by
  unfold add32; omega

theorem freeStep_eq {cfg : Config} (hmax : cfg.maxLine ≤ 255) {s : State} {cap : Nat} {e : Entry}
    {es : List Entry} {d : Nat} {lost : Bool} (hcap : cap < 2 ^ 31 - 8)
    (h : Core cfg s cap (e :: es) d lost) :
    ∃ s', freeStep s = some (lineSize e.line, s') ∧
      Core cfg s' cap es (d + if !e.read && !e.sent then 1 else 0) (lost || (e.sent && !e.read)) ∧
      Same s s' := by
  obtain ⟨ro, hr⟩ := h.ring
  have hle := h.ok e (by simp)
  have hh := (hdr_facts hle).2.2.2.2.1
  have h0 : read32 s.cb 0 2 = some (some [hdrOf e, UInt8.ofNat (body e.line).length]) :=
    Ring.read_hdr (pre := []) hr (by omega)
  have hsz := hr.readSize
  have ht := hr.total_le
  rw [total_cons] at hsz ht
  obtain ⟨cb', c1, c2, c3, c4, c5⟩ := CircBuf.consume_eq hr.inv (lineSize e.line)
  rw [if_pos (by omega)] at c5
  have hring : Ring cb' cb'.readOffset cap es := by
    refine ⟨c2, rfl, by rw [c3, hr.cap], ?_⟩
    rw [c5, hr.contents, encAll_cons, List.drop_left' (enc_length e)]
  have hsp : (UInt8.ofNat (body e.line).length).toNat + 2 = lineSize e.line := by
    rw [len_toNat hmax hle, lineSize_eq]; omega
  unfold freeStep
  simp only [h0, Option.bind_some, Option.getD_some, List.getD_cons_zero, List.getD_cons_succ, hsp,
    c1, Option.map_some]
  by_cases hb : hdrOf e &&& 0xC0 ≠ 0
  · rw [if_pos hb]
    have hrs := hh.mp hb
    refine ⟨_, rfl, ⟨⟨_, hring⟩, fun x hx => h.ok x (by simp [hx]), ?_, ?_⟩, ⟨rfl, rfl, rfl, rfl⟩⟩
    · have : (!e.read && !e.sent) = false := by revert hrs; cases e.read <;> cases e.sent <;> simp
      simp only [this, h.drop]; rfl
    · intro hl
      have hl1 : lost = false := by cases lost <;> simp_all
      have hread : e.read = true := by
        subst hl1; revert hrs hl; cases e.read <;> cases e.sent <;> simp
      obtain ⟨rd, un, p1, p2, p3, p4⟩ := h.pos hl1
      cases rd with
      | nil =>
        simp only [List.nil_append] at p1
        have := p3 e (by rw [← p1]; simp)
        rw [hread] at this; cases this
      | cons x rd =>
        simp only [List.cons_append, List.cons.injEq] at p1
        obtain ⟨rfl, rfl⟩ := p1
        refine ⟨rd, un, rfl, fun y hy => p2 y (by simp [hy]), p3, ?_⟩
        simp only [p4, total_cons]
        rw [total_append] at ht
        rw [sub32_eq (by omega) (by omega)]; omega
  · rw [if_neg hb]
    have hrs : (e.read || e.sent) = false := by
      cases hx : (e.read || e.sent) with
      | false => rfl
      | true => exact absurd (hh.mpr hx) hb
    have hr0 : e.read = false := by revert hrs; cases e.read <;> simp
    have hs0 : e.sent = false := by revert hrs; cases e.sent <;> simp
    refine ⟨_, rfl, ⟨⟨_, hring⟩, fun x hx => h.ok x (by simp [hx]), ?_, ?_⟩, ⟨rfl, rfl, rfl, rfl⟩⟩
    · simp only [h.drop, hr0, hs0, add32_mod]; rfl
    · intro hl
      have hl1 : lost = false := by cases lost <;> simp_all
      obtain ⟨rd, un, p1, p2, p3, p4⟩ := h.pos hl1
      cases rd with
      | nil =>
        simp only [List.nil_append] at p1
        exact ⟨[], es, rfl, by simp, fun y hy => p3 y (by rw [← p1]; simp [hy]), p4⟩
      | cons x rd =>
        simp only [List.cons_append, List.cons.injEq] at p1
        have := p2 x (by simp)
        rw [← p1.1, hr0] at this; cases this

theorem makeRoom_suffix (cap need : Nat) (es : List Entry) :
    es = evicted cap need es ++ makeRoom cap need es := by
  unfold evicted
  induction es with
  | nil => rfl
  | cons e es ih =>
    unfold makeRoom
    split
    · simp
    · have hl : (makeRoom cap need es).length ≤ es.length := by
        conv => rhs; rw [ih]
        simp
      rw [List.length_cons, show es.length + 1 - (makeRoom cap need es).length =
        (es.length - (makeRoom cap need es).length) + 1 by omega, List.take_succ_cons, List.cons_append,
        ← ih]

theorem evicted_cons {cap need : Nat} {e : Entry} {es : List Entry}
    (h : ¬ total (e :: es) + need ≤ cap) :
    evicted cap need (e :: es) = e :: evicted cap need es := by
  have h1 := makeRoom_suffix cap need (e :: es)
  have h2 := makeRoom_suffix cap need es
  have h3 : makeRoom cap need (e :: es) = makeRoom cap need es := by
    rw [makeRoom, if_neg h]
  rw [h3] at h1
  conv at h1 => lhs; rw [h2]
  rw [← List.cons_append] at h1
  exact (List.append_cancel_right h1).symm

theorem makeRoom_fits {cap need : Nat} (h : need ≤ cap) (es : List Entry) :
    total (makeRoom cap need es) + need ≤ cap := by
  induction es with
  | nil => simpa [makeRoom, total] using h
  | cons e es ih =>
    unfold makeRoom
    split <;> assumption

theorem makeRoom_of_fits {cap need : Nat} {es : List Entry} (h : total es + need ≤ cap) :
    makeRoom cap need es = es ∧ evicted cap need es = [] := by
  have : makeRoom cap need es = es := by
    cases es with
    | nil => rfl
    | cons e es => rw [makeRoom, if_pos h]
  exact ⟨this, by unfold evicted; rw [this]; simp⟩

theorem freeLoop_eq {cfg : Config} (hmax : cfg.maxLine ≤ 255) {cap need : Nat}
    (hcap : cap < 2 ^ 31 - 8) (hneed : need ≤ cap) :
    ∀ (es : List Entry) (fuel : Nat) (s : State) (d : Nat) (lost : Bool),
    Core cfg s cap es d lost → cap < total es + need → es.length ≤ fuel →
    ∃ s', freeLoop fuel ((need : Int) - (cap - total es : Int)) s = some (true, s') ∧
      Core cfg s' cap (makeRoom cap need es)
        (d + (evicted cap need es).countP fun e => !e.read && !e.sent)
        (lost || (evicted cap need es).any fun e => e.sent && !e.read) ∧
      Same s s' := by
  intro es
  induction es with
  | nil => intro fuel s d lost h hlt _; simp [total] at hlt; omega
  | cons e es ih =>
    intro fuel s d lost h hlt hf
    obtain ⟨fuel, rfl⟩ : ∃ f, fuel = f + 1 := ⟨fuel - 1, by simp at hf; omega⟩
    obtain ⟨ro, hr⟩ := h.ring
    have hsz := hr.readSize
    have hpos : lineSize e.line ≥ 2 := by rw [lineSize_eq]; omega
    rw [total_cons] at hsz
    obtain ⟨s1, f1, f2, f3⟩ := freeStep_eq hmax hcap h
    unfold freeLoop
    rw [if_neg (by omega)]
    simp only [f1, Option.bind_some]
    have hn : (need : Int) - ((cap : Int) - (total (e :: es) : Nat)) - (lineSize e.line : Nat) =
        (need : Int) - ((cap : Int) - (total es : Nat)) := by rw [total_cons]; omega
    rw [hn]
    have hmr : makeRoom cap need (e :: es) = makeRoom cap need es := by
      rw [makeRoom, if_neg (by omega)]
    rw [hmr, evicted_cons (by omega)]
    by_cases hle : (need : Int) - ((cap : Int) - (total es : Nat)) ≤ 0
    · rw [if_pos hle]
      obtain ⟨m1, m2⟩ := makeRoom_of_fits (cap := cap) (need := need) (es := es) (by omega)
      refine ⟨s1, rfl, ?_, f3⟩
      rw [m1, m2]
      simpa [List.countP_cons, List.any_cons] using f2
    · rw [if_neg hle]
      obtain ⟨s2, g1, g2, g3⟩ := ih fuel s1 _ _ f2 (by omega) (by simp at hf; omega)
      refine ⟨s2, g1, ?_, f3.trans g3⟩
      rw [List.countP_cons, List.any_cons]
      have e1 : d + ((evicted cap need es).countP (fun e => !e.read && !e.sent) +
          if (!e.read && !e.sent) = true then 1 else 0) =
          (d + if (!e.read && !e.sent) = true then 1 else 0) +
            (evicted cap need es).countP (fun e => !e.read && !e.sent) := by omega
      rw [e1, ← Bool.or_assoc]
      exact g2

theorem tryFreeSpace_eq {cfg : Config} (hmax : cfg.maxLine ≤ 255) {s : State} {cap need : Nat}
    {es : List Entry} {d : Nat} {lost : Bool} (hcap : cap < 2 ^ 31 - 8)
    (h : Core cfg s cap es d lost) :
    (total es + need ≤ cap → tryFreeSpace cfg s need = some (true, s)) ∧
    (¬ total es + need ≤ cap →
      (cap < need ∨ (cfg.dataSource && s.trigger.triggered) = true) →
      tryFreeSpace cfg s need = some (false, s)) ∧
    (¬ total es + need ≤ cap → need ≤ cap → (cfg.dataSource && s.trigger.triggered) = false →
      ∃ s', tryFreeSpace cfg s need = some (true, s') ∧
        Core cfg s' cap (makeRoom cap need es)
          (d + (evicted cap need es).countP fun e => !e.read && !e.sent)
          (lost || (evicted cap need es).any fun e => e.sent && !e.read) ∧
        Same s s') := by
  obtain ⟨ro, hr⟩ := h.ring
  have hsz := hr.readSize
  have ht := hr.total_le
  have hw : (s.cb.getWriteSize : Int) = (cap : Int) - (total es : Nat) := by
    unfold CircBuf.getWriteSize; rw [hr.cap, hsz]; omega
  have hrd : s.cb.getReadSize = total es := hsz
  unfold tryFreeSpace
  simp only [hw, hrd]
  refine ⟨fun h1 => by rw [if_pos (by omega)], fun h1 h2 => ?_, fun h1 h2 h3 => ?_⟩
  · rw [if_neg (by omega)]
    by_cases hc : (need : Int) - ((cap : Int) - (total es : Nat)) > (total es : Nat)
    · rw [if_pos hc]
    · rw [if_neg hc]
      rcases h2 with h2 | h2
      · omega
      · rw [if_pos h2]
  · rw [if_neg (by omega), if_neg (by omega), if_neg (by simp [h3])]
    exact freeLoop_eq hmax hcap h2 es _ s d lost h (by omega) (length_le_total es)

theorem body_lineOf (cfg : Config) (level type : Nat) (text : Bytes) (now : Option Nat) :
    body (lineOf cfg level type text now) =
      (match (if cfg.timestamps then now else none) with
        | some t => le32 t ++ text.take (cfg.maxLine - 4)
        | none => text.take cfg.maxLine) := by
  rw [body_eq]; unfold lineOf
  have hle : ∀ t : Nat, le32 (t % 2 ^ 32) = le32 t := by
    intro t
    unfold le32
    rw [show t % 2 ^ 32 % 256 = t % 256 by omega, show t % 2 ^ 32 / 256 % 256 = t / 256 % 256 by omega,
      show t % 2 ^ 32 / 65536 % 256 = t / 65536 % 256 by omega,
      show t % 2 ^ 32 / 16777216 % 256 = t / 16777216 % 256 by omega]
  cases cfg.timestamps <;> cases now <;> simp [hle]

theorem length_stored {maxLine : Nat} (hmin : 4 ≤ maxLine) (text : Bytes) (ts : Option Nat) :
    min text.length (maxLine - if ts.isSome then 4 else 0) + (if ts.isSome then 4 else 0) =
      (match ts with
        | some t => le32 t ++ text.take (maxLine - 4)
        | none => text.take maxLine : Bytes).length := by
  cases ts with
  | none => simp only [Option.isSome_none, Bool.false_eq_true, if_false, List.length_take]; omega
  | some t =>
    simp only [Option.isSome_some, if_true, List.length_append, le32_length, List.length_take]; omega

theorem lineOk_lineOf {cfg : Config} (hmin : 4 ≤ cfg.maxLine) {level type : Nat} (hl : level < 8)
    (ht : type < 2) (text : Bytes) (now : Option Nat) :
    LineOk cfg (lineOf cfg level type text now) := by
  refine ⟨?_, ?_, ?_, ?_, ?_⟩
  · unfold lineOf; split <;> exact hl
  · unfold lineOf; split <;> exact ht
  · rw [body_lineOf]
    split
    · simp only [List.length_append, le32_length, List.length_take]; omega
    · simp only [List.length_take]; omega
  · unfold lineOf
    split
    · rename_i h; intro _; exact h.1
    · simp
  · unfold lineOf
    split
    · intro t h
      cases now with
      | none => simp at h
      | some n => simp at h; omega
    · simp

/-- Appending a line for which there is room. -/
theorem writeEntry_eq {cfg : Config} (hmin : 4 ≤ cfg.maxLine) (hmax : cfg.maxLine ≤ 255) {s : State}
    {cap level type : Nat} (text : Bytes) (now : Option Nat)
    {es : List Entry} {d : Nat} {lost : Bool} (hl : level < 8) (ht : type < 2)
    (h : Core cfg s cap es d lost)
    (hfit : total es + lineSize (lineOf cfg level type text now) ≤ cap) :
    let ts := if cfg.timestamps then now else none
    let tsLen := if ts.isSome then 4 else 0
    let truncated := min text.length (cfg.maxLine - tsLen)
    ∃ s', writeEntry s (buildHeader level type ts.isSome) ((truncated + tsLen) % 256) ts
        (text.take truncated) = some s' ∧
      Core cfg s' cap (es ++ [⟨lineOf cfg level type text now, false, false⟩]) d lost ∧
      s'.minLevel = s.minLevel ∧ s'.recorded = add32 s.recorded 1 ∧ s'.lastDropped = s.lastDropped ∧
      s'.trigger = s.trigger := by
  obtain ⟨ro, hr⟩ := h.ring
  have hok := lineOk_lineOf hmin hl ht text now
  have hbody := body_lineOf cfg level type text now
  have hts : (lineOf cfg level type text now).timestamp.isSome =
      (if cfg.timestamps then now else none).isSome := by
    unfold lineOf; cases cfg.timestamps <;> cases now <;> simp
  have hlev : (lineOf cfg level type text now).level = level := by unfold lineOf; split <;> rfl
  have htyp : (lineOf cfg level type text now).type = type := by unfold lineOf; split <;> rfl
  have hhdr := (hdr_facts (e := ⟨lineOf cfg level type text now, false, false⟩) hok).2.2.2.2.2.2.2
  simp only [hlev, htyp, hts] at hhdr
  intro ts tsLen truncated
  obtain ⟨L, hL⟩ : ∃ L, L = lineOf cfg level type text now := ⟨_, rfl⟩
  rw [← hL] at hbody hhdr hfit hok ⊢
  have hblen := hok.len
  have htot : (truncated + tsLen) % 256 = (body L).length := by
    have : truncated + tsLen = (body L).length := by
      rw [hbody]
      exact length_stored hmin text ts
    rw [this]; omega
  have hsz := hr.readSize
  rw [lineSize_eq] at hfit
  unfold writeEntry
  rw [htot, hhdr]
  obtain ⟨c1, a1, a2, a3, a4, a5⟩ := CircBuf.write_eq hr.inv
    [hdrOf ⟨L, false, false⟩, UInt8.ofNat (body L).length]
  rw [if_pos (by rw [hr.cap, hsz]; simp only [List.length_cons, List.length_nil]; omega)] at a5
  have hs1 : c1.readSize = total es + 2 := by
    rw [← CircBuf.length_contents, a5, hr.contents, List.length_append, encAll_length]; rfl
  have htake : ∀ k, text.take (min text.length k) = text.take k := by
    intro k; rw [List.take_eq_take_iff]; omega
  -- both cases end in a buffer with the whole entry
  have fin : ∀ c3 : CircBuf, c3.Inv → c3.totalSpace = cap →
      c3.contents = encAll es ++ enc ⟨L, false, false⟩ →
      Core cfg { s with recorded := add32 s.recorded 1, cb := c3 } cap
        (es ++ [⟨L, false, false⟩]) d lost := by
    intro c3 b1 b2 b3
    refine ⟨⟨c3.readOffset, b1, rfl, b2, ?_⟩, ?_, h.drop, ?_⟩
    · rw [b3, encAll_append]; simp [encAll]
    · intro e he
      rcases List.mem_append.mp he with he | he
      · exact h.ok e he
      · simp only [List.mem_singleton] at he; subst he; exact hok
    · intro hl
      obtain ⟨rd, un, p1, p2, p3, p4⟩ := h.pos hl
      refine ⟨rd, un ++ [⟨L, false, false⟩], by rw [p1, List.append_assoc], p2, ?_, p4⟩
      intro e he
      rcases List.mem_append.mp he with he | he
      · exact p3 e he
      · simp only [List.mem_singleton] at he; subst he; rfl
  simp only [a1, Option.bind_some]
  cases hcase : ts with
  | none =>
    have hb : body L = text.take truncated := by
      simp only [ts] at hcase
      rw [hbody, hcase]
      simp [truncated, tsLen, ts, hcase, htake]
    simp only [Option.bind_some]
    obtain ⟨c3, b1, b2, b3, b4, b5⟩ := CircBuf.write_eq a2 (text.take truncated)
    rw [if_pos (by rw [hs1, a3, hr.cap, ← hb]; omega)] at b5
    rw [b1]
    refine ⟨_, rfl, fin c3 b2 (by rw [b3, a3, hr.cap]) ?_, rfl, rfl, rfl, rfl⟩
    rw [b5, a5, hr.contents, ← hb]; simp [enc]
  | some t =>
    have hb : body L = le32 t ++ text.take truncated := by
      simp only [ts] at hcase
      rw [hbody, hcase]
      simp [truncated, tsLen, ts, hcase, htake]
    have hbl : (body L).length = 4 + (text.take truncated).length := by
      rw [hb, List.length_append, le32_length]
    obtain ⟨c2, q1, q2, q3, q4, q5⟩ := CircBuf.write_eq a2 (le32 t)
    rw [if_pos (by rw [hs1, a3, hr.cap, le32_length]; omega)] at q5
    simp only [q1, Option.bind_some]
    have hs2 : c2.readSize = total es + 6 := by
      rw [← CircBuf.length_contents, q5, List.length_append, CircBuf.length_contents, hs1, le32_length]
    obtain ⟨c3, b1, b2, b3, b4, b5⟩ := CircBuf.write_eq q2 (text.take truncated)
    rw [if_pos (by rw [hs2, q3, a3, hr.cap]; omega)] at b5
    rw [b1]
    refine ⟨_, rfl, fin c3 b2 (by rw [b3, q3, a3, hr.cap]) ?_, rfl, rfl, rfl, rfl⟩
    rw [b5, q5, a5, hr.contents]; simp [enc, hb]

theorem write_readOffset {cb : CircBuf} (h : cb.Inv) {d : Bytes} {r : Bool × CircBuf}
    (hw : cb.write d = some r) : r.2.Inv ∧ r.2.readOffset = cb.readOffset := by
  obtain ⟨c, a1, a2, a3, a4, a5⟩ := CircBuf.write_eq h d
  rw [a1] at hw
  simp only [Option.some.injEq] at hw
  subst hw
  exact ⟨a2, a4⟩

theorem writeEntry_readOffset {cfg : Config} {s s' : State} {cap : Nat} {es : List Entry} {d : Nat}
    {lost : Bool} (h : Core cfg s cap es d lost) {hdr : UInt8} {n : Nat} {ts : Option Nat} {msg : Bytes}
    (hw : writeEntry s hdr n ts msg = some s') : s'.cb.readOffset = s.cb.readOffset := by
  obtain ⟨ro, hr⟩ := h.ring
  unfold writeEntry at hw
  simp only [Option.bind_eq_some_iff, Option.map_eq_some_iff] at hw
  obtain ⟨w1, a1, w2, a2, w3, a3, rfl⟩ := hw
  obtain ⟨b1, b2⟩ := write_readOffset hr.inv a1
  have : w2.2.Inv ∧ w2.2.readOffset = w1.2.readOffset := by
    cases ts with
    | none =>
      simp only [Option.some.injEq] at a2
      subst a2; exact ⟨b1, rfl⟩
    | some t => exact write_readOffset b1 a2
  obtain ⟨c1, c2⟩ := write_readOffset this.1 a3
  simp only [c2, this.2, b2]

end Mflt.Log
