import Verif.Props.Base64
import Verif.Props.DataExport
import Verif.Props.Packetizer
import Verif.Spec.Particle

/-! # C113: chunks published by the Particle port -/

namespace Mflt.Props

open Particle Spec.Particle
open Packetizer (Config Src)
open Spec.Packetizer (deliveredFrom Transfer IsMessage pick)
open WifiMetrics (SysEvent Cloud)

namespace ParticleM

theorem string_eq (l r : Bytes) (h : (0 : UInt8) ∉ l) : DataExport.stringOf (l ++ 0 :: r) = some l := by
  unfold DataExport.stringOf
  rw [if_pos (by simp)]
  congr 1
  induction l with
  | nil => simp
  | cons a l ih =>
    simp only [List.mem_cons, not_or] at h
    rw [List.cons_append, List.takeWhile_cons, ih h.2]
    simp [Ne.symm h.1]

theorem textOf_eq (max : Nat) (block : Bytes) (len : Nat) (hb : block.length = max + 1) (hm : max < 2 ^ 30)
    (hl : len ≤ 3 * max / 4) (h4 : max % 4 ≤ 1) :
    ∃ text, textOf max block len = some text ∧ Spec.Base64.decode text = some (block.take len) ∧
      text.length ≤ max := by
  have he : Base64.encodeLen len ≤ max := by
    unfold Base64.encodeLen
    have h1 : 3 * max / 4 = 3 * (max / 4) := by omega
    have h2 : (len + 2) / 3 ≤ max / 4 := by omega
    omega
  have hlen : (Spec.Base64.encode (block.take len)).length = Base64.encodeLen len := by
    rw [(C07_base64_encode (block.take len) (List.replicate (Base64.encodeLen len) 0) (by simp; unfold Base64.encodeLen; omega)).2]
    rw [List.length_take, Nat.min_eq_left (by omega)]
  refine ⟨Spec.Base64.encode (block.take len), ?_, C07_base64_roundtrip _, by omega⟩
  unfold textOf
  simp only
  rw [if_neg (by omega), C08_base64_inplace block len (by omega) (by omega) (by omega)]
  obtain ⟨x, r, hr⟩ : ∃ x r, block.drop (Base64.encodeLen len) = x :: r := by
    cases hd : block.drop (Base64.encodeLen len) with
    | nil =>
      have := congrArg List.length hd
      rw [List.length_drop, List.length_nil] at this
      omega
    | cons x r => exact ⟨x, r, rfl⟩
  rw [hr]
  simp only
  have hc : memcpyIn (Spec.Base64.encode (block.take len) ++ x :: r) (Base64.encodeLen len) [0] =
      some (Spec.Base64.encode (block.take len) ++ 0 :: r) := by
    rw [← hlen]
    unfold memcpyIn
    rw [if_pos (by simp), List.take_left, ← List.drop_drop, List.drop_left]
    simp
  rw [hc]
  exact string_eq _ _ (encode_no_nul _)

theorem carries_snoc {cfg : Config} {g : List Bytes} {src : Src} {m message : Bytes}
    (h1 : IsMessage cfg src m message) (h2 : Spec.Chunk.reassemble g = some message) :
    ∀ {gs : List (List Bytes)} {ms : List (Src × Bytes)}, Carries cfg gs ms →
      Carries cfg (gs ++ [g]) (ms ++ [(src, m)]) := by
  intro gs
  induction gs with
  | nil =>
    intro ms h
    cases ms with
    | nil => exact ⟨⟨message, h1, h2⟩, trivial⟩
    | cons _ _ => exact h.elim
  | cons g' gs ih =>
    intro ms h
    cases ms with
    | nil => exact h.elim
    | cons p ms =>
      obtain ⟨src', m'⟩ := p
      exact ⟨h.1, ih h.2⟩

/-- What is known of the transfer in progress. -/
def CurInv (cfg : Config) (S : Spec.Packetizer.State) (rest : List Bytes) : Option Transfer → Prop
  | none => rest = []
  | some t => t.multi = false ∧ rest = t.pieces ∧
      ∃ m q, S.queue t.src = m :: q ∧ IsMessage cfg t.src m t.message

/-- The chunks handed out so far. -/
def Inv (cfg : Config) (S : Spec.Packetizer.State) (chunks : List Bytes) : Prop :=
  S.mask = 0x1E ∧ ∃ groups rest, chunks = groups.flatten ++ rest ∧ Carries cfg groups S.delivered ∧
    CurInv cfg S rest S.cur

theorem chunk_step {cfg : Config} (hkey : (cfg.key.getD []).length < 2 ^ 30) {pk : Packetizer.State}
    {S : Spec.Packetizer.State} (h : Rel cfg pk S) {chunks : List Bytes} (hi : Inv cfg S chunks)
    (have' : (S.cur.isSome || (pick S).isSome) = true) (buf : Bytes) (h9 : 9 ≤ buf.length) :
    ∃ b len pk' S', Packetizer.getChunk cfg pk buf = some (true, b, len, pk') ∧ b.length = buf.length ∧
      len ≤ buf.length ∧ Rel cfg pk' S' ∧ Inv cfg S' (chunks ++ [b.take len]) ∧
      ∀ src, deliveredFrom src S'.delivered ++ S'.queue src = deliveredFrom src S.delivered ++ S.queue src := by
  obtain ⟨o1, s1, S1, h1, h2, h3, -⟩ := begin_refines hkey h false
  -- after the beginning there is a transfer
  obtain ⟨t, hok, hc, hi1, hd⟩ : ∃ t, o1.ok = true ∧ S1.cur = some t ∧ Inv cfg S1 chunks ∧
      (∀ src, deliveredFrom src S1.delivered ++ S1.queue src = deliveredFrom src S.delivered ++ S.queue src) := by
    cases h2 with
    | nothing h4 h5 => rw [h4, h5] at have'; simp at have'
    | start src m rest message h4 h5 h6 h7 =>
      refine ⟨⟨src, message, false, []⟩, rfl, rfl, ?_, fun _ => rfl⟩
      obtain ⟨hm, groups, r, e1, e2, e3⟩ := hi
      rw [h4] at e3
      exact ⟨hm, groups, r, e1, e2, rfl, e3, m, rest, h6, h7⟩
    | resume t' h4 => exact ⟨t', rfl, h4, hi, fun _ => rfl⟩
  obtain ⟨o, s2, S2, h4, h5, h6⟩ := next_refines h3 buf
  have hg : Packetizer.getChunk cfg pk buf = some (decide (o.status = .endOfChunk), o.buf, o.len, s2) := by
    unfold Packetizer.getChunk
    rw [h1, Option.bind_some]
    simp only [hok, Bool.not_true, Bool.false_eq_true, if_false]
    rw [h4, Option.map_some]
  obtain ⟨hm, groups, rest, e1, e2, e3⟩ := hi1
  rw [hc] at e3
  obtain ⟨c1, c2, m0, q0, c3, c4⟩ := e3
  cases h5 with
  | idle _ h7 => rw [hc] at h7; cases h7
  | small _ _ h7 h8 => omega
  | more t' _ buf' len h7 h8 h9' h10 h11 h12 =>
    obtain rfl : t = t' := by rw [hc] at h7; injection h7
    simp only [c1, Bool.false_eq_true, if_false, decide_true] at hg h6
    refine ⟨buf', len, s2, _, hg, h9', h11, h6, ⟨hm, groups, rest ++ [buf'.take len], ?_, e2, ?_⟩, hd⟩
    · rw [e1, List.append_assoc]
    · exact ⟨rfl, by rw [c2], m0, q0, c3, c4⟩
  | last t' _ buf' len m q h7 h8 h9' h10 h11 h12 h13 =>
    obtain rfl : t = t' := by rw [hc] at h7; injection h7
    simp only [decide_true] at hg
    unfold Spec.Packetizer.received at h12
    rw [c1] at h12
    simp only [Bool.false_eq_true, if_false] at h12
    obtain ⟨rfl, rfl⟩ : m0 = m ∧ q0 = q := by
      rw [c3] at h13; injection h13 with x y; exact ⟨x, y⟩
    refine ⟨buf', len, s2, _, hg, h9', h11, h6, ⟨hm, groups ++ [rest ++ [buf'.take len]], [], ?_, ?_, rfl⟩, ?_⟩
    · rw [e1]; simp
    · exact carries_snoc c4 (by rw [c2]; exact h12) e2
    · intro src
      rw [← hd src]
      by_cases hx : src = t.src
      · subst hx; simp [deliveredFrom, c3]
      · have : ¬ t.src = src := fun h => hx h.symm
        simp [deliveredFrom, hx, this]

/-- What holds between the port and the packetizer's specification. -/
structure Good (cfg : Config) (s : Sys) (S : Spec.Packetizer.State) (chunks : List Bytes) : Prop where
  rel : Rel cfg s.pk S
  inv : Inv cfg S chunks

/-- A call of `process` is due. -/
def due (s : Sys) (c : Call) : Prop :=
  s.connected = true ∧ ¬ (millis c.t1 + 2 ^ 32 - s.last) % 2 ^ 32 < 1000

instance (s : Sys) (c : Call) : Decidable (due s c) := by unfold due; infer_instance

theorem due_of {s : Sys} {c : Call} {t : Nat} (h1 : s.connected = true) (h2 : s.last = t % 2 ^ 32) (h3 : t ≤ c.t1)
    (h4 : 1000 ≤ (c.t1 - t) % 2 ^ 32) : due s c := by
  refine ⟨h1, ?_⟩
  rw [h2]; unfold millis; omega

theorem process_idle {cfg : Config} {s : Sys} {c : Call} (h : ¬ due s c) : process cfg s c = some ([], s) := by
  unfold process
  by_cases hc : s.connected = true
  · rw [if_neg (by simp [hc])]
    have : (millis c.t1 + 2 ^ 32 - s.last) % 2 ^ 32 < 1000 := by
      unfold due at h; simp only [hc, true_and, Decidable.not_not] at h; exact h
    rw [if_pos this]
  · rw [if_pos hc]

theorem step_process (cfg : Config) (s : Sys) (c : Call) : step cfg s (.process c) = process cfg s c := by
  rw [step]

theorem step_up (cfg : Config) (s : Sys) :
    step cfg s (.event (.cloud .connected)) = some ([], { s with connected := true }) := by
  simp only [step, WifiMetrics.cloudConnected, decide_true]

theorem run_cons {cfg : Config} {s s1 : Sys} {a : Act} {ps : List Published} (as : List Act)
    (h : step cfg s a = some (ps, s1)) :
    run cfg s (a :: as) = (run cfg s1 as).map fun r => (ps ++ r.1, r.2) := by
  rw [run, h]
  simp only
  cases run cfg s1 as <;> rfl

theorem run_two {cfg : Config} {s s1 : Sys} {c : Call} {ps : List Published}
    (h : process cfg { s with connected := true } c = some (ps, s1)) :
    run cfg s [.event (.cloud .connected), .process c] = some (ps, s1) := by
  rw [← step_process] at h
  rw [run_cons _ (step_up cfg s), run_cons _ h, run]
  simp only [Option.map_some, List.append_nil, List.nil_append]

theorem process_due {cfg : Config} (hkey : (cfg.key.getD []).length < 2 ^ 30) {s : Sys}
    {S : Spec.Packetizer.State} {chunks : List Bytes} (h : Good cfg s S chunks) {c : Call} (hu : Usable c)
    (hd : due s c) :
    ∃ ps s' S' new, process cfg s c = some (ps, s') ∧ Good cfg s' S' (chunks ++ new) ∧
      s'.connected = s.connected ∧ s'.last = c.t2 % 2 ^ 32 ∧
      (∀ src, deliveredFrom src S'.delivered ++ S'.queue src = deliveredFrom src S.delivered ++ S.queue src) ∧
      ps.map (fun p => Spec.Base64.decode p.text) = new.map some ∧
      (∀ p ∈ ps, p.text.length ≤ c.max ∧ p.time = c.t2 ∧ p.limit = c.max ∧ p.ok = c.ok) ∧
      ps.length = if (S.cur.isSome || (pick S).isSome) = true ∧ c.heap ≠ none then 1 else 0 := by
  obtain ⟨u1, u2, u3, u4⟩ := hu
  obtain ⟨o, pk1, S1, e1, e2, e3⟩ := step_refines' hkey h.rel .dataAvailable (by intro _ _ h; cases h)
  cases e2 with
  | dataAvailable =>
  unfold Packetizer.step at e1
  obtain ⟨⟨av, pk'⟩, a1, a2⟩ := Option.map_eq_some_iff.mp e1
  obtain ⟨rfl, rfl⟩ : av = (S.cur.isSome || (pick S).isSome) ∧ pk' = pk1 := by
    simp only [Prod.mk.injEq, Spec.Packetizer.Out.avail.injEq] at a2; exact a2
  unfold process
  rw [if_neg (by simp [hd.1]), if_neg hd.2]
  simp only
  rw [a1]
  cases hav : (S.cur.isSome || (pick S).isSome) with
  | false =>
    exact ⟨[], _, S, [], rfl, ⟨e3, by simpa using h.inv⟩, rfl, rfl, fun _ => rfl, rfl, by simp, by simp⟩
  | true =>
    simp only
    cases hh : c.heap with
    | none =>
      exact ⟨[], _, S, [], rfl, ⟨e3, by simpa using h.inv⟩, rfl, rfl, fun _ => rfl, rfl, by simp, by simp⟩
    | some block =>
      have hbl := u4 block hh
      have htl : (block.take (3 * c.max / 4)).length = 3 * c.max / 4 := by
        rw [List.length_take, Nat.min_eq_left (by omega)]
      obtain ⟨b, len, pk2, S2, g1, g2, g3, g4, g5, g6⟩ :=
        chunk_step hkey e3 h.inv hav (block.take (3 * c.max / 4)) (by rw [htl]; omega)
      rw [htl] at g2 g3
      simp only
      rw [g1]
      simp only
      obtain ⟨text, t1, t2, t3⟩ := textOf_eq c.max (b ++ block.drop (3 * c.max / 4)) len
        (by rw [List.length_append, List.length_drop, g2]; omega) u2 g3 u3
      rw [t1]
      have htake : (b ++ block.drop (3 * c.max / 4)).take len = b.take len := by
        rw [List.take_append_of_le_length (by omega)]
      rw [htake] at t2
      exact ⟨_, _, S2, [b.take len], rfl, ⟨g4, g5⟩, rfl, rfl, g6, by simp [t2], by simp [t3], by simp⟩

theorem enqueue_good {cfg : Config} (hkey : (cfg.key.getD []).length < 2 ^ 30) {s : Sys}
    {S : Spec.Packetizer.State} {chunks : List Bytes} (h : Good cfg s S chunks) (src : Src) (m : Bytes)
    (hm : m.length < 2 ^ 30) :
    ∃ s', step cfg s (.enqueue src m) = some ([], s') ∧ s'.connected = s.connected ∧ s'.last = s.last ∧
      Good cfg s' { S with queue := fun x => if x = src then S.queue x ++ [m] else S.queue x } chunks := by
  obtain ⟨o, pk1, S1, e1, e2, e3⟩ := step_refines' hkey h.rel (.enqueue src m) (by
    intro _ _ h; injection h with a b; subst b; exact hm)
  cases e2 with
  | enqueue =>
  refine ⟨_, rfl, rfl, rfl, ?_, ?_⟩
  · simp only [Packetizer.step, Option.some.injEq, Prod.mk.injEq] at e1
    rw [← e1.2] at e3
    exact e3
  · obtain ⟨i1, groups, rest, i2, i3, i4⟩ := h.inv
    refine ⟨i1, groups, rest, i2, i3, ?_⟩
    cases hc : S.cur with
    | none => rw [hc] at i4; exact i4
    | some t =>
      rw [hc] at i4
      obtain ⟨c1, c2, m0, q0, c3, c4⟩ := i4
      refine ⟨c1, c2, m0, if t.src = src then q0 ++ [m] else q0, ?_, c4⟩
      by_cases hx : t.src = src
      · simp [hx] at c3 ⊢; simp [c3]
      · simp [hx, c3]

theorem boot_good (cfg : Config) : Good cfg .boot Spec.Packetizer.init [] :=
  ⟨boot_rel cfg, rfl, [], [], rfl, trivial, rfl⟩

theorem run_good {cfg : Config} (hkey : (cfg.key.getD []).length < 2 ^ 30) (as : List Act) :
    ∀ {s : Sys} {S : Spec.Packetizer.State} {chunks : List Bytes}, Good cfg s S chunks →
      (∀ c ∈ calls as, Usable c) → (∀ src m, Act.enqueue src m ∈ as → m.length < 2 ^ 30) →
      ∃ ps s' S' new, run cfg s as = some (ps, s') ∧ Good cfg s' S' (chunks ++ new) ∧
        (∀ src, deliveredFrom src S'.delivered ++ S'.queue src =
          deliveredFrom src S.delivered ++ S.queue src ++ given src as) ∧
        ps.map (fun p => Spec.Base64.decode p.text) = new.map some ∧
        (∀ p ∈ ps, p.text.length ≤ p.limit ∧ ∃ c ∈ calls as, p.limit = c.max) ∧
        (s'.last = s.last ∨ ∃ c ∈ calls as, s'.last = c.t2 % 2 ^ 32) := by
  induction as with
  | nil =>
    intro s S chunks h _ _
    exact ⟨[], s, S, [], rfl, by simpa using h, by simp [given], rfl, by simp, Or.inl rfl⟩
  | cons a as ih =>
    intro s S chunks h hu hm
    have hm' : ∀ src m, Act.enqueue src m ∈ as → m.length < 2 ^ 30 := fun src m x => hm src m (by simp [x])
    cases a with
    | enqueue src m =>
      obtain ⟨s1, e1, -, e4, e2⟩ := enqueue_good hkey h src m (hm src m (by simp))
      obtain ⟨ps, s', S', new, i1, i2, i3, i4, i5, i6⟩ := ih e2 hu hm'
      refine ⟨ps, s', S', new, by simp [run, e1, i1], i2, ?_, i4, i5, by rw [← e4]; exact i6⟩
      intro x
      rw [i3 x]
      by_cases hx : x = src
      · subst hx; simp [given]
      · have : ¬ src = x := fun y => hx y.symm
        simp [given, hx, this]
    | event e =>
      obtain ⟨ps, s', S', new, i1, i2, i3, i4, i5, i6⟩ :=
        ih (s := { s with connected := WifiMetrics.cloudConnected s.connected e }) ⟨h.rel, h.inv⟩ hu hm'
      exact ⟨ps, s', S', new, by simp [run, step, i1], i2, i3, i4, i5, i6⟩
    | process c =>
      have hc : Usable c := hu c (by simp [calls])
      have hu' : ∀ d ∈ calls as, Usable d := fun d hd => hu d (by simp [calls, hd])
      by_cases hd : due s c
      · obtain ⟨ps, s1, S1, new, p1, p2, p3, p4, p5, p6, p7, p8⟩ := process_due hkey h hc hd
        obtain ⟨qs, s', S', new', i1, i2, i3, i4, i5, i6⟩ := ih p2 hu' hm'
        refine ⟨ps ++ qs, s', S', new ++ new', by simp [run, step, p1, i1],
          by rw [← List.append_assoc]; exact i2, ?_, by simp [p6, i4], ?_, ?_⟩
        · intro x; rw [i3 x, p5 x]; rfl
        · intro p hp
          rcases List.mem_append.mp hp with hp | hp
          · obtain ⟨x1, -, x2, -⟩ := p7 p hp
            exact ⟨by omega, c, by simp [calls], x2⟩
          · obtain ⟨x1, d, x2, x3⟩ := i5 p hp
            exact ⟨x1, d, by simp [calls, x2], x3⟩
        · rcases i6 with i6 | ⟨d, x1, x2⟩
          · exact Or.inr ⟨c, by simp [calls], by rw [i6, p4]⟩
          · exact Or.inr ⟨d, by simp [calls, x1], x2⟩
      · obtain ⟨qs, s', S', new', i1, i2, i3, i4, i5, i6⟩ := ih h hu' hm'
        refine ⟨qs, s', S', new', by simp [run, step, process_idle hd, i1], i2, i3, i4, ?_, ?_⟩
        · intro p hp
          obtain ⟨x1, d, x2, x3⟩ := i5 p hp
          exact ⟨x1, d, by simp [calls, x2], x3⟩
        · rcases i6 with i6 | ⟨d, x1, x2⟩
          · exact Or.inl i6
          · exact Or.inr ⟨d, by simp [calls, x1], x2⟩

theorem run_append {cfg : Config} (as bs : List Act) : ∀ {s s' : Sys} {ps : List Published},
    run cfg s as = some (ps, s') → run cfg s (as ++ bs) = (run cfg s' bs).map fun r => (ps ++ r.1, r.2) := by
  induction as with
  | nil =>
    intro s s' ps h
    simp only [run, Option.some.injEq, Prod.mk.injEq] at h
    obtain ⟨rfl, rfl⟩ := h
    simp
  | cons a as ih =>
    intro s s' ps h
    simp only [run, List.cons_append] at h ⊢
    cases hs : step cfg s a with
    | none => rw [hs] at h; cases h
    | some p =>
      obtain ⟨p1, s1⟩ := p
      rw [hs] at h
      simp only at h ⊢
      cases hr : run cfg s1 as with
      | none => rw [hr] at h; cases h
      | some q =>
        obtain ⟨q1, s2⟩ := q
        rw [hr] at h
        simp only [Option.some.injEq, Prod.mk.injEq] at h
        obtain ⟨rfl, rfl⟩ := h
        rw [ih hr]
        cases run cfg s2 bs with
        | none => rfl
        | some r => simp

theorem pick_some {S : Spec.Packetizer.State} (hm : S.mask = 0x1E) {src : Src} (hq : S.queue src ≠ []) :
    (pick S).isSome = true := by
  unfold pick
  rw [List.find?_isSome]
  refine ⟨src, by cases src <;> simp, ?_⟩
  unfold Spec.Packetizer.sendable
  rw [hm]
  have : (S.queue src).isEmpty = false := by
    cases h : S.queue src with
    | nil => exact absurd h hq
    | cons _ _ => rfl
  rw [this]
  cases src <;> decide

theorem head_spaced {a b : Nat} {l : List Nat} (h : Spaced (b :: l)) (hab : a + 1000 ≤ b) : Spaced (a :: b :: l) :=
  ⟨hab, h⟩

theorem run_spaced {cfg : Config} (as : List Act) : ∀ {s : Sys} {ps : List Published} {s' : Sys} {now t : Nat},
    run cfg s as = some (ps, s') → s.last = t % 2 ^ 32 → t ≤ now → Clock now (calls as) →
    Spaced (ps.map (·.time)) ∧ ∀ p ∈ ps, t + 1000 ≤ p.time := by
  induction as with
  | nil =>
    intro s ps s' now t h _ _ _
    simp only [run, Option.some.injEq, Prod.mk.injEq] at h
    obtain ⟨rfl, -⟩ := h
    exact ⟨trivial, by simp⟩
  | cons a as ih =>
    intro s ps s' now t h hl ht hc
    simp only [run] at h
    cases hs : step cfg s a with
    | none => rw [hs] at h; cases h
    | some p =>
      obtain ⟨p1, s1⟩ := p
      rw [hs] at h
      simp only at h
      cases hr : run cfg s1 as with
      | none => rw [hr] at h; cases h
      | some q =>
        obtain ⟨q1, s2⟩ := q
        rw [hr] at h
        simp only [Option.some.injEq, Prod.mk.injEq] at h
        obtain ⟨rfl, -⟩ := h
        cases a with
        | enqueue src m =>
          simp only [step, Option.some.injEq, Prod.mk.injEq] at hs
          obtain ⟨rfl, rfl⟩ := hs
          exact ih hr hl ht hc
        | event e =>
          simp only [step, Option.some.injEq, Prod.mk.injEq] at hs
          obtain ⟨rfl, rfl⟩ := hs
          exact ih hr hl ht hc
        | process c =>
          obtain ⟨k1, k2, k3⟩ := hc
          have hidle : ∀ {s1 : Sys}, s1.last = t % 2 ^ 32 → run cfg s1 as = some (q1, s2) →
              Spaced (q1.map (·.time)) ∧ ∀ p ∈ q1, t + 1000 ≤ p.time :=
            fun hl' hr' => ih hr' hl' (by omega) k3
          by_cases hd : due s c
          · -- the call was due: the new mark is c.t2
            have hgap : t + 1000 ≤ c.t1 := by
              have h2 := hd.2
              rw [hl] at h2
              unfold millis at h2
              omega
            have hlast : s1.last = c.t2 % 2 ^ 32 ∧ (p1 = [] ∨ ∃ p, p1 = [p] ∧ p.time = c.t2) := by
              have hs' : process cfg s c = some (p1, s1) := hs
              unfold process at hs'
              rw [if_neg (by simp [hd.1]), if_neg hd.2] at hs'
              simp only at hs'
              split at hs'
              · cases hs'
              · obtain ⟨rfl, rfl⟩ := (Prod.mk.injEq .. ▸ Option.some.inj hs'); exact ⟨rfl, Or.inl rfl⟩
              · split at hs'
                · obtain ⟨rfl, rfl⟩ := (Prod.mk.injEq .. ▸ Option.some.inj hs'); exact ⟨rfl, Or.inl rfl⟩
                · split at hs'
                  · cases hs'
                  · obtain ⟨rfl, rfl⟩ := (Prod.mk.injEq .. ▸ Option.some.inj hs'); exact ⟨rfl, Or.inl rfl⟩
                  · split at hs'
                    · cases hs'
                    · obtain ⟨rfl, rfl⟩ := (Prod.mk.injEq .. ▸ Option.some.inj hs')
                      exact ⟨rfl, Or.inr ⟨_, rfl, rfl⟩⟩
            obtain ⟨hl1, hp1⟩ := hlast
            obtain ⟨i1, i2⟩ := ih (t := c.t2) hr hl1 (Nat.le_refl _) k3
            rcases hp1 with rfl | ⟨p, rfl, hp⟩
            · exact ⟨i1, fun p hp => by have := i2 p hp; omega⟩
            · constructor
              · cases hq : q1 with
                | nil => exact trivial
                | cons r rs =>
                  rw [hq] at i1 i2
                  exact head_spaced i1 (by have := i2 r (by simp); show p.time + 1000 ≤ r.time; omega)
              · intro x hx
                simp only [List.cons_append, List.nil_append, List.mem_cons] at hx
                rcases hx with rfl | hx
                · omega
                · have := i2 x hx; omega
          · have hs' : process cfg s c = some (p1, s1) := hs
            rw [process_idle hd] at hs'
            simp only [Option.some.injEq, Prod.mk.injEq] at hs'
            obtain ⟨rfl, rfl⟩ := hs'
            exact hidle hl hr

end ParticleM

open ParticleM

/-- **C113 (partial).** Whatever is stored, however the connection comes and goes and whenever `process` is called, as
long as the largest event has a size `max` with `max % 4 ≤ 1`: nothing goes wrong; every text that is published fits
into an event and is the base64 of a chunk; the chunks are, in order, complete transfers of the messages `sent`, and
then the ones of a transfer in progress; and `sent` and what is still stored are together what was stored, for every
source in its order. Missing: other sizes, see `C113_false_size`. -/
theorem C113_published_partial (cfg : Config) (hkey : (cfg.key.getD []).length < 2 ^ 30) (as : List Act)
    (hu : ∀ c ∈ calls as, Usable c) (hm : ∀ src m, Act.enqueue src m ∈ as → m.length < 2 ^ 30) :
    ∃ ps s chunks groups rest sent, run cfg .boot as = some (ps, s) ∧
      (∀ p ∈ ps, p.text.length ≤ p.limit ∧ ∃ c ∈ calls as, p.limit = c.max) ∧
      ps.map (fun p => Spec.Base64.decode p.text) = chunks.map some ∧
      chunks = groups.flatten ++ rest ∧ Carries cfg groups sent ∧
      (∀ src, deliveredFrom src sent ++ s.pk.queue src = given src as) ∧
      ((∀ src, s.pk.queue src = []) → rest = []) := by
  obtain ⟨ps, s', S', new, h1, h2, h3, h4, h5, -⟩ := run_good hkey as (boot_good cfg) hu hm
  obtain ⟨i1, groups, rest, i2, i3, i4⟩ := h2.inv
  rw [List.nil_append] at i2
  have hq : ∀ src, s'.pk.queue src = S'.queue src := fun src => by rw [← h2.rel.queue]
  refine ⟨ps, s', new, groups, rest, S'.delivered, h1, h5, h4, i2, i3, ?_, ?_⟩
  · intro src
    rw [hq, h3 src]
    simp [Spec.Packetizer.init, deliveredFrom]
  · intro he
    cases hc : S'.cur with
    | none => rw [hc] at i4; exact i4
    | some t =>
      rw [hc] at i4
      obtain ⟨-, -, m, q, c3, -⟩ := i4
      rw [← hq, he] at c3
      cases c3

/-- **C113 (progress).** When the cloud is connected, no call was made within the last second, memory is left and a
message is stored that was not completely published yet, `process` publishes one more event; what was published
before does not matter. -/
theorem C113_progress (cfg : Config) (hkey : (cfg.key.getD []).length < 2 ^ 30) (as : List Act)
    (hu : ∀ c ∈ calls as, Usable c) (hm : ∀ src m, Act.enqueue src m ∈ as → m.length < 2 ^ 30)
    (c : Call) (hc : Usable c) (hheap : c.heap ≠ none)
    (ht : ∀ t ∈ 0 :: (calls as).map (·.t2), t ≤ c.t1 ∧ 1000 ≤ (c.t1 - t) % 2 ^ 32) :
    ∃ ps s, run cfg .boot as = some (ps, s) ∧ ∀ src, s.pk.queue src ≠ [] →
      ∃ p s', run cfg .boot (as ++ [.event (.cloud .connected), .process c]) = some (ps ++ [p], s') ∧
        p.ok = c.ok := by
  obtain ⟨ps, s, S, new, h1, h2, -, -, -, h6⟩ := run_good hkey as (boot_good cfg) hu hm
  refine ⟨ps, s, h1, fun src hq => ?_⟩
  have hlast : ∃ t ∈ 0 :: (calls as).map (·.t2), s.last = t % 2 ^ 32 := by
    rcases h6 with h6 | ⟨d, x1, x2⟩
    · exact ⟨0, by simp, by rw [h6, Nat.zero_mod]; rfl⟩
    · exact ⟨d.t2, by simp only [List.mem_cons, List.mem_map]; exact Or.inr ⟨d, x1, rfl⟩, x2⟩
  obtain ⟨t, t1, t2⟩ := hlast
  obtain ⟨t3, t4⟩ := ht t t1
  have hd : due { s with connected := true } c := due_of rfl t2 t3 t4
  obtain ⟨qs, s1, S1, new', p1, -, -, -, -, -, p7, p8⟩ := process_due hkey (s := { s with connected := true })
    ⟨h2.rel, h2.inv⟩ hc hd
  rw [← h2.rel.queue] at hq
  rw [if_pos ⟨by rw [pick_some h2.inv.1 hq, Bool.or_true], hheap⟩] at p8
  obtain ⟨p, rfl⟩ : ∃ p, qs = [p] := by
    match qs, p8 with
    | [p], _ => exact ⟨p, rfl⟩
  refine ⟨p, s1, ?_, (p7 p (by simp)).2.2.2⟩
  rw [run_append _ _ h1]
  rw [run_two p1]
  rfl

/-- **C113 (no cloud).** As long as the last thing said about the cloud is not that it is connected, `process`
publishes nothing and changes nothing. -/
theorem C113_offline (cfg : Config) (s : Sys) (status : Cloud) (hs : status ≠ .connected) (cs : List Call) :
    run cfg s (.event (.cloud status) :: cs.map .process) = some ([], { s with connected := false }) := by
  have h : ∀ cs : List Call, run cfg { s with connected := false } (cs.map .process) =
      some ([], { s with connected := false }) := by
    intro cs
    induction cs with
    | nil => rfl
    | cons c cs ih =>
      rw [List.map_cons, run]
      have : step cfg { s with connected := false } (.process c) = some ([], { s with connected := false }) :=
        process_idle (by intro h; exact absurd h.1 (by simp))
      rw [this]
      simp only [ih, List.append_nil]
  rw [run]
  have : step cfg s (.event (.cloud status)) = some ([], { s with connected := false }) := by
    simp only [step, WifiMetrics.cloudConnected, hs, decide_false]
  rw [this]
  simp only [h cs, List.append_nil]

/-- **C113 (rate).** Events are published at least a second apart, at any time and for any size of events. -/
theorem C113_rate (cfg : Config) (as : List Act) (ps : List Published) (s : Sys)
    (h : run cfg .boot as = some (ps, s)) (hc : Clock 0 (calls as)) : Spaced (ps.map (·.time)) :=
  (run_spaced as h rfl (Nat.le_refl 0) hc).1

/-- **C113 (sizes).** A chunk as large as `process` asks for fits into an event if and only if `max % 4 ≤ 1`. -/
theorem C113_fits_iff (max : Nat) : (Spec.Base64.encode (List.replicate (3 * max / 4) 0)).length ≤ max ↔
    max % 4 ≤ 1 := by
  rw [(C07_base64_encode (List.replicate (3 * max / 4) 0)
    (List.replicate (Base64.encodeLen (List.replicate (3 * max / 4) (0 : UInt8)).length) 0) (by simp)).2]
  rw [List.length_replicate]
  unfold Base64.encodeLen
  have h : max = 4 * (max / 4) + max % 4 := by omega
  have h4 : max % 4 < 4 := Nat.mod_lt _ (by decide)
  generalize max / 4 = k at h
  generalize max % 4 = r at h h4
  subst h
  have h5 : r = 0 ∨ r = 1 ∨ r = 2 ∨ r = 3 := by omega
  rcases h5 with rfl | rfl | rfl | rfl <;> omega

/-- A connected device with one stored event of `n` bytes, and one call for events of `max` bytes. -/
def ParticleM.oneCall (n max : Nat) (ok : Bool) : List Act :=
  [.enqueue .event (List.replicate n 7), .event (.cloud .connected),
   .process ⟨1000, 1001, max, some (List.replicate (max + 1) 255), ok⟩]

/-- **C113 is false (size).** With events of up to 622 bytes, a message of 700 bytes makes the device fail an
assertion (and reset, each time it is connected). -/
theorem C113_false_size : run ⟨false, none⟩ .boot (ParticleM.oneCall 700 622 true) = none := by decide +kernel

/-- **C113 is false (failure).** When publishing fails, the chunk is not published again: the message is gone. -/
theorem C113_false_lost :
    ((run ⟨false, none⟩ .boot (ParticleM.oneCall 10 640 false)).map fun r =>
      (r.1.map (·.ok), r.2.pk.queue .event)) = some ([false], []) := by decide +kernel

/-- A history that meets the hypotheses: one message, in two events. -/
example :
    let as := ParticleM.oneCall 20 20 true ++ [.process ⟨1500, 1500, 20, some (List.replicate 21 0), true⟩,
      .process ⟨2001, 2001, 20, some (List.replicate 21 0), true⟩]
    (∀ c ∈ calls as, 12 ≤ c.max ∧ c.max % 4 ≤ 1 ∧ c.heap.map List.length = some (c.max + 1)) ∧
    ((run ⟨false, none⟩ .boot as).map fun r => (r.1.map (fun p => (p.time, p.text.length)), r.2.pk.queue .event)) =
      some ([(1001, 20), (2001, 16)], []) := by decide +kernel

end Mflt.Props
