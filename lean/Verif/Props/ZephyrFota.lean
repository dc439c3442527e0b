import Verif.Props.ZephyrOta
import Verif.Spec.ZephyrFota

/-!
# C93: updates of the firmware with the Zephyr port
-/
namespace Mflt.Props
open Mflt.ZephyrFota
open ZephyrOta (Sock Call Recv installPayload payloadLoop waitHeader toSize recv)
open Spec.ZephyrOta (Seen Arrives)
open Spec.Http (Response decimal Uri)
open Spec.ZephyrFota

/-! ## The download calls the handler on only while it accepts -/

private theorem loop_accepted (accept : List Call → Bool) (cap : Nat) (len : Int) :
    ∀ fuel (calls : List Call) (curr : Nat) (s : Sock) ok out,
    payloadLoop accept cap len fuel calls curr s = some (ok, out) →
    (∀ p, p ≠ [] → p <+: calls → accept p = true) →
    calls <+: out ∧ (∀ p, p ≠ [] → p <+: out → p ≠ out → accept p = true) ∧
      (ok = true → accept out = true) := by
  intro fuel
  induction fuel with
  | zero => intro calls curr s ok out h; simp [payloadLoop] at h
  | succ fuel ih =>
    intro calls curr s ok out h hp
    have hsnoc : ∀ c p, p ≠ [] → p <+: calls ++ [c] → p ≠ calls ++ [c] → accept p = true := by
      intro c p h0 h1 h2
      rcases List.prefix_concat_iff.1 h1 with h | h
      · exact absurd h h2
      · exact hp p h0 h
    rw [payloadLoop] at h
    split at h
    · split at h
      · simp only [Option.some.injEq, Prod.mk.injEq] at h
        obtain ⟨rfl, rfl⟩ := h
        exact ⟨List.prefix_rfl, fun p h0 h1 _ => hp p h0 h1, by simp⟩
      · rename_i d _
        split at h
        · rename_i hacc
          obtain ⟨i1, i2, i3⟩ := ih _ _ _ _ _ h (by
            intro p h0 h1
            by_cases hq : p = calls ++ [.data d]
            · rw [hq]; exact hacc
            · exact hsnoc _ p h0 h1 hq)
          exact ⟨(List.prefix_append _ _).trans i1, i2, i3⟩
        · simp only [Option.some.injEq, Prod.mk.injEq] at h
          obtain ⟨rfl, rfl⟩ := h
          exact ⟨List.prefix_append _ _, hsnoc _, by simp⟩
    · simp only [Option.some.injEq, Prod.mk.injEq] at h
      obtain ⟨rfl, rfl⟩ := h
      exact ⟨List.prefix_append _ _, hsnoc _, fun h => h⟩

private theorem prefix_one {c : Call} {p : List Call} (h0 : p ≠ []) (h : p <+: [c]) : p = [c] := by
  rcases List.prefix_concat_iff.1 (show p <+: [] ++ [c] from h) with h | h
  · exact h
  · exact absurd (List.prefix_nil.1 h) h0

private theorem prefix_two {a b : Call} {p : List Call} (h0 : p ≠ []) (h : p <+: [a, b]) :
    p = [a] ∨ p = [a, b] := by
  rcases List.prefix_concat_iff.1 (show p <+: [a] ++ [b] from h) with h | h
  · exact Or.inr h
  · exact Or.inl (prefix_one h0 h)

private theorem install_accepted {accept : List Call → Bool} {cap : Nat} {s : Sock} {ok : Bool}
    {out : List Call} (h : installPayload accept cap s = some (ok, out)) :
    (∀ p, p ≠ [] → p <+: out → p ≠ out → accept p = true) ∧ (ok = true → accept out = true) := by
  unfold installPayload at h
  split at h
  · simp at h
  · simp only [Option.some.injEq, Prod.mk.injEq] at h
    obtain ⟨rfl, rfl⟩ := h
    exact ⟨fun p h0 h1 => absurd (List.prefix_nil.1 h1) h0, by simp⟩
  · split at h
    · simp only [Option.some.injEq, Prod.mk.injEq] at h
      obtain ⟨rfl, rfl⟩ := h
      exact ⟨fun p h0 h1 h2 => absurd (prefix_one h0 h1) h2, by simp⟩
    · rename_i hacc
      simp only [Bool.not_eq_true', Bool.not_eq_false] at hacc
      split at h
      · split at h
        · simp only [Option.some.injEq, Prod.mk.injEq] at h
          obtain ⟨rfl, rfl⟩ := h
          refine ⟨fun p h0 h1 h2 => ?_, by simp⟩
          rcases prefix_two h0 h1 with h | h
          · rw [h]; exact hacc
          · exact absurd h h2
        · rename_i hacc'
          simp only [Bool.not_eq_true', Bool.not_eq_false] at hacc'
          have := loop_accepted _ _ _ _ _ _ _ _ _ h (by
            intro p h0 h1
            rcases prefix_two h0 h1 with h | h <;> rw [h] <;> assumption)
          exact this.2
      · have := loop_accepted _ _ _ _ _ _ _ _ _ h (by
            intro p h0 h1
            rw [prefix_one h0 h1]; exact hacc)
        exact this.2

/-! A handler that accepts what an obedient one is called with is called with the same; otherwise it is called up to
what it refuses. -/

private theorem loop_same (accept : List Call → Bool) (cap : Nat) (len : Int) :
    ∀ fuel (calls : List Call) (curr : Nat) (s : Sock) ok out,
    payloadLoop (fun _ => true) cap len fuel calls curr s = some (ok, out) →
    ((∀ p, p ≠ [] → p <+: out → accept p = true) → payloadLoop accept cap len fuel calls curr s = some (ok, out)) ∧
    (∀ q c, q ++ [c] <+: out → calls <+: q → accept (q ++ [c]) = false →
      (∀ p, p ≠ [] → p <+: q → accept p = true) →
      payloadLoop accept cap len fuel calls curr s = some (false, q ++ [c])) := by
  intro fuel
  induction fuel with
  | zero => intro calls curr s ok out h; simp [payloadLoop] at h
  | succ fuel ih =>
    intro calls curr s ok out h
    have hne : ∀ q c, q ++ [c] <+: calls → calls <+: q → False := by
      intro q c h1 h2
      have a := h1.length_le
      have b := h2.length_le
      simp only [List.length_append, List.length_singleton] at a
      omega
    have hlast : ∀ q c d, q ++ [c] <+: calls ++ [d] → calls <+: q → q ++ [c] = calls ++ [d] := by
      intro q c d h1 h2
      rcases List.prefix_concat_iff.1 h1 with h | h
      · exact h
      · exact absurd (hne q c h h2) id
    rw [payloadLoop] at h ⊢
    split at h
    · rename_i hc
      rw [if_pos hc]
      split at h
      · rename_i hr
        simp only [Option.some.injEq, Prod.mk.injEq] at h
        obtain ⟨rfl, rfl⟩ := h
        exact ⟨fun _ => rfl, fun q c h1 h2 => absurd (hne q c h1 h2) id⟩
      · rename_i d hr
        rw [if_pos rfl] at h
        obtain ⟨i1, i2⟩ := ih _ _ _ _ _ h
        have hpre : calls ++ [Call.data d] <+: out := by
          have := loop_accepted (fun _ => true) cap len _ _ _ _ _ _ h (fun _ _ _ => rfl)
          exact this.1
        constructor
        · intro hp
          rw [if_pos (hp _ (by simp) hpre)]
          exact i1 hp
        · intro q c h1 h2 h3 h4
          by_cases hq : q ++ [c] = calls ++ [.data d]
          · rw [← hq, if_neg (by rw [h3]; simp)]
          · have hqq : calls ++ [.data d] <+: q := by
              rcases List.prefix_or_prefix_of_prefix h1 hpre with h | h
              · exact absurd (hlast q c _ h h2) hq
              · rcases List.prefix_concat_iff.1 h with h | h
                · exact absurd h.symm hq
                · exact h
            rw [if_pos (h4 _ (by simp) hqq)]
            exact i2 q c h1 hqq h3 h4
    · rename_i hc
      rw [if_neg hc]
      simp only [Option.some.injEq, Prod.mk.injEq] at h
      obtain ⟨rfl, rfl⟩ := h
      constructor
      · intro hp
        rw [hp _ (by simp) List.prefix_rfl]
      · intro q c h1 h2 h3 _
        rw [← hlast q c _ h1 h2, h3]

private theorem install_same {accept : List Call → Bool} {cap : Nat} {s : Sock} {ok : Bool}
    {out : List Call} (h : installPayload (fun _ => true) cap s = some (ok, out)) :
    ((∀ p, p ≠ [] → p <+: out → accept p = true) → installPayload accept cap s = some (ok, out)) ∧
    (∀ q c, q ++ [c] <+: out → accept (q ++ [c]) = false → (∀ p, p ≠ [] → p <+: q → accept p = true) →
      installPayload accept cap s = some (false, q ++ [c])) := by
  unfold installPayload at h ⊢
  split at h
  · simp at h
  · simp only [Option.some.injEq, Prod.mk.injEq] at h
    obtain ⟨rfl, rfl⟩ := h
    exact ⟨fun _ => rfl, fun q c h1 => by simpa using h1.length_le⟩
  · rename_i cx d s' hw
    simp only [Bool.not_true, Bool.false_eq_true, if_false] at h ⊢
    split at h
    · rename_i hd
      rw [if_pos hd]
      have hpre := (loop_accepted (fun _ => true) cap _ _ _ _ _ _ _ h (fun _ _ _ => rfl)).1
      obtain ⟨i1, i2⟩ := loop_same accept _ _ _ _ _ _ _ _ h
      have p1 : [Call.available (toSize cx.contentLength)] <+: out := (List.prefix_append _ [_]).trans hpre
      constructor
      · intro hp
        rw [hp _ (by simp) hpre, hp _ (by simp) p1]
        simpa using i1 hp
      · intro q c h1 h3 h4
        rcases List.prefix_or_prefix_of_prefix h1 hpre with h | h
        · rcases prefix_two (by simp) h with e | e
          · rw [e] at h3; rw [h3, e]; simp
          · have : q = [Call.available (toSize cx.contentLength)] := by
              have := congrArg List.dropLast e
              simpa using this
            rw [h4 _ (by simp) (by rw [this]; exact List.prefix_rfl), ← e, h3]; simp
        · rcases List.prefix_concat_iff.1 h with e | e
          · have : q = [Call.available (toSize cx.contentLength)] := by
              have := congrArg List.dropLast e
              simpa using this.symm
            rw [h4 _ (by simp) (by rw [this]; exact List.prefix_rfl), e, h3]; simp
          · rw [h4 _ (by simp) e, h4 _ (by simp) ((List.prefix_append _ [_]).trans e)]
            simpa using i2 q c h1 e h3 h4
    · rename_i hd
      rw [if_neg hd]
      have hpre := (loop_accepted (fun _ => true) cap _ _ _ _ _ _ _ h (fun _ _ _ => rfl)).1
      obtain ⟨i1, i2⟩ := loop_same accept _ _ _ _ _ _ _ _ h
      constructor
      · intro hp
        rw [hp _ (by simp) hpre]
        simpa using i1 hp
      · intro q c h1 h3 h4
        rcases List.prefix_or_prefix_of_prefix h1 hpre with h | h
        · have e := prefix_one (by simp) h
          rw [e] at h3; rw [h3, e]; simp
        · rcases List.prefix_concat_iff.1 h with e | e
          · rw [e, h3]; simp
          · rw [h4 _ (by simp) e]
            simpa using i2 q c h1 e h3 h4

/-! ## The flash -/

/-- After the calls for these pieces of an image of `n` bytes. -/
private structure Good (e : Env) (n : Nat) (pieces : List Bytes) (i : Img) : Prop where
  size : i.size = n
  all : i.slot ++ i.buffer = pieces.flatten
  slot : i.slot.length = pieces.flatten.length / e.block * e.block
  writes : i.writes = pieces.length
  requested : i.requested = false
  marked : i.marked = false
  rebooted : i.rebooted = false

private theorem blocks (k m b : Nat) (hb : b ≠ 0) : (k * b + m) / b * b = k * b + m / b * b := by
  rw [Nat.mul_comm k b, Nat.mul_add_div (by omega), Nat.add_mul, Nat.mul_comm k b]

private theorem good_write {e : Env} (hb : e.block ≠ 0) {n : Nat} {pieces : List Bytes} {i : Img} {d : Bytes}
    (g : Good e n pieces i) :
    (buffered e i d = none ∧
      (e.partition < (pieces ++ [d]).flatten.length ∨ e.writeFails pieces.length = true)) ∨
    (∃ i', buffered e i d = some i' ∧ Good e n (pieces ++ [d]) i' ∧
      (pieces ++ [d]).flatten.length ≤ e.partition ∧ e.writeFails pieces.length = false) := by
  have hall := congrArg List.length g.all
  have hfl : (pieces ++ [d]).flatten = pieces.flatten ++ d := by simp
  rw [List.length_append] at hall
  have hfn : (pieces ++ [d]).flatten.length = pieces.flatten.length + d.length := by
    rw [hfl, List.length_append]
  have hbd : (i.buffer ++ d).length = i.buffer.length + d.length := List.length_append
  unfold buffered
  rw [hfn, hbd, g.writes]
  have hs := g.slot
  split
  · left; exact ⟨rfl, Or.inl (by omega)⟩
  · split
    · left; exact ⟨rfl, Or.inr (by assumption)⟩
    · rename_i h1 h2
      right
      refine ⟨_, rfl, ⟨g.size, ?_, ?_, by simp, g.requested, g.marked, g.rebooted⟩, by omega, by
        simpa using h2⟩
      · simp only
        rw [hfl, List.append_assoc, List.take_append_drop, ← List.append_assoc, g.all]
      · simp only
        rw [List.length_append, List.length_take, hbd, Nat.min_eq_left (Nat.div_mul_le_self _ _), hfn]
        have hk : pieces.flatten.length = pieces.flatten.length / e.block * e.block + i.buffer.length := by
          rw [← g.slot]; omega
        have hx := blocks (pieces.flatten.length / e.block) (i.buffer.length + d.length) e.block hb
        rw [g.slot, ← hx]
        congr 2
        omega

/-- The calls of a download up to here, all accepted, leave the image in this state. -/
private theorem data_good (e : Env) (hb : e.block ≠ 0) (n : Nat) (hn : n ≠ 0) (hmax : n ≤ maxImage) :
    ∀ (rest pieces : List Bytes) (b : Bool) (i : Img), Good e n pieces i → (pieces ++ rest).flatten.length ≤ n →
    (∀ p, p ≠ [] → p <+: rest → p ≠ rest → ∀ r, handleAll e (b, i) (p.map .data) = some r → r.1 = true) →
    ∃ b' i', handleAll e (b, i) (rest.map .data) = some (b', i') ∧
      i'.slot <+: (pieces ++ rest).flatten ∧ i'.requested = false ∧ i'.marked = false ∧ i'.rebooted = false ∧
      (b' = true → rest ≠ [] → Good e n (pieces ++ rest) i') ∧ (rest = [] → b' = b ∧ i' = i) := by
  intro rest
  induction rest with
  | nil =>
    intro pieces b i g hl _
    rw [List.append_nil]
    exact ⟨b, i, rfl, ⟨_, g.all⟩, g.requested, g.marked, g.rebooted, fun _ h => absurd rfl h, fun _ => ⟨rfl, rfl⟩⟩
  | cons d rest ih =>
    intro pieces b i g hl hacc
    have happ : pieces ++ d :: rest = (pieces ++ [d]) ++ rest := by simp
    rw [List.map_cons, handleAll]
    simp only [handle]
    rcases good_write hb g (d := d) with ⟨w, _⟩ | ⟨i', w, g', _, _⟩
    · rw [w]
      simp only [Option.bind_some]
      -- refused: nothing follows
      have hrest : rest = [] := by
        cases rest with
        | nil => rfl
        | cons d' rest =>
          have := hacc [d] (by simp) (List.prefix_append [d] (d' :: rest)) (by simp)
            (false, { i with writes := i.writes + 1 }) (by
              simp only [List.map_cons, List.map_nil, handleAll, handle, w, Option.bind_some])
          simp at this
      subst hrest
      refine ⟨false, _, rfl, ?_, g.requested, g.marked, g.rebooted, by simp, by simp⟩
      exact (List.prefix_append i.slot i.buffer).trans (by rw [g.all]; simp)
    · rw [w]
      simp only
      have hle : i'.slot.length ≤ n := by
        have h1 := congrArg List.length g'.all
        rw [List.length_append] at h1
        rw [happ, List.flatten_append, List.length_append] at hl
        omega
      unfold maxImage at hmax
      rw [if_neg (show ¬ 2147483647 < i'.slot.length * 100 by omega), if_neg (by rw [g'.size]; exact hn)]
      simp only [Option.bind_some]
      obtain ⟨b', i'', j1, j2, j3, j4, j5, j6, j7⟩ := ih (pieces ++ [d]) true i' g' (by rw [← happ]; exact hl) (by
        intro p h0 h1 h2 r hr
        refine hacc (d :: p) (by simp) (List.cons_prefix_cons.2 ⟨rfl, h1⟩) (by simpa using h2) r ?_
        rw [List.map_cons, handleAll]
        simp only [handle]
        rw [w]
        simp only
        rw [if_neg (show ¬ 2147483647 < i'.slot.length * 100 by omega), if_neg (by rw [g'.size]; exact hn)]
        exact hr)
      refine ⟨b', i'', j1, by rw [happ]; exact j2, j3, j4, j5, fun hb' _ => ?_, by simp⟩
      rw [happ]
      by_cases hr : rest = []
      · obtain ⟨rfl, rfl⟩ := j7 hr
        rw [hr, List.append_nil]
        exact g'
      · exact j6 hb' hr

private theorem good_start (e : Env) (n : Nat) : Good e n [] { Img.init with size := n } :=
  ⟨rfl, rfl, by simp [Img.init], rfl, rfl, rfl, rfl⟩

private theorem answer_data {e : Env} {n : Nat} {q : List Bytes} {r : Bool × Img}
    (ha : answer e (.available n :: q.map .data) = true)
    (hr : handleAll e (true, { Img.init with size := n }) (q.map .data) = some r) : r.1 = true := by
  unfold answer at ha
  rw [handleAll] at ha
  simp only [handle, Option.bind_some] at ha
  rw [hr] at ha
  exact ha

private theorem handleAll_append (e : Env) : ∀ (as bs : List Call) (r : Bool × Img),
    handleAll e r (as ++ bs) = (handleAll e r as).bind fun r => handleAll e r bs := by
  intro as
  induction as with
  | nil => intro bs r; rfl
  | cons a as ih =>
    intro bs r
    rw [List.cons_append, handleAll, handleAll]
    cases handle e r.2 a with
    | none => rfl
    | some r => exact ih bs r

private theorem good_slot {e : Env} {n : Nat} {pieces : List Bytes} {i : Img} {image : Bytes}
    (g : Good e n pieces i) (h : pieces.flatten = image) : i.slot = fullBlocks e.block image := by
  unfold fullBlocks
  have hs := g.slot
  have ha := g.all
  rw [h] at hs ha
  rw [show image.length - image.length % e.block = image.length / e.block * e.block by
    have := Nat.div_add_mod image.length e.block
    rw [Nat.mul_comm] at this
    omega, ← hs, ← ha, List.take_left]

/-- What an attempt with an available image ends with. -/
private theorem install (e : Env) (hb : e.block ≠ 0) {r : Response} (hr : r.Ok) (hbody : r.body ≠ [])
    (hl : r.body.length ≤ maxImage) (script : List Recv) :
    ∃ ok calls b i, installPayload (answer e) e.block ⟨r.bytes, script⟩ = some (ok, calls) ∧
      handleAll e (false, Img.init) calls = some (b, i) ∧
      ((i.requested = false ∧ i.marked = false ∧ i.rebooted = false ∧ i.slot <+: r.body ∧
          (ok = true → e.custom = some true ∧ i.slot = fullBlocks e.block r.body)) ∨
        (i.requested = true ∧ i.marked = true ∧ i.rebooted = true ∧ i.slot = fullBlocks e.block r.body ∧
          e.custom = none ∧ e.upgrade = 0)) := by
  have hl' := hl
  unfold maxImage at hl'
  have hpos : r.body.length ≠ 0 := fun h => hbody (List.length_eq_zero_iff.1 h)
  obtain ⟨ok, calls, h1, h2, _⟩ := C82_payload_partial (answer e) e.block hr hbody (by omega) script
  obtain ⟨h3, h4⟩ := install_accepted h1
  cases h2 with
  | nothing =>
    exact ⟨_, _, _, _, h1, rfl, Or.inl ⟨rfl, rfl, rfl, List.nil_prefix, by simp⟩⟩
  | part pieces hp =>
    obtain ⟨b, i, j1, j2, j3, j4, j5, _, _⟩ := data_good e hb r.body.length hpos hl pieces [] true _
      (good_start e r.body.length) (by simpa using hp.length_le) (by
        intro p g0 g1 g2 q hq
        refine answer_data (h3 _ (by simp) ?_ ?_) hq
        · exact List.cons_prefix_cons.2 ⟨rfl, List.IsPrefix.map _ g1⟩
        · intro h
          simp only [List.cons.injEq, true_and] at h
          exact g2 ((List.map_inj_right (fun _ _ h => by cases h; rfl)).1 h))
    refine ⟨_, _, b, i, h1, ?_, Or.inl ⟨j3, j4, j5, ?_, by simp⟩⟩
    · rw [handleAll]
      exact j1
    · exact j2.trans (by simpa using hp)
  | all pieces hp =>
    have hne : pieces ≠ [] := by
      intro h
      rw [h] at hp
      exact hbody (by simpa using hp.symm)
    have hpre : ∀ p, p <+: pieces → Call.available r.body.length :: p.map Call.data <+:
        Call.available r.body.length :: pieces.map .data ++ [.complete] := by
      intro p hp
      rw [List.cons_append]
      exact List.cons_prefix_cons.2 ⟨rfl, (List.IsPrefix.map _ hp).trans (List.prefix_append _ _)⟩
    have hneq : ∀ p, p <+: pieces → Call.available r.body.length :: p.map Call.data ≠
        Call.available r.body.length :: pieces.map .data ++ [.complete] := by
      intro p hp h
      have := congrArg List.length h
      simp only [List.length_cons, List.length_map, List.length_append, List.length_singleton,
        List.cons_append, List.length_nil] at this
      have := hp.length_le
      omega
    obtain ⟨b, i, j1, j2, j3, j4, j5, j6, _⟩ := data_good e hb r.body.length hpos hl pieces [] true _
      (good_start e r.body.length) (by rw [List.nil_append, hp]) (by
        intro p g0 g1 g2 q hq
        exact answer_data (h3 _ (by simp) (hpre p g1) (hneq p g1)) hq)
    have hbt : b = true := answer_data (h3 _ (by simp) (hpre _ List.prefix_rfl) (hneq _ List.prefix_rfl)) j1
    have g := j6 hbt hne
    rw [List.nil_append] at g
    have hslot := good_slot g hp
    have hall : handleAll e (false, Img.init) (.available r.body.length :: pieces.map .data ++ [.complete])
        = handle e i .complete := by
      rw [List.cons_append, handleAll, show handle e (false, Img.init).2 (.available r.body.length)
        = some (true, { Img.init with size := r.body.length }) from rfl, Option.bind_some, handleAll_append, j1,
        Option.bind_some, handleAll]
      cases handle e i .complete <;> rfl
    cases hc : e.custom with
    | some okc =>
      refine ⟨_, _, okc, i, h1, by rw [hall]; simp [handle, hc], Or.inl ⟨j3, j4, j5, ?_, ?_⟩⟩
      · rw [← hp]; simpa using j2
      · intro h
        have := h
        unfold answer at this
        rw [hall] at this
        simp only [handle, hc] at this
        exact ⟨by rw [this], hslot⟩
    | none =>
      by_cases hu : e.upgrade = 0
      · refine ⟨_, _, true, { i with requested := true, marked := true, rebooted := true }, h1, by
          rw [hall]; simp [handle, hc, hu], Or.inr ⟨rfl, rfl, rfl, hslot, rfl, hu⟩⟩
      · refine ⟨_, _, false, i, h1, by rw [hall]; simp [handle, hc, hu], Or.inl ⟨j3, j4, j5, ?_, ?_⟩⟩
        · rw [← hp]; simpa using j2
        · intro h
          have := h
          unfold answer at this
          rw [hall] at this
          simp [handle, hc, hu] at this

/-! ## The theorems about the MCUboot backend -/

/-- C93: for every image up to 21 MB that the server announces with its length, however its bytes arrive, and
whatever the flash does: an update ends with a reboot only after all of the image was received and the upgrade was
requested, with the reason of the reboot noted; the blocks of the image are then in the flash, in order. Otherwise it
returns an error, no upgrade is requested, and the next attempt is not refused. Missing: the bytes after the last full
block (`C93_false_tail`), larger and empty images (`C93_false_large`, `C93_false_empty`). -/
theorem C93_update_partial (e : Env) (hb : e.block ≠ 0) (hi : e.init = 0) (hc : e.custom = none) (url : Bytes)
    {r : Response} (hr : r.Ok) (hbody : r.body ≠ []) (hl : r.body.length ≤ maxImage) (script : List Recv)
    {d : Dev} (hd : d.inProgress = false) :
    ∃ d', (start e ⟨(true, some url), some ⟨r.bytes, script⟩⟩ d = some (.rebooted, d') ∧
        d'.requested = true ∧ d'.marked = true ∧ d'.slot = fullBlocks e.block r.body ∧ e.upgrade = 0) ∨
      (start e ⟨(true, some url), some ⟨r.bytes, script⟩⟩ d = some (.returned (-1), d') ∧
        d'.inProgress = false ∧ d'.requested = false ∧ d'.marked = false ∧ d'.slot <+: r.body) := by
  obtain ⟨ok, calls, b, i, h1, h2, h3⟩ := install e hb hr hbody hl script
  unfold start
  rw [if_neg (by rw [hd]; simp), if_neg (by rw [hi]; simp)]
  simp only [otaUpdate, h1, Option.bind_some, h2, Option.map_some]
  rcases h3 with ⟨a1, a2, a3, a4, a5⟩ | ⟨a1, a2, a3, a4, a5, a6⟩
  · have hok : ok = false := by
      cases ok with
      | false => rfl
      | true => have := (a5 rfl).1; rw [hc] at this; simp at this
    rw [a3, hok]
    exact ⟨⟨false, i.slot, i.requested, i.marked⟩, Or.inr ⟨rfl, rfl, a1, a2, a4⟩⟩
  · rw [a3]
    exact ⟨⟨true, i.slot, i.requested, i.marked⟩, Or.inl ⟨rfl, a1, a2, a4, a6⟩⟩

/-- C93: with an image of full blocks, all of it is in the flash when the device reboots. -/
theorem C93_whole_image {block : Nat} {image : Bytes} (h : block ∣ image.length) :
    fullBlocks block image = image := by
  unfold fullBlocks
  rw [Nat.mod_eq_zero_of_dvd h, Nat.sub_zero, List.take_length]

/-- C93: with a custom callback the result is 1 only when the callback was called after all of the image was
received and says so; then the next attempt is not refused either. -/
theorem C93_update_custom (e : Env) (hb : e.block ≠ 0) (hi : e.init = 0) {cb : Bool} (hc : e.custom = some cb)
    (url : Bytes) {r : Response} (hr : r.Ok) (hbody : r.body ≠ []) (hl : r.body.length ≤ maxImage)
    (script : List Recv) {d : Dev} (hd : d.inProgress = false) :
    ∃ rv d', start e ⟨(true, some url), some ⟨r.bytes, script⟩⟩ d = some (.returned rv, d') ∧
      d'.inProgress = false ∧ (rv = 1 ∨ rv = -1) ∧
      (rv = 1 → cb = true ∧ d'.slot = fullBlocks e.block r.body) := by
  obtain ⟨ok, calls, b, i, h1, h2, h3⟩ := install e hb hr hbody hl script
  unfold start
  rw [if_neg (by rw [hd]; simp), if_neg (by rw [hi]; simp)]
  simp only [otaUpdate, h1, Option.bind_some, h2, Option.map_some]
  rcases h3 with ⟨a1, a2, a3, a4, a5⟩ | ⟨a1, a2, a3, a4, a5, a6⟩
  · rw [a3]
    refine ⟨_, _, rfl, rfl, ?_, ?_⟩
    · cases ok <;> simp
    · intro h
      cases ok with
      | false => simp at h
      | true =>
        obtain ⟨b1, b2⟩ := a5 rfl
        rw [hc] at b1
        exact ⟨by simpa using b1, b2⟩
  · rw [hc] at a5; simp at a5

/-! ## Updates that succeed -/

/-- The flash takes everything and the upgrade can be requested. -/
private structure Works (e : Env) (size : Nat) : Prop where
  block : e.block ≠ 0
  init : e.init = 0
  custom : e.custom = none
  upgrade : e.upgrade = 0
  writes : ∀ k, e.writeFails k = false
  partition : size ≤ e.partition

private theorem data_works {e : Env} {n : Nat} (w : Works e n) (hn : n ≠ 0) : ∀ (rest pieces : List Bytes) (i : Img),
    Good e n pieces i → (pieces ++ rest).flatten.length ≤ n → (∀ p, p <+: rest → p ≠ [] →
      (pieces ++ p).flatten.length / e.block * e.block ≤ maxImage) →
    ∃ i', handleAll e (true, i) (rest.map .data) = some (true, i') ∧ Good e n (pieces ++ rest) i' := by
  intro rest
  induction rest with
  | nil => intro pieces i g _ _; exact ⟨i, rfl, by simpa using g⟩
  | cons d rest ih =>
    intro pieces i g hl hm
    have happ : pieces ++ d :: rest = (pieces ++ [d]) ++ rest := by simp
    have hlen : (pieces ++ [d]).flatten.length ≤ n := by
      rw [happ, List.flatten_append, List.length_append] at hl
      omega
    have hp := w.partition
    rcases good_write w.block g (d := d) with ⟨_, h | h⟩ | ⟨i', wr, g', _, _⟩
    · omega
    · rw [w.writes] at h; simp at h
    · have h1 := hm [d] (List.prefix_append [d] rest) (by simp)
      rw [← g'.slot] at h1
      unfold maxImage at h1
      obtain ⟨i'', j1, j2⟩ := ih (pieces ++ [d]) i' g' (by rw [← happ]; exact hl) (by
        intro p hp _
        have := hm (d :: p) (List.cons_prefix_cons.2 ⟨rfl, hp⟩) (by simp)
        simpa using this)
      refine ⟨i'', ?_, by rw [happ]; exact j2⟩
      rw [List.map_cons, handleAll]
      simp only [handle]
      rw [wr]
      simp only
      rw [if_neg (show ¬ 2147483647 < i'.slot.length * 100 by omega), if_neg (by rw [g'.size]; exact hn)]
      exact j1

private theorem prefix_calls {n : Nat} {pieces : List Bytes} {p : List Call} (h0 : p ≠ [])
    (h : p <+: Call.available n :: pieces.map .data) :
    ∃ q, q <+: pieces ∧ p = .available n :: q.map .data := by
  cases p with
  | nil => exact absurd rfl h0
  | cons a p =>
    obtain ⟨rfl, h1⟩ := List.cons_prefix_cons.1 h
    refine ⟨pieces.take p.length, List.take_prefix _ _, ?_⟩
    rw [List.prefix_iff_eq_take] at h1
    rw [List.map_take, ← h1]

private theorem answer_available {e : Env} {n : Nat} {q : List Bytes} {r : Bool × Img}
    (h : handleAll e (true, { Img.init with size := n }) (q.map .data) = some r) :
    answer e (.available n :: q.map .data) = r.1 := by
  unfold answer
  rw [handleAll, show handle e (false, Img.init).2 (.available n)
    = some (true, { Img.init with size := n }) from rfl, Option.bind_some, h]

private theorem flatten_le {q pieces : List Bytes} (h : q <+: pieces) : q.flatten.length ≤ pieces.flatten.length := by
  obtain ⟨t, rfl⟩ := h
  rw [List.flatten_append, List.length_append]
  omega

private theorem installs (e : Env) {r : Response} (w : Works e r.body.length) (hr : r.Ok) (hbody : r.body ≠ [])
    (hl : r.body.length ≤ maxImage) (hst : decimal r.code < 400) (script : List Recv)
    (ha : Arrives script r.bytes.length) (url : Bytes) {d : Dev} (hd : d.inProgress = false) :
    ∃ d', start e ⟨(true, some url), some ⟨r.bytes, script⟩⟩ d = some (.rebooted, d') ∧
        d'.requested = true ∧ d'.marked = true ∧ d'.slot = fullBlocks e.block r.body := by
  have hl' := hl
  unfold maxImage at hl'
  have hpos : r.body.length ≠ 0 := fun h => hbody (List.length_eq_zero_iff.1 h)
  obtain ⟨pieces, h1, h2⟩ := C82_payload_completes e.block w.block hr hbody (by omega) hst script ha
  have hdata : ∀ q, q <+: pieces → ∃ i', handleAll e (true, { Img.init with size := r.body.length })
      (q.map .data) = some (true, i') ∧ Good e r.body.length q i' := by
    intro q hq
    have hle := flatten_le hq
    rw [h1] at hle
    obtain ⟨i', j1, j2⟩ := data_works w hpos q [] _ (good_start e _) (by simpa using hle) (by
      intro p hp _
      have := flatten_le hp
      have := Nat.div_mul_le_self ([] ++ p).flatten.length e.block
      rw [List.nil_append] at this
      rw [List.nil_append]
      omega)
    exact ⟨i', j1, by simpa using j2⟩
  obtain ⟨i, j1, g⟩ := hdata pieces List.prefix_rfl
  have hall : handleAll e (false, Img.init) (.available r.body.length :: pieces.map .data ++ [.complete])
      = some (true, { i with requested := true, marked := true, rebooted := true }) := by
    rw [List.cons_append, handleAll, show handle e (false, Img.init).2 (.available r.body.length)
        = some (true, { Img.init with size := r.body.length }) from rfl, Option.bind_some, handleAll_append, j1,
        Option.bind_some, handleAll]
    simp only [handle, w.custom, w.upgrade]
    rfl
  have h3 := (install_same (accept := answer e) h2).1 (by
    intro p h0 hp
    rcases List.prefix_concat_iff.1 hp with h | h
    · rw [h]
      unfold answer
      rw [hall]
    · obtain ⟨q, hq, rfl⟩ := prefix_calls h0 h
      obtain ⟨i', k1, _⟩ := hdata q hq
      rw [answer_available k1])
  unfold start
  rw [if_neg (by rw [hd]; simp), if_neg (by rw [w.init]; simp)]
  simp only [otaUpdate, h3, Option.bind_some, hall, Option.map_some]
  exact ⟨⟨true, i.slot, true, true⟩, rfl, rfl, rfl, good_slot g h1⟩

/-- C93: when the connection does not fail before all bytes have arrived, the image fits, the flash works and the
upgrade can be requested, the device reboots into the update; an image of full blocks is then in the flash. -/
theorem C93_succeeds (e : Env) (hb : e.block ≠ 0) (hi : e.init = 0) (hc : e.custom = none) (hu : e.upgrade = 0)
    (hw : ∀ k, e.writeFails k = false) (url : Bytes) {r : Response} (hp : r.body.length ≤ e.partition) (hr : r.Ok)
    (hbody : r.body ≠ []) (hl : r.body.length ≤ maxImage) (hst : decimal r.code < 400) (script : List Recv)
    (ha : Arrives script r.bytes.length) {d : Dev} (hd : d.inProgress = false) (hdvd : e.block ∣ r.body.length) :
    ∃ d', start e ⟨(true, some url), some ⟨r.bytes, script⟩⟩ d = some (.rebooted, d') ∧
        d'.requested = true ∧ d'.marked = true ∧ d'.slot = r.body := by
  obtain ⟨d', h1, h2, h3, h4⟩ := installs e ⟨hb, hi, hc, hu, hw, hp⟩ hr hbody hl hst script ha url hd
  exact ⟨d', h1, h2, h3, by rw [h4, C93_whole_image hdvd]⟩

/-- C93 is false: for every image that does not consist of full blocks, a download without any error ends with a
reboot into the update although the end of the image is not in the flash. -/
theorem C93_false_tail (e : Env) (hb : e.block ≠ 0) (hi : e.init = 0) (hc : e.custom = none) (hu : e.upgrade = 0)
    (hw : ∀ k, e.writeFails k = false) (url : Bytes) {r : Response} (hp : r.body.length ≤ e.partition) (hr : r.Ok)
    (hbody : r.body ≠ []) (hl : r.body.length ≤ maxImage) (hst : decimal r.code < 400) (script : List Recv)
    (ha : Arrives script r.bytes.length) {d : Dev} (hd : d.inProgress = false) (hdvd : ¬ e.block ∣ r.body.length) :
    ∃ d', start e ⟨(true, some url), some ⟨r.bytes, script⟩⟩ d = some (.rebooted, d') ∧
        d'.requested = true ∧ d'.slot.length = r.body.length - r.body.length % e.block ∧
        d'.slot.length < r.body.length := by
  obtain ⟨d', h1, h2, h3, h4⟩ := installs e ⟨hb, hi, hc, hu, hw, hp⟩ hr hbody hl hst script ha url hd
  have hm : r.body.length % e.block ≠ 0 := fun h => hdvd (Nat.dvd_of_mod_eq_zero h)
  have hlt := Nat.mod_le r.body.length e.block
  have : d'.slot.length = r.body.length - r.body.length % e.block := by
    rw [h4]
    unfold fullBlocks
    rw [List.length_take]
    omega
  exact ⟨d', h1, h2, this, by omega⟩

private theorem first_large {e : Env} {n : Nat} (w : Works e n) (hn : n ≠ 0) : ∀ (rest pieces : List Bytes) (i : Img),
    Good e n pieces i → (pieces ++ rest).flatten.length ≤ n →
    pieces.flatten.length / e.block * e.block ≤ maxImage →
    maxImage < (pieces ++ rest).flatten.length / e.block * e.block →
    ∃ p d, p ++ [d] <+: rest ∧ handleAll e (true, i) ((p ++ [d]).map .data) = none ∧
      ∀ q, q <+: p → ∃ i', handleAll e (true, i) (q.map .data) = some (true, i') := by
  intro rest
  induction rest with
  | nil => intro pieces i g _ h1 h2; rw [List.append_nil] at h2; omega
  | cons d rest ih =>
    intro pieces i g hl h1 h2
    have happ : pieces ++ d :: rest = (pieces ++ [d]) ++ rest := by simp
    have hlen : (pieces ++ [d]).flatten.length ≤ n := by
      rw [happ, List.flatten_append, List.length_append] at hl
      omega
    have hp := w.partition
    rcases good_write w.block g (d := d) with ⟨_, h | h⟩ | ⟨i', wr, g', _, _⟩
    · omega
    · rw [w.writes] at h; simp at h
    · by_cases hbig : maxImage < (pieces ++ [d]).flatten.length / e.block * e.block
      · refine ⟨[], d, List.prefix_append [d] rest, ?_, ?_⟩
        · simp only [List.nil_append, List.map_cons, List.map_nil, handleAll, handle]
          rw [wr]
          rw [← g'.slot] at hbig
          unfold maxImage at hbig
          simp only
          rw [if_pos (show 2147483647 < i'.slot.length * 100 by omega)]
          rfl
        · intro q hq
          rw [List.prefix_nil.1 hq]
          exact ⟨i, rfl⟩
      · have hstep : ∀ q : List Bytes, handleAll e (true, i) ((d :: q).map .data)
            = handleAll e (true, i') (q.map .data) := by
          intro q
          rw [← g'.slot] at hbig
          unfold maxImage at hbig
          rw [List.map_cons, handleAll]
          simp only [handle]
          rw [wr]
          simp only
          rw [if_neg (show ¬ 2147483647 < i'.slot.length * 100 by omega), if_neg (by rw [g'.size]; exact hn)]
          rfl
        obtain ⟨p, d', k1, k2, k3⟩ := ih (pieces ++ [d]) i' g' (by rw [← happ]; exact hl) (by omega)
          (by rw [← happ]; exact h2)
        refine ⟨d :: p, d', List.cons_prefix_cons.2 ⟨rfl, k1⟩, by rw [List.cons_append, hstep]; exact k2, ?_⟩
        intro q hq
        cases q with
        | nil => exact ⟨i, rfl⟩
        | cons a q =>
          obtain ⟨rfl, hq'⟩ := List.cons_prefix_cons.1 hq
          rw [hstep]
          exact k3 q hq'

/-- C93 is false: an image with more than 21474836 bytes in full blocks overflows an `int` in the calculation of the
progress, which is undefined behaviour, even if it fits the partition and nothing fails. -/
theorem C93_false_large (e : Env) (hb : e.block ≠ 0) (hi : e.init = 0) (hc : e.custom = none) (hu : e.upgrade = 0)
    (hw : ∀ k, e.writeFails k = false) (url : Bytes) {r : Response} (hp : r.body.length ≤ e.partition) (hr : r.Ok)
    (hl : r.body.length < 2 ^ 31) (hst : decimal r.code < 400) (script : List Recv)
    (ha : Arrives script r.bytes.length) {d : Dev} (hd : d.inProgress = false)
    (hbig : 21474836 < (fullBlocks e.block r.body).length) :
    start e ⟨(true, some url), some ⟨r.bytes, script⟩⟩ d = none := by
  have w : Works e r.body.length := ⟨hb, hi, hc, hu, hw, hp⟩
  have hfb : (fullBlocks e.block r.body).length = r.body.length / e.block * e.block := by
    unfold fullBlocks
    rw [List.length_take]
    have := Nat.div_add_mod r.body.length e.block
    rw [Nat.mul_comm] at this
    omega
  rw [hfb] at hbig
  have hpos : r.body.length ≠ 0 := by
    intro h
    rw [h] at hbig
    simp at hbig
  have hbody : r.body ≠ [] := fun h => hpos (by rw [h]; rfl)
  obtain ⟨pieces, h1, h2⟩ := C82_payload_completes e.block hb hr hbody hl hst script ha
  obtain ⟨p, x, k1, k2, k3⟩ := first_large w hpos pieces [] _ (good_start e _) (by
    rw [List.nil_append, h1]) (by simp) (by rw [List.nil_append, h1]; exact hbig)
  have hq : Call.available r.body.length :: (p ++ [x]).map Call.data
      = (Call.available r.body.length :: p.map .data) ++ [.data x] := by simp
  have hnone : handleAll e (false, Img.init) ((Call.available r.body.length :: p.map .data) ++ [.data x]) = none := by
    rw [← hq, handleAll, show handle e (false, Img.init).2 (.available r.body.length)
      = some (true, { Img.init with size := r.body.length }) from rfl, Option.bind_some, k2]
  have h3 := (install_same (accept := answer e) h2).2 (.available r.body.length :: p.map .data) (.data x) (by
      rw [← hq, List.cons_append]
      exact List.cons_prefix_cons.2 ⟨rfl, (List.IsPrefix.map _ k1).trans (List.prefix_append _ _)⟩) (by
      unfold answer
      rw [hnone]) (by
      intro q h0 hpq
      obtain ⟨q, hq', rfl⟩ := prefix_calls h0 hpq
      obtain ⟨i', j⟩ := k3 q hq'
      rw [answer_available j])
  unfold start
  rw [if_neg (by rw [hd]; simp), if_neg (by rw [hi]; simp)]
  simp only [otaUpdate, h3, Option.bind_some, hnone, Option.map_none]

/-- Bytes arrive one by one. -/
private theorem arrives_each (n : Nat) : Arrives (List.replicate n (Recv.data 0)) n := by
  constructor
  · intro h
    have := List.eq_of_mem_replicate h
    simp at this
  · rw [List.countP_replicate]
    simp

/-- An image of 22000000 bytes. -/
private def exLarge : Response :=
  { exResponse with
    headers := [.length [67, 79, 78, 84, 69, 78, 84, 45, 108, 101, 110, 103, 116, 104] 1 1
      [50, 50, 48, 48, 48, 48, 48, 48]]
    body := List.replicate 22000000 7 }

private theorem exLarge_ok : exLarge.Ok where
  minor := exResponse_ok.minor
  code := exResponse_ok.code
  digits := exResponse_ok.digits
  reason := exResponse_ok.reason
  short := exResponse_ok.short
  headers := by
    intro h hh
    simp only [exLarge, List.mem_cons, List.not_mem_nil, or_false] at hh
    subst hh
    refine ⟨by decide, by decide, ?_, by decide +kernel, by decide⟩
    intro c hc
    simp only [List.mem_cons, List.not_mem_nil, or_false] at hc
    rcases hc with rfl | rfl | rfl | rfl | rfl | rfl | rfl | rfl <;> constructor <;> decide
  body := by
    rw [show exLarge.body = List.replicate 22000000 7 from rfl, List.length_replicate]
    decide +kernel

/-- The hypotheses of `C93_succeeds`, `C93_false_tail` and `C93_false_large` are met: an image of two bytes with blocks
of 1 and 4 bytes, and one of 22000000 bytes with blocks of 64 bytes. -/
example (script : List Recv) (ha : Arrives script exResponse.bytes.length) :
    (∃ d', start ⟨1, 100, 0, fun _ => false, 0, none⟩ ⟨(true, some []), some ⟨exResponse.bytes, script⟩⟩ Dev.boot
      = some (.rebooted, d') ∧ d'.requested = true ∧ d'.marked = true ∧ d'.slot = exResponse.body) ∧
    (∃ d', start ⟨4, 100, 0, fun _ => false, 0, none⟩ ⟨(true, some []), some ⟨exResponse.bytes, script⟩⟩ Dev.boot
      = some (.rebooted, d') ∧ d'.requested = true ∧
        d'.slot.length = exResponse.body.length - exResponse.body.length % 4 ∧
        d'.slot.length < exResponse.body.length) :=
  ⟨C93_succeeds _ (by decide) rfl rfl rfl (fun _ => rfl) [] (by decide) exResponse_ok (by decide) (by decide)
      (by decide) script ha rfl (by decide),
    C93_false_tail _ (by decide) rfl rfl rfl (fun _ => rfl) [] (by decide) exResponse_ok (by decide) (by decide)
      (by decide) script ha rfl (by decide)⟩

example : start ⟨64, 100000000, 0, fun _ => false, 0, none⟩ ⟨(true, some []),
    some ⟨exLarge.bytes, List.replicate exLarge.bytes.length (.data 0)⟩⟩ Dev.boot = none := by
  have hb : exLarge.body.length = 22000000 := List.length_replicate
  refine C93_false_large _ (by decide) rfl rfl rfl (fun _ => rfl) [] ?_ exLarge_ok ?_ (by decide) _
    (arrives_each _) rfl ?_
  · rw [hb]; decide
  · rw [hb]; decide
  · unfold fullBlocks
    rw [List.length_take, hb]
    decide

/-- The bytes of a response without a body. -/
private def exEmpty : Bytes :=
  ("HTTP/1.1 200 OK\r\nContent-Length:0\r\n\r\n".toList).map fun c => UInt8.ofNat c.toNat

private def exEnv : Env := ⟨64, 1000, 0, fun _ => false, 0, none⟩

/-- C93 is false: an image that is announced with no bytes divides by zero. -/
theorem C93_false_empty : start exEnv ⟨(true, some []), some ⟨exEmpty, [.data 63]⟩⟩ Dev.boot = none := by
  decide +kernel

/-! ## Attempts -/

/-- C93: while the flash can be prepared, no attempt is ever refused because of an earlier one: whatever the network
does, an attempt that returns leaves the next one free to start. -/
theorem C93_retry {e : Env} {n : Net} {d d' : Dev} {rv : Int} (hi : e.init = 0) (hd : d.inProgress = false)
    (h : start e n d = some (.returned rv, d')) : d'.inProgress = false := by
  unfold start at h
  rw [if_neg (by rw [hd]; simp), if_neg (by rw [hi]; simp)] at h
  cases ho : otaUpdate e n with
  | none => rw [ho] at h; simp at h
  | some r =>
    rw [ho] at h
    simp only [Option.map_some, Option.some.injEq] at h
    split at h
    · simp at h
    · simp only [Prod.mk.injEq] at h
      rw [← h.2]

/-- C93: nothing is written and no upgrade is requested when there is no update; the result is 0. An error in asking
for it is -1. -/
theorem C93_up_to_date {e : Env} {n : Net} {d : Dev} (hi : e.init = 0) (hd : d.inProgress = false) :
    (n.check = (true, none) → start e n d = some (.returned 0, ⟨false, [], false, false⟩)) ∧
    (n.check.1 = false → start e n d = some (.returned (-1), ⟨false, [], false, false⟩)) := by
  unfold start
  rw [if_neg (by rw [hd]; simp), if_neg (by rw [hi]; simp)]
  constructor
  · intro h
    unfold otaUpdate
    rw [h]
    rfl
  · intro h
    unfold otaUpdate
    obtain ⟨⟨a, b⟩, c⟩ := n
    simp only at h
    subst h
    rfl

/-- C93 is false: once the flash could not be prepared, every later attempt is refused until the device reboots for
another reason, whatever the flash and the network do then. -/
theorem C93_false_stuck (e : Env) (n : Net) (hi : e.init ≠ 0) (later : List (Env × Net)) :
    ∃ d, attempts Dev.boot ((e, n) :: later) = some (.returned e.init :: later.map fun _ => .returned (-1), d) := by
  have h : ∀ (later : List (Env × Net)) (d : Dev), d.inProgress = true →
      attempts d later = some (later.map fun _ => .returned (-1), d) := by
    intro later
    induction later with
    | nil => intro d _; rfl
    | cons x xs ih =>
      intro d hd
      obtain ⟨e, n⟩ := x
      rw [attempts]
      simp only [start, if_pos hd, Option.bind_some]
      rw [if_neg (by simp), ih d hd]
      rfl
  refine ⟨{ Dev.boot with inProgress := true }, ?_⟩
  rw [attempts]
  simp only [start, Dev.boot, Bool.false_eq_true, if_false, if_pos hi, Option.bind_some]
  rw [if_neg (by simp), h _ _ rfl]
  rfl

/-! ## nRF Connect SDK: the URL -/

/-- Errors of the download library are negative. -/
private def Errors (init : Int) (results : List Int) : Prop := init ≤ 0 ∧ ∀ r ∈ results, r ≤ 0

/-- No download: nothing is allocated. A download: its URL is. -/
private structure Inv (s : Ncs) : Prop where
  idle : s.busy = none → s.url = none ∧ s.live = []
  busy : ∀ a, s.busy = some a → (∃ u, s.url = some (a, u)) ∧ s.live = [a]

private theorem headD_neg {results : List Int} (h : ∀ r ∈ results, r ≤ 0) : results.headD (-1) ≤ 0 := by
  cases results with
  | nil => simp
  | cons r rs => exact h r (by simp)

private theorem finish_neg {rv : Int} (h : rv < 0) (s : Ncs) : ncsStart.finish rv s = (rv, cleanup s) := by
  unfold ncsStart.finish
  rw [if_pos ⟨by omega, by omega⟩]

/-- After the library was called for the URL in the allocation `a`. -/
private structure Called (a : Nat) (rv : Int) (s : Ncs) : Prop where
  url : ∃ u, s.url = some (a, u)
  live : s.live = [a]
  started : rv = 0 → s.busy = some a
  failed : rv ≠ 0 → s.busy = none

private theorem begun_inv {a : Nat} {rv : Int} {s : Ncs} (c : Called a rv s) (hrv : rv ≤ 0) :
    Inv (ncsStart.begun rv s).2 ∧ ((ncsStart.begun rv s).1 = 1 ∨ (ncsStart.begun rv s).1 < 0) ∧
      ((ncsStart.begun rv s).1 = 1 ↔ (ncsStart.begun rv s).2.busy ≠ none) ∧
      (ncsStart.begun rv s).2.calls = s.calls ∧
      ((ncsStart.begun rv s).1 = if rv = 0 then 1 else rv) := by
  obtain ⟨u, hu⟩ := c.url
  unfold ncsStart.begun
  by_cases h0 : rv = 0
  · rw [if_neg (by simp [h0]), if_pos h0]
    unfold ncsStart.finish
    rw [if_neg (by simp)]
    refine ⟨⟨fun h => ?_, fun b hb => ?_⟩, Or.inl rfl, ?_, rfl, rfl⟩
    · rw [c.started h0] at h; simp at h
    · rw [c.started h0] at hb
      have : a = b := by simpa using hb
      subst this
      exact ⟨⟨u, hu⟩, c.live⟩
    · simp [c.started h0]
  · rw [if_pos h0, if_neg h0, finish_neg (by omega)]
    have hc : cleanup s = { s with url := none, live := [] } := by
      unfold cleanup
      rw [hu]
      simp [c.live]
    rw [hc]
    refine ⟨⟨fun _ => ⟨rfl, rfl⟩, fun b hb => ?_⟩, Or.inr (by simp only; omega), ?_, rfl, rfl⟩
    · simp only at hb
      rw [c.failed h0] at hb
      simp at hb
    · simp only
      rw [c.failed h0]
      simp only [ne_eq, not_true_eq_false, iff_false]
      omega

private theorem certLoop_spec (u : Bytes) (a : Nat) : ∀ (cs : List Nat) (results : List Int) (rv0 : Int) (s : Ncs),
    (∀ r ∈ results, r ≤ 0) → s.url = some (a, u) → s.live = [a] → s.busy = none → (cs ≠ [] ∨ rv0 < 0) →
    rv0 ≤ 0 →
    Called a (certLoop u cs results rv0 s).1 (certLoop u cs results rv0 s).2 ∧ (certLoop u cs results rv0 s).1 ≤ 0 := by
  intro cs
  induction cs with
  | nil =>
    intro results rv0 s hr hu hl hb h0 h1
    rw [certLoop]
    have : rv0 < 0 := by simpa using h0
    exact ⟨⟨⟨u, hu⟩, hl, fun h => by omega, fun _ => hb⟩, h1⟩
  | cons c cs ih =>
    intro results rv0 s hr hu hl hb _ _
    have hh := headD_neg hr
    rw [certLoop]
    generalize results.headD (-1) = rv at hh ⊢
    split
    · rename_i h
      subst h
      exact ⟨⟨⟨u, hu⟩, hl, fun _ => by simp [call, hu], fun h => absurd rfl h⟩, by simp⟩
    · rename_i h
      have hb' : (call s ⟨u, u, [c]⟩ rv).busy = none := by
        unfold call
        simp only
        rw [if_neg h, hb]
      split
      · exact ⟨⟨⟨u, hu⟩, hl, fun h' => absurd h' h, fun _ => hb'⟩, hh⟩
      · exact ih results.tail rv _ (fun r h => hr r (List.mem_of_mem_tail h)) hu hl hb' (Or.inr (by omega)) hh

/-- An attempt while no download is running. -/
private theorem start_inv (v : Version) (sv : Server) {init : Int} {results : List Int} (he : Errors init results)
    {s : Ncs} (hi : Inv s) (hb : s.busy = none) :
    ∃ rv s', ncsStart v sv init results s = some (rv, s') ∧ Inv s' ∧ (rv = 1 ↔ s'.busy ≠ none) ∧
      (rv = 0 ↔ sv = .upToDate) ∧ rv ≤ 1 := by
  obtain ⟨hu, hl⟩ := hi.idle hb
  unfold ncsStart
  cases sv with
  | error =>
    refine ⟨-1, s, by simp [getUrl], hi, by simp [hb], by simp, by simp⟩
  | upToDate =>
    refine ⟨0, s, by simp [getUrl, hu], hi, by simp [hb], by simp, by simp⟩
  | url u =>
    simp only [getUrl, hl, List.nil_append]
    rw [if_neg (by simp)]
    simp only [ne_eq, reduceCtorEq, iff_false]
    by_cases h0 : init = 0
    · rw [if_neg (by simp [h0])]
      have hh := headD_neg he.2
      have hcall : ∀ (d : Download) (x : Bytes) (rv : Int),
          Called s.next rv (call ⟨some (s.next, x), [s.next], s.next + 1, s.busy, s.calls⟩ d rv) := by
        intro d x rv
        refine ⟨⟨x, rfl⟩, rfl, fun h => by simp [call, h], fun h => ?_⟩
        unfold call
        simp only
        rw [if_neg h, hb]
      have key : ∀ rv s', Called s.next rv s' → rv ≤ 0 →
          ∃ rv' s'', some (ncsStart.begun rv s') = some (rv', s'') ∧ Inv s'' ∧ (rv' = 1 ↔ ¬ s''.busy = none) ∧
            ¬ rv' = 0 ∧ rv' ≤ 1 := by
        intro rv s' c hrv
        obtain ⟨k1, k2, k3, _, _⟩ := begun_inv c hrv
        generalize ncsStart.begun rv s' = x at k1 k2 k3 ⊢
        obtain ⟨p, q⟩ := x
        simp only at k1 k2 k3
        exact ⟨p, q, rfl, k1, k3, by omega, by omega⟩
      cases v with
      | current =>
        simp only
        cases hs : splitSlash u with
        | none =>
          simp only
          rw [finish_neg (by omega)]
          exact ⟨-1, _, rfl, ⟨fun _ => by simp [cleanup], fun a h => by simp [cleanup, hb] at h⟩,
            by simp [cleanup, hb], by omega, by omega⟩
        | some hf => exact key _ _ (hcall _ _ _) hh
      | any => exact key _ _ (hcall _ _ _) hh
      | start =>
        obtain ⟨k1, k2⟩ := certLoop_spec u s.next certs results 0
          ⟨some (s.next, u), [s.next], s.next + 1, s.busy, s.calls⟩ he.2 rfl rfl hb (Or.inl (by simp [certs]))
          (by omega)
        exact key _ _ k1 k2
    · rw [if_pos (by simpa using h0), finish_neg (by have := he.1; omega)]
      have := he.1
      exact ⟨init, _, rfl, ⟨fun _ => by simp [cleanup], fun a h => by simp [cleanup, hb] at h⟩,
        by simp only [cleanup, hb]; simp only [not_true_eq_false, iff_false]; omega, by omega, by omega⟩

private theorem event_inv (custom : Bool) (e : Event) {s : Ncs} (hi : Inv s) :
    ((onEvent custom e s).1 = true ∧ custom = false ∧ e = .finished ∧ (onEvent custom e s).2.busy = none) ∨
      ((onEvent custom e s).1 = false ∧ Inv (onEvent custom e s).2 ∧
        (onEvent custom e s).2.busy = if e = .progress then s.busy else none) := by
  have hclean : ∀ t : Ncs, t.url = s.url → t.live = s.live → t.busy = none →
      Inv (cleanup t) ∧ (cleanup t).busy = none := by
    intro t h1 h2 h3
    unfold cleanup
    cases hu : s.url with
    | none =>
      rw [h1, hu]
      have hlive : s.live = [] := by
        cases hb : s.busy with
        | none => exact (hi.idle hb).2
        | some a => obtain ⟨⟨u, h⟩, _⟩ := hi.busy a hb; rw [hu] at h; simp at h
      exact ⟨⟨fun _ => ⟨by rw [h1, hu], by rw [h2, hlive]⟩, fun a h => by rw [h3] at h; simp at h⟩, h3⟩
    | some x =>
      rw [h1, hu]
      have hlive : s.live = [x.1] := by
        cases hb : s.busy with
        | none => have := (hi.idle hb).1; rw [hu] at this; simp at this
        | some a =>
          obtain ⟨⟨u, h⟩, h'⟩ := hi.busy a hb
          rw [hu] at h
          have : x = (a, u) := by simpa using h
          rw [this]; exact h'
      obtain ⟨a, u⟩ := x
      simp only
      refine ⟨⟨fun _ => ⟨rfl, ?_⟩, fun b h => ?_⟩, h3⟩
      · simp only
        rw [h2, hlive]; simp
      · simp only at h
        rw [h3] at h; simp at h
  have hc0 := hclean { s with busy := none } rfl rfl rfl
  have hcc : cleanup (cleanup { s with busy := none }) = cleanup { s with busy := none } := by
    unfold cleanup
    cases hu : s.url with
    | none => simp [hu]
    | some x => simp
  unfold onEvent downloadCallback
  cases e <;> cases custom <;> simp [hc0.1, hc0.2, hcc, hi]

/-- C93: with all versions of the nRF Connect SDK, in every history of attempts and events of the download library in
which no attempt is made while a download is running, whatever the server and the library answer: every attempt
returns; while a download is running exactly its URL is allocated; and when none is running nothing is, unless the
device has rebooted to install the update. Missing: attempts while a download is running (`C93_false_leak`,
`C93_false_freed`). -/
theorem C93_url_partial (v : Version) (custom : Bool) (ops : List Op)
    (herr : ∀ sv init results, Op.start sv init results ∈ ops → init ≤ 0 ∧ ∀ r ∈ results, r ≤ 0)
    (halone : ∀ before sv init results after, ops = before ++ Op.start sv init results :: after →
      ∀ rs s, ncsRun v custom Ncs.boot before = some (rs, s) → s.busy = none) :
    ∃ rs s, ncsRun v custom Ncs.boot ops = some (rs, s) ∧ (∀ a, s.busy = some a → s.live = [a]) ∧
      (s.busy = none → s.live = [] ∨ (custom = false ∧ Op.event .finished ∈ ops)) := by
  have main : ∀ (ops : List Op) (s : Ncs), Inv s →
      (∀ sv init results, Op.start sv init results ∈ ops → init ≤ 0 ∧ ∀ r ∈ results, r ≤ 0) →
      (∀ before sv init results after, ops = before ++ Op.start sv init results :: after →
        ∀ rs s', ncsRun v custom s before = some (rs, s') → s'.busy = none) →
      ∃ rs s', ncsRun v custom s ops = some (rs, s') ∧ (∀ a, s'.busy = some a → s'.live = [a]) ∧
        (s'.busy = none → s'.live = [] ∨ (custom = false ∧ Op.event .finished ∈ ops)) := by
    intro ops
    induction ops with
    | nil => intro s hi _ _; exact ⟨[], s, rfl, fun a h => (hi.busy a h).2, fun h => Or.inl (hi.idle h).2⟩
    | cons op ops ih =>
      intro s hi he ha
      cases op with
      | start sv init results =>
        have hb : s.busy = none := ha [] sv init results ops rfl [] s rfl
        obtain ⟨rv, s', h1, h2, _, _, _⟩ := start_inv v sv (he sv init results (by simp)) hi hb
        obtain ⟨rs, s'', k1, k2, k3⟩ := ih s' h2 (fun a b c h => he a b c (by simp [h])) (by
          intro before sv' init' results' after h rs t ht
          refine ha (.start sv init results :: before) sv' init' results' after (by rw [h]; rfl) (rv :: rs) t ?_
          rw [ncsRun, h1, Option.bind_some]
          simp only
          rw [ht]
          rfl)
        refine ⟨rv :: rs, s'', ?_, k2, fun h => (k3 h).imp id fun h => ⟨h.1, by simp [h.2]⟩⟩
        rw [ncsRun, h1, Option.bind_some]
        simp only
        rw [k1]
        rfl
      | event e =>
        rw [ncsRun]
        rcases event_inv custom e hi with ⟨h1, h2, h3, h4⟩ | ⟨h1, h2, _⟩
        · rw [if_pos h1]
          exact ⟨[], _, rfl, fun a h => (by rw [h4] at h; simp at h), fun _ => Or.inr ⟨h2, by simp [h3]⟩⟩
        · rw [if_neg (by simp [h1])]
          obtain ⟨rs, s'', k1, k2, k3⟩ := ih _ h2 (fun a b c h => he a b c (by simp [h])) (by
            intro before sv' init' results' after h rs t ht
            refine ha (.event e :: before) sv' init' results' after (by rw [h]; rfl) rs t ?_
            rw [ncsRun, if_neg (by simp [h1])]
            exact ht)
          exact ⟨rs, s'', k1, k2, fun h => (k3 h).imp id fun h => ⟨h.1, by simp [h.2]⟩⟩
  exact main ops Ncs.boot ⟨fun _ => ⟨rfl, rfl⟩, fun a h => by simp [Ncs.boot] at h⟩ herr halone

/-- C93: and the result of an attempt is 1 exactly when a download was started, 0 exactly when the device is up to
date, and negative otherwise. -/
theorem C93_result (v : Version) (sv : Server) {init : Int} {results : List Int} (h0 : init ≤ 0)
    (h1 : ∀ r ∈ results, r ≤ 0) :
    ∃ rv s, ncsStart v sv init results Ncs.boot = some (rv, s) ∧ (rv = 1 ↔ s.busy ≠ none) ∧
      (rv = 0 ↔ sv = .upToDate) ∧ rv ≤ 1 := by
  obtain ⟨rv, s, a, _, b, c, d⟩ := start_inv v sv (init := init) (results := results) ⟨h0, h1⟩
    (s := Ncs.boot) ⟨fun _ => ⟨rfl, rfl⟩, fun a h => by simp [Ncs.boot] at h⟩ rfl
  exact ⟨rv, s, a, b, c, d⟩

private theorem split_host : ∀ (host file : Bytes), (∀ c ∈ host, c ≠ 47) →
    splitSlash (host ++ 47 :: file) = some (host, file) := by
  intro host
  induction host with
  | nil => intro file _; simp [splitSlash]
  | cons c cs ih =>
    intro file h
    rw [List.cons_append, splitSlash, if_neg (h c (by simp)), ih file (fun x hx => h x (by simp [hx]))]
    rfl

private theorem split_none : ∀ (host : Bytes), (∀ c ∈ host, c ≠ 47) → splitSlash host = none := by
  intro host
  induction host with
  | nil => intro _; rfl
  | cons c cs ih =>
    intro h
    rw [splitSlash, if_neg (h c (by simp)), ih (fun x hx => h x (by simp [hx]))]
    rfl

/-- The state after a call with this result. -/
private theorem current_call {host file : Bytes} (h : ∀ c ∈ host, c ≠ 47) (r : Int) :
    ncsStart .current (.url (host ++ 47 :: file)) 0 [r] Ncs.boot
      = some (ncsStart.begun r (call ⟨some (0, host), [0], 1, none, []⟩ ⟨host, file, rootCerts⟩ r)) := by
  have hx : ∀ x, ncsStart .current (.url x) 0 [r] Ncs.boot = match splitSlash x with
      | none => some (ncsStart.finish (-1) ⟨some (0, x), [0], 1, none, []⟩)
      | some (host, file) =>
        some (ncsStart.begun r (call ⟨some (0, host), [0], 1, none, []⟩ ⟨host, file, rootCerts⟩ r)) := fun _ => rfl
  rw [hx, split_host host file h]

private theorem begun_calls (r : Int) (s : Ncs) : (ncsStart.begun r s).2.calls = s.calls := by
  have h : ∀ x, (ncsStart.finish x s).2.calls = s.calls := by
    intro x
    unfold ncsStart.finish
    split
    · unfold cleanup
      split <;> rfl
    · rfl
  unfold ncsStart.begun
  split <;> exact h _

/-- C93: a URL without a scheme is given to the current library as the host before the first slash and the file
after it, with all root certificates. -/
theorem C93_split {host file : Bytes} (h : ∀ c ∈ host, c ≠ 47) (r : Int) :
    (ncsStart .current (.url (host ++ 47 :: file)) 0 [r] Ncs.boot).map (·.2.calls)
      = some [(⟨host, file, rootCerts⟩, r)] := by
  rw [current_call h, Option.map_some, begun_calls]
  rfl

private theorem scheme_no_slash {u : Uri} (hu : u.Ok) : ∀ c ∈ u.schemeText ++ [58], c ≠ 47 := by
  intro c hc h
  rw [List.mem_append] at hc
  rcases hc with hc | hc
  · have h1 : Spec.Http.toLower c ∈ u.schemeText.map Spec.Http.toLower := List.mem_map_of_mem hc
    rw [hu.scheme, h] at h1
    unfold Spec.Http.schemeName at h1
    split at h1 <;> revert h1 <;> decide
  · rw [h] at hc
    revert hc; decide

/-- C93 is false: for every URL with a scheme, which is what the service answers and what the HTTP client of the same
port requires (C49), the current library is given the scheme as the host. -/
theorem C93_false_host {u : Uri} (hu : u.Ok) (r : Int) :
    (ncsStart .current (.url u.bytes) 0 [r] Ncs.boot).map (·.2.calls)
      = some [(⟨u.schemeText ++ [58], 47 :: (u.userText ++ u.host ++ u.portText ++ u.path.getD []), rootCerts⟩, r)] ∧
    u.schemeText ++ [58] ≠ u.host := by
  constructor
  · have hb : u.bytes = (u.schemeText ++ [58]) ++ 47 :: (47 :: (u.userText ++ u.host ++ u.portText ++ u.path.getD [])) := by
      unfold Uri.bytes
      simp
    rw [hb, C93_split (scheme_no_slash hu)]
  · intro h
    rcases hu.host with hh | ⟨inner, hh, _⟩
    · exact (hh.2.1 58 (by rw [← h]; simp)).2.2 rfl
    · have := congrArg List.getLast? (h.trans hh)
      rw [List.getLast?_append, List.cons_append, ← List.cons_append, List.getLast?_append] at this
      revert this
      simp

/-- C93: the libraries before that get the whole URL, and all root certificates from version 2.6 of the nRF Connect
SDK. -/
theorem C93_any (u : Bytes) (r : Int) :
    (ncsStart .any (.url u) 0 [r] Ncs.boot).map (·.2.calls) = some [(⟨u, u, rootCerts⟩, r)] := by
  rw [show ncsStart .any (.url u) 0 [r] Ncs.boot
    = some (ncsStart.begun r (call ⟨some (0, u), [0], 1, none, []⟩ ⟨u, u, rootCerts⟩ r)) from rfl,
    Option.map_some, begun_calls]
  rfl

private theorem certLoop_tried (u : Bytes) : ∀ (cs : List Nat) (results : List Int) (rv0 : Int) (s : Ncs),
    results.length = cs.length →
    (certLoop u cs results rv0 s).2.calls
        = s.calls ++ List.zipWith (fun c r => (⟨u, u, [c]⟩, r)) cs (tried results) ∧
      (certLoop u cs results rv0 s).1 = (tried results).getLast?.getD rv0 := by
  intro cs
  induction cs with
  | nil =>
    intro results rv0 s h
    rw [List.length_eq_zero_iff.1 h]
    simp [certLoop, tried]
  | cons c cs ih =>
    intro results rv0 s h
    cases results with
    | nil => simp at h
    | cons r rs =>
      rw [show certLoop u (c :: cs) (r :: rs) rv0 s = if r = 0 then (r, call s ⟨u, u, [c]⟩ r)
        else if r = -114 then (r, call s ⟨u, u, [c]⟩ r) else certLoop u cs rs r (call s ⟨u, u, [c]⟩ r) from rfl, tried]
      by_cases h0 : r = 0
      · rw [if_pos h0, if_pos (Or.inl h0)]
        simp [call]
      · by_cases h1 : r = -114
        · rw [if_neg h0, if_pos h1, if_pos (Or.inr h1)]
          simp [call]
        · rw [if_neg h0, if_neg h1, if_neg (by simp [h0, h1])]
          obtain ⟨k1, k2⟩ := ih rs r (call s ⟨u, u, [c]⟩ r) (by simpa using h)
          rw [k1, k2]
          constructor
          · simp [call]
          · rw [List.getLast?_cons]
            rfl

/-- C93: older libraries are tried with one root certificate after the other, until one works or a download is running
already; the result is that of the last one. -/
theorem C93_certificates (u : Bytes) (results : List Int) (hl : results.length = 3) (h : ∀ r ∈ results, r ≤ 0) :
    ∃ rv s, ncsStart .start (.url u) 0 results Ncs.boot = some (rv, s) ∧
      s.calls = List.zipWith (fun c r => (⟨u, u, [c]⟩, r)) rootCerts (tried results) ∧
      some rv = (tried results).getLast?.map fun r => if r = 0 then 1 else r := by
  have hx : ncsStart .start (.url u) 0 results Ncs.boot
      = some (ncsStart.begun (certLoop u rootCerts results 0 ⟨some (0, u), [0], 1, none, []⟩).1
        (certLoop u rootCerts results 0 ⟨some (0, u), [0], 1, none, []⟩).2) := rfl
  rw [hx]
  obtain ⟨k1, k2⟩ := certLoop_tried u rootCerts results 0 ⟨some (0, u), [0], 1, none, []⟩ hl
  obtain ⟨c1, c2⟩ := certLoop_spec u 0 rootCerts results 0 ⟨some (0, u), [0], 1, none, []⟩ h rfl rfl rfl
    (Or.inl (by decide)) (by omega)
  obtain ⟨_, _, _, b4, b5⟩ := begun_inv c1 c2
  refine ⟨_, _, rfl, ?_, ?_⟩
  · refine Eq.trans b4 ?_
    rw [k1]
    rfl
  · refine Eq.trans (congrArg some b5) ?_
    rw [k2]
    cases results with
    | nil => simp at hl
    | cons r rs =>
      rw [tried]
      split
      · rfl
      · rw [List.getLast?_cons]
        rfl

private theorem current_start {host file : Bytes} (h : ∀ c ∈ host, c ≠ 47) :
    ncsStart .current (.url (host ++ 47 :: file)) 0 [0] Ncs.boot
      = some (1, ⟨some (0, host), [0], 1, some 0, [(⟨host, file, rootCerts⟩, 0)]⟩) := by
  rw [current_call h]; rfl

private theorem current_again {host file : Bytes} (h : ∀ c ∈ host, c ≠ 47) (x : Bytes) (calls : List (Download × Int)) :
    ncsStart .current (.url (host ++ 47 :: file)) 0 [-114] ⟨some (0, x), [0], 1, some 0, calls⟩
      = some (-114, ⟨none, [0], 2, some 0, calls ++ [(⟨host, file, rootCerts⟩, -114)]⟩) := by
  have hx : ∀ u, ncsStart .current (.url u) 0 [-114] ⟨some (0, x), [0], 1, some 0, calls⟩
      = match splitSlash u with
        | none => some (ncsStart.finish (-1) ⟨some (1, u), [0, 1], 2, some 0, calls⟩)
        | some (host, file) =>
          some (ncsStart.begun (-114) (call ⟨some (1, host), [0, 1], 2, some 0, calls⟩ ⟨host, file, rootCerts⟩ (-114))) :=
    fun _ => rfl
  rw [hx, split_host host file h]
  rfl

/-- C93 is false: with all versions, an attempt while a download is running, for which the library answers that it is
busy, loses the URL of the running download: it is never freed, whatever the URLs are. -/
theorem C93_false_leak (v : Version) (custom : Bool) {h1 f1 h2 f2 : Bytes} (n1 : ∀ c ∈ h1, c ≠ 47)
    (n2 : ∀ c ∈ h2, c ≠ 47) :
    ∃ s, ncsRun v custom Ncs.boot [.start (.url (h1 ++ 47 :: f1)) 0 [0], .start (.url (h2 ++ 47 :: f2)) 0 [-114],
        .event .error] = some ([1, -114], s) ∧
      s.busy = none ∧ s.url = none ∧ s.live = [0] := by
  cases v with
  | current =>
    refine ⟨⟨none, [0], 2, none, [(⟨h1, f1, rootCerts⟩, 0), (⟨h2, f2, rootCerts⟩, -114)]⟩, ?_, rfl, rfl, rfl⟩
    rw [ncsRun, current_start n1, Option.bind_some]
    simp only
    rw [ncsRun, current_again n2, Option.bind_some]
    cases custom <;> rfl
  | any =>
    refine ⟨⟨none, [0], 2, none, [(⟨h1 ++ 47 :: f1, h1 ++ 47 :: f1, rootCerts⟩, 0),
      (⟨h2 ++ 47 :: f2, h2 ++ 47 :: f2, rootCerts⟩, -114)]⟩, ?_, rfl, rfl, rfl⟩
    cases custom <;> rfl
  | start =>
    refine ⟨⟨none, [0], 2, none, [(⟨h1 ++ 47 :: f1, h1 ++ 47 :: f1, [1001]⟩, 0),
      (⟨h2 ++ 47 :: f2, h2 ++ 47 :: f2, [1001]⟩, -114)]⟩, ?_, rfl, rfl, rfl⟩
    cases custom <;> rfl

/-- C93 is false: with all versions, an attempt while a download is running, for which the server answers that the
device is up to date, frees the URL of the running download, and returns an error. -/
theorem C93_false_freed (v : Version) (custom : Bool) {h1 f1 : Bytes} (n1 : ∀ c ∈ h1, c ≠ 47) :
    ∃ r s, ncsRun v custom Ncs.boot [.start (.url (h1 ++ 47 :: f1)) 0 [0], .start .upToDate 0 [-114]]
        = some ([1, r], s) ∧ r < 0 ∧ s.busy = some 0 ∧ s.live = [] := by
  cases v with
  | current =>
    refine ⟨-1, ⟨none, [], 1, some 0, [(⟨h1, f1, rootCerts⟩, 0)]⟩, ?_, by decide, rfl, rfl⟩
    rw [ncsRun, current_start n1, Option.bind_some]
    simp only
    rw [ncsRun, show ncsStart .current .upToDate 0 [-114] ⟨some (0, h1), [0], 1, some 0, [(⟨h1, f1, rootCerts⟩, 0)]⟩
      = match splitSlash h1 with
        | none => some (ncsStart.finish (-1) ⟨some (0, h1), [0], 1, some 0, [(⟨h1, f1, rootCerts⟩, 0)]⟩)
        | some (host, file) => some (ncsStart.begun (-114)
            (call ⟨some (0, host), [0], 1, some 0, [(⟨h1, f1, rootCerts⟩, 0)]⟩ ⟨host, file, rootCerts⟩ (-114))) from rfl,
      split_none h1 n1]
    rfl
  | any => exact ⟨-114, ⟨none, [], 1, some 0, _⟩, rfl, by decide, rfl, rfl⟩
  | start => exact ⟨-114, ⟨none, [], 1, some 0, _⟩, rfl, by decide, rfl, rfl⟩

/-- The hypotheses of `C93_url_partial` are met: an attempt, its download with an error, and a second attempt. -/
example (v : Version) : ∃ rs s, ncsRun v false Ncs.boot
    [.start (.url [104, 47, 102]) 0 [0], .event .error, .start .upToDate 0 []] = some (rs, s) ∧
      (∀ a, s.busy = some a → s.live = [a]) ∧
      (s.busy = none → s.live = [] ∨ (false = false ∧ Op.event .finished ∈
        [Op.start (.url [104, 47, 102]) 0 [0], .event .error, .start .upToDate 0 []])) := by
  refine C93_url_partial v false _ ?_ ?_
  · intro sv init results h
    simp only [List.mem_cons, Op.start.injEq, reduceCtorEq, List.not_mem_nil, or_false, false_or] at h
    rcases h with ⟨_, rfl, rfl⟩ | ⟨_, rfl, rfl⟩ <;> simp
  · intro before sv init results after h rs s hs
    match before, h with
    | [], h => cases hs; rfl
    | [a], h => simp at h
    | [a, b], h =>
      simp only [List.cons_append, List.nil_append, List.cons.injEq] at h
      obtain ⟨rfl, rfl, _⟩ := h
      cases v <;> (cases hs; rfl)
    | a :: b :: c :: l, h => simp at h

end Mflt.Props
