import Verif.Lemmas.FlashPorts
import Verif.Props.BufferedStorage

/-! # Lemmas: coredumps written to flash in blocks -/

namespace Mflt.BufferedStorage

/-- A port accepts every block of a list after those before. -/
def Acc (q : Port) (l : List (Nat × Bytes)) : Prop := ∀ k b, l[k]? = some b → q (l.take k) b = true

theorem Acc.prefix {q : Port} {l l' : List (Nat × Bytes)} (h : Acc q l') (hp : l <+: l') : Acc q l := by
  obtain ⟨t, rfl⟩ := hp
  intro k b hk
  have hlt : k < l.length := by
    rcases Nat.lt_or_ge k l.length with h | h
    · exact h
    · rw [List.getElem?_eq_none h] at hk; cases hk
  have := h k b (by rw [List.getElem?_append_left hlt]; exact hk)
  rwa [List.take_append_of_le_length (by omega)] at this

theorem Acc.last {q : Port} {l : List (Nat × Bytes)} {b : Nat × Bytes} (h : Acc q (l ++ [b])) : q l b = true := by
  have := h l.length b (by simp)
  simpa using this

/-- With a port that accepts what was written with a port that accepts everything, the same happens. -/
def Agree (q : Port) (s : State) (f : Port → Option (Bool × State)) : Prop :=
  ∀ s', f (fun _ _ => true) = some (true, s') → s.log <+: s'.log ∧ (Acc q s'.log → f q = some (true, s'))

theorem writeHdr_agree (W : Nat) (q : Port) (s : State) : Agree q s (fun p => some (writeHdr W p s)) := by
  intro s' h
  simp [writeHdr] at h
  subst h
  refine ⟨List.prefix_append _ _, fun ha => ?_⟩
  simp [writeHdr, ha.last]

theorem writeDat_agree (W : Nat) (q : Port) (s : State) : Agree q s (fun p => some (writeDat W p s)) := by
  intro s' h
  simp [writeDat] at h
  subst h
  refine ⟨List.prefix_append _ _, fun ha => ?_⟩
  simp [writeDat, ha.last]

theorem flushFullDat_agree (W : Nat) (q : Port) (s : State) : Agree q s (fun p => some (flushFullDat W p s)) := by
  unfold flushFullDat
  split
  · exact writeDat_agree W q s
  · intro s' h
    simp at h
    subst h
    exact ⟨List.prefix_rfl, fun _ => rfl⟩

/-- One after the other. -/
theorem agree_bind {q : Port} {s : State} {f : Port → Option (Bool × State)} {g : Port → State → Option (Bool × State)}
    (hf : Agree q s f) (hg : ∀ s1, Agree q s1 (fun p => g p s1)) : Agree q s (fun p =>
      match f p with
      | none => none
      | some (false, s) => some (false, s)
      | some (true, s) => g p s) := by
  intro s' h
  simp only at h ⊢
  split at h
  · cases h
  · cases h
  · rename_i s1 h1
    obtain ⟨p1, a1⟩ := hf s1 h1
    obtain ⟨p2, a2⟩ := hg s1 s' h
    refine ⟨p1.trans p2, fun ha => ?_⟩
    rw [a1 (ha.prefix p2)]
    exact a2 ha

theorem agree_congr {q : Port} {s : State} {f g : Port → Option (Bool × State)} (h : Agree q s f) (e : ∀ p, g p = f p) :
    Agree q s g := by
  intro s' hs
  rw [e] at hs
  rw [e]
  exact h s' hs

theorem tryFlush_agree (W : Nat) (q : Port) (s : State) : Agree q s (fun p => some (tryFlush W p s)) := by
  by_cases h : s.hdr.bytesWritten = W
  · have h1 : Agree q s (fun p => some (if s.dat.bytesWritten ≠ 0 then writeDat W p s else (true, s))) := by
      by_cases h0 : s.dat.bytesWritten ≠ 0
      · simp only [if_pos h0]; exact writeDat_agree W q s
      · simp only [if_neg h0]
        intro s' hs
        simp at hs
        subst hs
        exact ⟨List.prefix_rfl, fun _ => rfl⟩
    refine agree_congr (agree_bind h1 (g := fun p s => match some (writeHdr W p s) with
      | none => none
      | some (false, s) => some (false, s)
      | some (true, s) => some (flushFullDat W p s)) (fun s1 => agree_bind (writeHdr_agree W q s1)
        (g := fun p s => some (flushFullDat W p s)) (flushFullDat_agree W q))) ?_
    intro p
    unfold tryFlush
    rw [if_pos h]
    rcases (if s.dat.bytesWritten ≠ 0 then writeDat W p s else (true, s)) with ⟨b, s1⟩
    cases b
    · rfl
    · simp only
      rcases writeHdr W p s1 with ⟨b, s2⟩
      cases b <;> rfl
  · refine agree_congr (flushFullDat_agree W q s) ?_
    intro p
    unfold tryFlush
    rw [if_neg h]

theorem put_agree (W : Nat) (q : Port) (s : State) (page idx : Nat) (d : Bytes) :
    Agree q s (fun p => put W p s page idx d) := by
  unfold put
  split
  · cases h : memcpyIn s.hdr.data idx d with
    | none => intro s' hs; simp at hs
    | some x => exact tryFlush_agree W q _
  · cases h : memcpyIn s.dat.data idx d with
    | none => intro s' hs; simp at hs
    | some x => exact tryFlush_agree W q _

theorem loop_agree (W : Nat) (q : Port) (a : Nat) (d : Bytes) : ∀ (fuel : Nat) (s : State) (i : Nat),
    Agree q s (fun p => loop W p a d fuel s i) := by
  intro fuel
  induction fuel with
  | zero =>
    intro s i
    unfold loop
    split
    · intro s' h; cases h
    · intro s' h
      simp at h
      subst h
      exact ⟨List.prefix_rfl, fun _ => rfl⟩
  | succ fuel ih =>
    intro s i
    unfold loop
    by_cases h : i < d.length
    · simp only [if_pos h]
      exact agree_bind (g := fun p s => loop W p a d fuel s (i + W)) (put_agree W q s _ _ _) (fun s1 => ih s1 _)
    · simp only [if_neg h]
      intro s' h
      simp at h
      subst h
      exact ⟨List.prefix_rfl, fun _ => rfl⟩

theorem bufferedWrite_agree (W size : Nat) (q : Port) (s : State) (o : Nat) (d : Bytes) :
    Agree q s (fun p => bufferedWrite W size p s o d) := by
  unfold bufferedWrite
  by_cases h : add32 o d.length > size ∨ size % W ≠ 0 ∨ size < W
  · simp only [if_pos h]
    intro s' h
    simp at h
  · simp only [if_neg h]
    by_cases h1 : o / W * W ≠ o
    · simp only [if_pos h1]
      exact agree_bind (g := fun p s => loop W p (o + min (o / W * W + W - o) d.length)
          (d.drop (min (o / W * W + W - o) d.length)) (d.length + 1) s 0)
        (put_agree W q s _ _ _) (fun s1 => loop_agree W q _ _ _ s1 0)
    · simp only [if_neg h1]
      exact loop_agree W q _ _ _ s 0

theorem writes_agree (W size : Nat) (q : Port) (ws : List (Nat × Bytes)) : ∀ s : State,
    Agree q s (fun p => writes W size p s ws) := by
  induction ws with
  | nil =>
    intro s s' h
    simp [writes] at h
    subst h
    exact ⟨List.prefix_rfl, fun _ => rfl⟩
  | cons w ws ih =>
    intro s
    refine agree_congr (agree_bind (g := fun p s => writes W size p s ws) (bufferedWrite_agree W size q s w.1 w.2) ih) ?_
    intro p
    obtain ⟨o, d⟩ := w
    rw [writes]
    rcases bufferedWrite W size p s o d with _ | ⟨b, s1⟩
    · rfl
    · cases b <;> rfl

end Mflt.BufferedStorage

namespace Mflt.Spec.Flash

open Mflt.Coredump (Op wr)
open Spec.BufferedStorage (pieces block blocks numBlocks)
open Spec.Coredump (apply parse number)

/-- Blocks written to different erased places. -/
theorem runOps_blocks {start size lo len W : Nat} {p : Port} (hS : BlockStorage start size lo len W p) (ws : List (Nat × Bytes)) :
    ∀ m, (∀ w ∈ ws, w.1 % W = 0 ∧ w.2.length = W ∧ w.1 + W ≤ size ∧ Blank m (start + w.1) W) → ws.Pairwise Apart →
      ∃ m', runOps p m (ws.map wr) = some m' ∧ Only start size m m' ∧
        read m' start size = (ws.map wr).foldl (apply 0xff) (read m start size) := by
  induction ws with
  | nil => intro m _ _; exact ⟨m, rfl, Only.refl _ _ _, rfl⟩
  | cons w ws ih =>
    intro m hw hp
    obtain ⟨h1, h2, h3, h4⟩ := hw w (by simp)
    rw [List.pairwise_cons] at hp
    obtain ⟨m', e1, e2, e3⟩ := ih (program m (start + w.1) w.2) (by
      intro x hx
      obtain ⟨x1, x2, x3, x4⟩ := hw x (by simp [hx])
      refine ⟨x1, x2, x3, fun i hi => ?_⟩
      have := hp.1 x hx
      unfold Apart at this
      rw [program_out (by omega), x4 i hi]) hp.2
    refine ⟨m', ?_, ?_, ?_⟩
    · rw [List.map_cons, wr, runOps, hS.block_eq _ _ _ h1 h2 h3 h4]
      exact e1
    · exact (only_program.widen (by omega) (by omega)).trans e2
    · rw [e3, List.map_cons, List.foldl_cons, wr, read_program (by omega) (by rw [h2]; exact h4)]

/-- Aligned blocks at different places have nothing in common. -/
theorem blocks_apart {W : Nat} (l : List (Nat × Bytes)) (hn : (l.map (·.1)).Nodup)
    (hl : ∀ b ∈ l, b.1 % W = 0 ∧ b.2.length = W) : l.Pairwise Apart := by
  induction l with
  | nil => simp
  | cons b l ih =>
    rw [List.map_cons, List.nodup_cons] at hn
    rw [List.pairwise_cons]
    refine ⟨fun x hx => ?_, ih hn.2 (fun x hx => hl x (by simp [hx]))⟩
    obtain ⟨b1, b2⟩ := hl b (by simp)
    obtain ⟨x1, x2⟩ := hl x (by simp [hx])
    have hne : b.1 ≠ x.1 := fun h => hn.1 (List.mem_map.mpr ⟨x, hx, h.symm⟩)
    unfold Apart
    rw [b2, x2]
    obtain ⟨a, ha⟩ := Nat.dvd_of_mod_eq_zero b1
    obtain ⟨c, hc⟩ := Nat.dvd_of_mod_eq_zero x1
    rcases Nat.lt_trichotomy a c with h | h | h
    · left
      have := Nat.mul_le_mul_left W (show a + 1 ≤ c from h)
      rw [Nat.mul_add, Nat.mul_one] at this
      omega
    · rw [h] at ha; omega
    · right
      have := Nat.mul_le_mul_left W (show c + 1 ≤ a from h)
      rw [Nat.mul_add, Nat.mul_one] at this
      omega

theorem foldl_program (l : List (Nat × Bytes)) : ∀ mem,
    (l.map wr).foldl (apply 0xff) mem = l.foldl Spec.BufferedStorage.program mem := by
  induction l with
  | nil => intro mem; rfl
  | cons b l ih => intro mem; rw [List.map_cons, List.foldl_cons, List.foldl_cons, ih]; rfl

/-- Pieces written one after the other. -/
theorem foldl_pieces (e : UInt8) (ds : List Bytes) : ∀ (X : Bytes) (Y : Bytes), ds.flatten.length ≤ Y.length →
    ((pieces X.length ds).map wr).foldl (apply e) (X ++ Y) = X ++ ds.flatten ++ Y.drop ds.flatten.length := by
  induction ds with
  | nil => intro X Y _; simp [pieces]
  | cons d ds ih =>
    intro X Y h
    rw [List.flatten_cons, List.length_append] at h ⊢
    rw [pieces, List.map_cons, List.foldl_cons]
    have : apply e (X ++ Y) (wr (X.length, d)) = (X ++ d) ++ Y.drop d.length := by
      show (X ++ Y).take X.length ++ d ++ (X ++ Y).drop (X.length + d.length) = _
      rw [List.take_left, List.drop_append, List.drop_eq_nil_of_le (by omega), List.nil_append,
        Nat.add_sub_cancel_left]
    rw [this]
    have := ih (X ++ d) (Y.drop d.length) (by rw [List.length_drop]; omega)
    rw [List.length_append] at this
    rw [this, List.drop_drop]
    simp [List.append_assoc]

/-- What a save leaves in the storage. -/
theorem foldl_save (e : UInt8) {ds : List Bytes} {hdr mem : Bytes} (hh : hdr.length = 12)
    (hn : 12 + ds.flatten.length ≤ mem.length) :
    (Op.erase mem.length :: (pieces 12 ds).map wr ++ [Op.write 0 hdr]).foldl (apply e) mem =
      hdr ++ ds.flatten ++ List.replicate (mem.length - (12 + ds.flatten.length)) e := by
  rw [List.cons_append, List.foldl_cons, List.foldl_append, List.foldl_cons, List.foldl_nil]
  have h0 : apply e mem (.erase mem.length) = List.replicate 12 e ++ List.replicate (mem.length - 12) e := by
    show List.replicate mem.length e ++ mem.drop mem.length = _
    rw [List.drop_length, List.append_nil, List.replicate_append_replicate]
    congr 1; omega
  have := foldl_pieces e ds (List.replicate 12 e) (List.replicate (mem.length - 12) e)
    (by rw [List.length_replicate]; omega)
  rw [List.length_replicate] at this
  rw [h0, this]
  show _ ++ hdr ++ List.drop (0 + hdr.length) _ = _
  rw [hh, Nat.zero_add, List.take_zero, List.nil_append, List.append_assoc, List.append_assoc,
    List.drop_left' (List.length_replicate ..), List.drop_replicate]
  congr 3
  omega

/-- Only the total size of a coredump matters to its reader. -/
theorem parse_congr {mem mem' : Bytes} {n : Nat} (hl : mem.length = mem'.length) (h12 : 12 ≤ n)
    (hn : number ((mem.drop 8).take 4) = n) (h : mem.take n = mem'.take n) : parse mem = parse mem' := by
  have hsub : ∀ a b, a + b ≤ n → (mem.drop a).take b = (mem'.drop a).take b := by
    intro a b hab
    have h1 := congrArg (fun x => (x.drop a).take b) h
    simp only [List.drop_take, List.take_take, Nat.min_eq_left (show b ≤ n - a by omega)] at h1
    exact h1
  have h0 : mem.take 4 = mem'.take 4 := by
    have := hsub 0 4 (by omega); simpa using this
  unfold parse
  simp only
  rw [← hsub 8 4 (by omega), hn, ← h0, ← hsub 4 4 (by omega), ← hl]
  by_cases h28 : 28 ≤ n
  · rw [← hsub (n - 16) 4 (by omega), ← hsub 12 (n - 28) (by omega), ← hsub (n - 12) 4 (by omega)]
  · rw [if_neg (by omega), if_neg (by omega)]

end Mflt.Spec.Flash
