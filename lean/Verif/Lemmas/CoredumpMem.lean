import Verif.Lemmas.Coredump

/-! # Lemmas: coredumps in the storage -/

namespace Mflt.Coredump

open Spec.Coredump

/-- The storage starts with the magic number. -/
def Magic (mem : Bytes) : Prop := mem.take 4 = [0x43, 0x4f, 0x52, 0x45]

theorem headerValid_iff (hdr : Bytes) (h : 4 ≤ hdr.length) : headerValid hdr = true ↔ Magic hdr := by
  unfold headerValid Magic
  match hdr, h with
  | a :: b :: c :: d :: r, _ =>
    simp only [List.take_succ_cons, List.take_zero, ofLe32, beq_iff_eq, List.cons.injEq, and_true]
    have ha := a.toNat_lt
    have hb := b.toNat_lt
    have hc := c.toNat_lt
    have hd := d.toNat_lt
    constructor
    · intro h
      exact ⟨UInt8.toNat.inj (by show a.toNat = 67; omega), UInt8.toNat.inj (by show b.toNat = 79; omega),
        UInt8.toNat.inj (by show c.toNat = 82; omega), UInt8.toNat.inj (by show d.toNat = 69; omega)⟩
    · rintro ⟨rfl, rfl, rfl, rfl⟩; rfl

theorem hasValid_none_iff (mem : Bytes) :
    hasValid true mem = none ↔ mem.length < 12 ∨ ¬ Magic mem := by
  unfold hasValid readHeader
  by_cases h0 : mem.length = 0
  · simp [h0]
  · rw [if_neg h0]
    by_cases h12 : 12 ≤ mem.length
    · simp only [h12, decide_true, Bool.and_true, if_true]
      have hm : Magic (mem.take 12) ↔ Magic mem := by unfold Magic; rw [List.take_take]; rfl
      by_cases hv : headerValid (mem.take 12) = true
      · have := hm.mp ((headerValid_iff _ (by rw [List.length_take]; omega)).mp hv)
        simp only [hv, if_true]
        simp only [reduceCtorEq, false_iff, not_or]
        exact ⟨by omega, fun h => h this⟩
      · have : ¬ Magic mem := fun h =>
          hv ((headerValid_iff _ (by rw [List.length_take]; omega)).mpr (hm.mpr h))
        simp [hv, this]
    · simp only [h12, decide_false, Bool.and_false, Bool.false_eq_true, if_false, true_iff]
      left; omega

theorem apply_write_length {e : UInt8} {mem : Bytes} {off : Nat} {d : Bytes}
    (h : off + d.length ≤ mem.length) : (apply e mem (.write off d)).length = mem.length := by
  simp only [apply, List.length_append, List.length_take, List.length_drop]; omega

theorem apply_safe {e : UInt8} {mem : Bytes} {w : Op} (h : Safe mem.length w) :
    (apply e mem w).length = mem.length ∧ (apply e mem w).take 12 = mem.take 12 := by
  cases w with
  | erase n => exact h.elim
  | write off d =>
    obtain ⟨h1, h2⟩ := h
    refine ⟨apply_write_length h2, ?_⟩
    simp only [apply]
    rw [List.append_assoc, List.take_append_of_le_length (by rw [List.length_take]; omega), List.take_take]
    congr 1; omega

theorem cut_safe {size j : Nat} {w : Op} (h : Safe size w) : Safe size (cut j w) := by
  cases w with
  | erase n => exact h.elim
  | write off d => exact ⟨h.1, by have := h.2; rw [List.length_take]; omega⟩

theorem fold_safe {e : UInt8} (ws : List Op) : ∀ {mem : Bytes}, (∀ w ∈ ws, Safe mem.length w) →
    (ws.foldl (apply e) mem).length = mem.length ∧ (ws.foldl (apply e) mem).take 12 = mem.take 12 := by
  induction ws with
  | nil => intro mem _; exact ⟨rfl, rfl⟩
  | cons w ws ih =>
    intro mem h
    obtain ⟨a1, a2⟩ := apply_safe (e := e) (h w (by simp))
    obtain ⟨b1, b2⟩ := ih (mem := apply e mem w) (fun w' hw' => by rw [a1]; exact h w' (by simp [hw']))
    simp only [List.foldl_cons]
    exact ⟨by rw [b1, a1], by rw [b2, a2]⟩

theorem magic_take12 {m m' : Bytes} (h : m.take 12 = m'.take 12) : Magic m ↔ Magic m' := by
  unfold Magic
  have : m.take 4 = m'.take 4 := by
    have := congrArg (List.take 4) h
    simpa [List.take_take] using this
  rw [this]

/-- An erased byte is none of the magic number's. -/
def Plain (e : UInt8) : Prop := e ≠ 0x43 ∧ e ≠ 0x4f ∧ e ≠ 0x52 ∧ e ≠ 0x45

/-- Erasing. -/
theorem erase_magic {e : UInt8} (he : Plain e) {mem : Bytes} (hm : ¬ Magic mem) (j : Nat) :
    ¬ Magic (apply e mem (.erase (min j mem.length))) := by
  unfold Magic at *
  simp only [apply]
  intro h
  rcases Nat.eq_zero_or_pos (min j mem.length) with h0 | h0
  · rw [h0] at h; simp only [List.replicate_zero, List.nil_append, List.drop_zero] at h; exact hm h
  · obtain ⟨k, hk⟩ : ∃ k, min j mem.length = k + 1 := ⟨min j mem.length - 1, by omega⟩
    rw [hk, List.replicate_succ, List.cons_append, List.take_succ_cons] at h
    injection h with h1 h2
    exact he.1 h1

theorem erased {e : UInt8} (mem : Bytes) : apply e mem (.erase mem.length) = List.replicate mem.length e := by
  simp [apply]

/-- A header of which at most three bytes were written. -/
theorem torn_header {e : UInt8} (he : Plain e) {m : Bytes} (h : 12 ≤ m.length)
    (hm : m.take 12 = List.replicate 12 e) {n j : Nat} (hj : j < 4) :
    ¬ Magic (apply e m (.write 0 ((header n).take j))) := by
  unfold Magic
  simp only [apply, List.take_zero, List.nil_append, Nat.zero_add]
  intro hh
  have hlen : ((header n).take j).length = j := by
    rw [List.length_take]; show min j 12 = j; omega
  have h3 := congrArg (fun l => l[3]?) hh
  simp only [List.getElem?_take, List.getElem?_append, hlen] at h3
  rw [if_pos (by decide), if_neg (by omega), List.getElem?_drop] at h3
  have : m[j + (3 - j)]? = some e := by
    have h12 := congrArg (fun l => l[3]?) hm
    simp only [List.getElem?_take, List.getElem?_replicate] at h12
    rw [if_pos (by decide), if_pos (by decide)] at h12
    rw [show j + (3 - j) = 3 by omega]; exact h12
  rw [this] at h3
  simp only [List.getElem?_cons_succ, List.getElem?_cons_zero, Option.some.injEq] at h3
  exact he.2.2.2 h3

theorem torn_length (answer : Nat → Bool) (part : Nat → Nat) (ops : List Op) : ∀ i,
    (torn answer part i ops).length = ops.length := by
  induction ops with
  | nil => intro i; rfl
  | cons o ops ih => intro i; simp [torn, ih]

theorem torn_append (answer : Nat → Bool) (part : Nat → Nat) (a b : List Op) : ∀ i,
    torn answer part i (a ++ b) = torn answer part i a ++ torn answer part (i + a.length) b := by
  induction a with
  | nil => intro i; rfl
  | cons o a ih =>
    intro i
    simp only [List.cons_append, torn, ih, List.length_cons]
    rw [show i + 1 + a.length = i + (a.length + 1) by omega]

theorem torn_safe {answer : Nat → Bool} {part : Nat → Nat} {size : Nat} (ops : List Op) : ∀ i,
    (∀ w ∈ ops, Safe size w) → ∀ w ∈ torn answer part i ops, Safe size w := by
  induction ops with
  | nil => intro i _ w hw; simp [torn] at hw
  | cons o ops ih =>
    intro i h w hw
    simp only [torn, List.mem_cons] at hw
    rcases hw with hw | hw
    · subst hw
      split
      · exact h o (by simp)
      · exact cut_safe (h o (by simp))
    · exact ih (i + 1) (fun w hw => h w (by simp [hw])) w hw

theorem cut_erase_magic {e : UInt8} (he : Plain e) {mem : Bytes} (hm : ¬ Magic mem) (j : Nat) :
    ¬ Magic (apply e mem (cut j (.erase mem.length))) := erase_magic he hm j

theorem apply_cut_erase_length {e : UInt8} {mem : Bytes} (j : Nat) :
    (apply e mem (cut j (.erase mem.length))).length = mem.length := by
  simp only [cut, apply, List.length_append, List.length_replicate, List.length_drop]; omega

/-- After the erase and safe writes the place of the header is erased. -/
theorem erased_then_safe {e : UInt8} {mem : Bytes} {ws : List Op} (h : ∀ w ∈ ws, Safe mem.length w) :
    ((Op.erase mem.length :: ws).foldl (apply e) mem).length = mem.length ∧
      ((Op.erase mem.length :: ws).foldl (apply e) mem).take 12 = (List.replicate mem.length e).take 12 := by
  rw [List.foldl_cons, erased]
  have := fold_safe (e := e) ws (mem := List.replicate mem.length e)
    (fun w hw => by rw [List.length_replicate]; exact h w hw)
  rw [List.length_replicate] at this
  exact this

theorem not_magic_of_erased {e : UInt8} (he : Plain e) {m : Bytes} {n : Nat}
    (h : m.take 12 = (List.replicate n e).take 12) : ¬ Magic m := by
  rw [magic_take12 h]
  unfold Magic
  intro hh
  cases n with
  | zero => simp at hh
  | succ n =>
    rw [List.replicate_succ, List.take_succ_cons] at hh
    injection hh with h1
    exact he.1 h1

theorem hasValid_read {ok : Bool} {mem hdr : Bytes} (h : readHeader ok mem = some hdr)
    (hv : headerValid hdr = true) : hasValid ok mem = some (ofLe32 ((hdr.drop 8).take 4)) := by
  generalize hx : some (ofLe32 ((hdr.drop 8).take 4)) = x
  unfold hasValid
  simp only [h, hv, if_true]
  exact hx

theorem header_eq (n : Nat) : header n = [0x43, 0x4f, 0x52, 0x45] ++ (le32 2 ++ le32 n) := by
  unfold header
  rw [List.append_assoc]
  congr 1

/-- The header, once written. -/
theorem header_written {e : UInt8} {m : Bytes} {n : Nat} (h : 12 ≤ m.length) (hn : n < 2 ^ 32) :
    hasValid true (apply e m (.write 0 (header n))) = some n := by
  have hl : (header n).length = 12 := rfl
  have h8 : (header n).drop 8 = le32 n := by rw [header_eq]; rfl
  have h4 : headerValid (header n) = true := by
    rw [headerValid_iff _ (by rw [hl]; omega), header_eq]; unfold Magic
    rw [List.take_left' (by rfl)]
  generalize header n = hd at hl h8 h4
  have happ : apply e m (.write 0 hd) = hd ++ m.drop 12 := by
    show m.take 0 ++ hd ++ m.drop (0 + hd.length) = _
    rw [List.take_zero, List.nil_append, hl]
  rw [happ]
  have hlen : (hd ++ m.drop 12).length = m.length := by
    simp only [List.length_append, List.length_drop, hl]; omega
  have hread : readHeader true (hd ++ m.drop 12) = some hd := by
    unfold readHeader
    rw [hlen, if_neg (by omega), if_pos (by simpa using h), List.take_left' hl]
  rw [hasValid_read hread h4, h8, List.take_of_length_le (by rw [length_le32]; omega), ofLe32_le32 hn]

end Mflt.Coredump
