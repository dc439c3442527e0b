import Verif.Lemmas.Base64

/-! # C07, C08: base64 -/

namespace Mflt.Props

open Base64

theorem set4 (out : Bytes) (i : Nat) (a b c d : UInt8) (h : i + 4 ≤ out.length) :
    ((((out.set i a).set (i + 1) b).set (i + 2) c).set (i + 3) d) =
      out.take i ++ [a, b, c, d] ++ out.drop (i + 4) := by
  apply List.ext_getElem?
  intro k
  simp only [List.getElem?_set, List.length_set, List.getElem?_append, List.getElem?_take,
    List.getElem?_drop, List.length_append, List.length_take]
  rw [Nat.min_eq_left (by omega)]
  by_cases h0 : k < i
  · simp [h0, show i + 3 ≠ k by omega, show i + 2 ≠ k by omega, show i + 1 ≠ k by omega,
      show i ≠ k by omega, show k < i + 4 by omega]
  · by_cases h4 : k < i + 4
    · obtain ⟨j, rfl⟩ : ∃ j, k = i + j := ⟨k - i, by omega⟩
      have : j = 0 ∨ j = 1 ∨ j = 2 ∨ j = 3 := by omega
      rcases this with rfl | rfl | rfl | rfl <;> simp [show i < out.length by omega, show i + 1 < out.length by omega, show i + 2 < out.length by omega, show i + 3 < out.length by omega] <;> omega
    · simp [h4, show i + 3 ≠ k by omega, show i + 2 ≠ k by omega, show i + 1 ≠ k by omega,
        show i ≠ k by omega]
      congr 1; omega

theorem splice_next (out q : Bytes) (i n : Nat) (hq : q.length = 4) (h : i + 4 ≤ out.length) :
    (out.take i ++ q ++ out.drop (i + 4)).take (i + 4) = out.take i ++ q ∧
    (out.take i ++ q ++ out.drop (i + 4)).drop (i + 4 + n) = out.drop (i + 4 + n) := by
  have hl : (out.take i ++ q).length = i + 4 := by simp [hq]; omega
  constructor
  · rw [List.take_append_of_le_length (by omega), List.take_of_length_le (by omega)]
  · rw [← List.drop_drop, List.drop_append_of_le_length (by omega),
      List.drop_eq_nil_of_le (Nat.le_of_eq hl), List.nil_append, List.drop_drop]

theorem spec_encode_length (l : Bytes) : (Spec.Base64.encode l).length = encodeLen l.length := by
  unfold encodeLen
  fun_induction Spec.Base64.encode l with
  | case1 => rfl
  | case2 => simp
  | case3 => simp
  | case4 a b c r ih => simp only [List.length_append, ih, List.length_cons, List.length_nil]; omega

theorem drop_facts {inp s : Bytes} {i : Nat} (h : inp.drop i = s) (hs : s ≠ []) :
    inp.length = i + s.length ∧ (∀ k, inp[i + k]? = s[k]?) := by
  subst h
  constructor
  · have := List.length_drop (i := i) (l := inp)
    have h2 : (inp.drop i).length ≠ 0 := fun h => hs (List.eq_nil_of_length_eq_zero h)
    omega
  · intro k; rw [List.getElem?_drop]

theorem encodeLoop_eq (inp : Bytes) (fuel binIdx currIdx : Nat) (out : Bytes)
    (hf : (inp.drop binIdx).length < fuel)
    (hout : currIdx + (Spec.Base64.encode (inp.drop binIdx)).length ≤ out.length) :
    encodeLoop inp fuel binIdx currIdx out =
      some (out.take currIdx ++ Spec.Base64.encode (inp.drop binIdx) ++
        out.drop (currIdx + (Spec.Base64.encode (inp.drop binIdx)).length)) := by
  induction fuel generalizing binIdx currIdx out with
  | zero => omega
  | succ fuel ih =>
    unfold encodeLoop
    generalize hs : inp.drop binIdx = s at *
    have hdrop3 : inp.drop (binIdx + 3) = s.drop 3 := by rw [← hs, List.drop_drop]
    match s, hs with
    | [], hs =>
      have : ¬ binIdx < inp.length := by
        have := congrArg List.length hs; simp at this; omega
      rw [if_neg this]; simp [Spec.Base64.encode]
    | [a], hs =>
      obtain ⟨hl, hg⟩ := drop_facts hs (by simp)
      simp only [List.length_singleton] at hl
      simp only [Spec.Base64.encode, List.length_cons, List.length_nil] at hout
      have h0 := hg 0
      simp only [Nat.add_zero, List.getElem?_cons_zero] at h0
      obtain ⟨t3, t2, t1, t0⟩ := triple_letters a.toNat (0 : UInt8).toNat (0 : UInt8).toNat
        a.toNat_lt (by decide) (by decide)
      rw [if_pos (by omega)]
      simp only [h0, if_neg (show ¬ binIdx + 1 < inp.length by omega),
        if_neg (show ¬ binIdx + 2 < inp.length by omega), Option.bind_eq_bind, Option.bind_some,
        t3, t2]
      rw [memcpyIn_one _ (by omega)]; simp only [Option.bind_some]
      rw [memcpyIn_one _ (by simp; omega)]; simp only [Option.bind_some]
      rw [memcpyIn_one _ (by simp; omega)]; simp only [Option.bind_some]
      rw [memcpyIn_one _ (by simp; omega)]; simp only [Option.bind_some]
      rw [set4 _ _ _ _ _ _ (by omega), ih _ _ _ (by rw [hdrop3]; simp at hf ⊢; omega)
        (by rw [hdrop3]; simp [Spec.Base64.encode]; omega), hdrop3]
      rw [(splice_next out _ currIdx 0 (by simp) (by omega)).1,
        (splice_next out _ currIdx _ (by simp) (by omega)).2]
      simp [Spec.Base64.encode, pad]
    | [a, b], hs =>
      obtain ⟨hl, hg⟩ := drop_facts hs (by simp)
      simp only [List.length_cons, List.length_nil] at hl
      simp only [Spec.Base64.encode, List.length_cons, List.length_nil] at hout
      have h0 := hg 0
      have h1 := hg 1
      simp only [Nat.add_zero, List.getElem?_cons_zero, List.getElem?_cons_succ] at h0 h1
      obtain ⟨t3, t2, t1, t0⟩ := triple_letters a.toNat b.toNat (0 : UInt8).toNat
        a.toNat_lt b.toNat_lt (by decide)
      rw [if_pos (by omega)]
      simp only [h0, h1, if_pos (show binIdx + 1 < inp.length by omega),
        if_neg (show ¬ binIdx + 2 < inp.length by omega), Option.bind_eq_bind, Option.bind_some,
        t3, t2, t1]
      rw [memcpyIn_one _ (by omega)]; simp only [Option.bind_some]
      rw [memcpyIn_one _ (by simp; omega)]; simp only [Option.bind_some]
      rw [memcpyIn_one _ (by simp; omega)]; simp only [Option.bind_some]
      rw [memcpyIn_one _ (by simp; omega)]; simp only [Option.bind_some]
      rw [set4 _ _ _ _ _ _ (by omega), ih _ _ _ (by rw [hdrop3]; simp at hf ⊢; omega)
        (by rw [hdrop3]; simp [Spec.Base64.encode]; omega), hdrop3]
      rw [(splice_next out _ currIdx 0 (by simp) (by omega)).1,
        (splice_next out _ currIdx _ (by simp) (by omega)).2]
      simp [Spec.Base64.encode, pad]
    | a :: b :: c :: r, hs =>
      obtain ⟨hl, hg⟩ := drop_facts hs (by simp)
      simp only [List.length_cons] at hl
      simp only [Spec.Base64.encode, List.length_append, List.length_cons, List.length_nil] at hout
      have h0 := hg 0
      have h1 := hg 1
      have h2 := hg 2
      simp only [Nat.add_zero, List.getElem?_cons_zero, List.getElem?_cons_succ] at h0 h1 h2
      obtain ⟨t3, t2, t1, t0⟩ := triple_letters a.toNat b.toNat c.toNat
        a.toNat_lt b.toNat_lt c.toNat_lt
      rw [if_pos (by omega)]
      simp only [h0, h1, h2, if_pos (show binIdx + 1 < inp.length by omega),
        if_pos (show binIdx + 2 < inp.length by omega), Option.bind_eq_bind, Option.bind_some,
        t3, t2, t1, t0]
      rw [memcpyIn_one _ (by omega)]; simp only [Option.bind_some]
      rw [memcpyIn_one _ (by simp; omega)]; simp only [Option.bind_some]
      rw [memcpyIn_one _ (by simp; omega)]; simp only [Option.bind_some]
      rw [memcpyIn_one _ (by simp; omega)]; simp only [Option.bind_some]
      have hd : List.drop 3 (a :: b :: c :: r) = r := rfl
      rw [hd] at hdrop3
      rw [set4 _ _ _ _ _ _ (by omega), ih _ _ _ (by rw [hdrop3]; simp at hf ⊢; omega)
        (by rw [hdrop3]; simp; omega), hdrop3]
      rw [(splice_next out _ currIdx 0 (by simp) (by omega)).1,
        (splice_next out _ currIdx _ (by simp) (by omega)).2]
      simp [Spec.Base64.encode]
      omega

/-- **C07 (encoder).** For every input and every output buffer of at least
`MEMFAULT_BASE64_ENCODE_LEN` bytes, the encoder stays inside both buffers, leaves the RFC 4648
encoding at the start of the output buffer, of exactly that length, and leaves the rest untouched. -/
theorem C07_base64_encode (inp out : Bytes) (h : encodeLen inp.length ≤ out.length) :
    Base64.encode inp out =
      some (Spec.Base64.encode inp ++ out.drop (encodeLen inp.length)) ∧
    (Spec.Base64.encode inp).length = encodeLen inp.length := by
  refine ⟨?_, spec_encode_length inp⟩
  unfold Base64.encode
  rw [encodeLoop_eq inp _ 0 0 out (by simp) (by simpa [spec_encode_length] using h)]
  simp [spec_encode_length]

theorem letter_value : ∀ n : Fin 64, Spec.Base64.value (Spec.Base64.letter n.val) = some n.val ∧
    Spec.Base64.letter n.val ≠ 61 := by decide +kernel

theorem letter_value' (n : Nat) (h : n < 64) :
    Spec.Base64.value (Spec.Base64.letter n) = some n ∧ Spec.Base64.letter n ≠ 61 :=
  letter_value ⟨n, h⟩

/-- **C07 (round trip).** A reader of the encoding gets back the input. -/
theorem C07_base64_roundtrip (inp : Bytes) :
    Spec.Base64.decode (Spec.Base64.encode inp) = some inp := by
  fun_induction Spec.Base64.encode inp with
  | case1 => rfl
  | case2 a =>
    have ha := a.toNat_lt
    have v1 := letter_value' (a.toNat / 4) (by omega)
    have v2 := letter_value' (a.toNat % 4 * 16) (by omega)
    simp [Spec.Base64.decode, v1, v2]
    apply UInt8.toNat_inj.mp; simp [UInt8.toNat_add, UInt8.toNat_mul]; omega
  | case3 a b =>
    have ha := a.toNat_lt
    have hb := b.toNat_lt
    have v1 := letter_value' (a.toNat / 4) (by omega)
    have v2 := letter_value' (a.toNat % 4 * 16 + b.toNat / 16) (by omega)
    have v3 := letter_value' (b.toNat % 16 * 4) (by omega)
    simp [Spec.Base64.decode, v1, v2, v3]
    constructor
    · apply UInt8.toNat_inj.mp; simp [UInt8.toNat_add, UInt8.toNat_mul]; omega
    · apply UInt8.toNat_inj.mp; simp [UInt8.toNat_add, UInt8.toNat_mul]; omega
  | case4 a b c r ih =>
    have ha := a.toNat_lt
    have hb := b.toNat_lt
    have hc := c.toNat_lt
    have v1 := letter_value' (a.toNat / 4) (by omega)
    have v2 := letter_value' (a.toNat % 4 * 16 + b.toNat / 16) (by omega)
    have v3 := letter_value' (b.toNat % 16 * 4 + c.toNat / 64) (by omega)
    have v4 := letter_value' (c.toNat % 64) (by omega)
    simp [Spec.Base64.decode, v1, v2, v3, v4, ih]
    refine ⟨?_, ?_, ?_⟩ <;> (apply UInt8.toNat_inj.mp; simp [UInt8.toNat_add, UInt8.toNat_mul]; omega)

/-- **C07 (alphabet).** Every output character is a letter of the alphabet or padding. -/
theorem C07_base64_alphabet (inp : Bytes) (c : UInt8) (h : c ∈ Spec.Base64.encode inp) :
    c = 61 ∨ (Spec.Base64.value c).isSome := by
  have key : ∀ n, n < 64 → (Spec.Base64.value (Spec.Base64.letter n)).isSome := by
    intro n hn; rw [(letter_value' n hn).1]; rfl
  fun_induction Spec.Base64.encode inp with
  | case1 => simp at h
  | case2 a =>
    have ha := a.toNat_lt
    simp at h
    rcases h with rfl | rfl | rfl
    · exact .inr (key _ (by omega))
    · exact .inr (key _ (by omega))
    · exact .inl rfl
  | case3 a b =>
    have ha := a.toNat_lt
    have hb := b.toNat_lt
    simp at h
    rcases h with rfl | rfl | rfl | rfl
    · exact .inr (key _ (by omega))
    · exact .inr (key _ (by omega))
    · exact .inr (key _ (by omega))
    · exact .inl rfl
  | case4 a b c r ih =>
    have ha := a.toNat_lt
    have hb := b.toNat_lt
    have hc := c.toNat_lt
    rw [List.mem_append] at h
    rcases h with h | h
    · simp at h
      rcases h with rfl | rfl | rfl | rfl <;> exact .inr (key _ (by omega))
    · exact ih h

/-- "Man", "Ma" and "M", with one spare byte of output. -/
example : Base64.encode [77, 97, 110] [0, 0, 0, 0, 9] = some [84, 87, 70, 117, 9] ∧
    Base64.encode [77, 97] [0, 0, 0, 0, 9] = some [84, 87, 69, 61, 9] ∧
    Base64.encode [77] [0, 0, 0, 0, 9] = some [84, 81, 61, 61, 9] := by decide +kernel

theorem spec_encode_append (a b : Bytes) (h : a.length % 3 = 0) :
    Spec.Base64.encode (a ++ b) = Spec.Base64.encode a ++ Spec.Base64.encode b := by
  fun_induction Spec.Base64.encode a with
  | case1 => rfl
  | case2 => simp at h
  | case3 => simp at h
  | case4 x y z r ih =>
    simp only [List.cons_append, Spec.Base64.encode]
    rw [ih (by simp at h; omega)]
    simp

theorem writeAt_nat (buf : Bytes) (i : Nat) (b : UInt8) (j : Int) (hj : j = i) (h : i < buf.length) :
    writeAt buf j b = some (buf.set i b) := by
  subst hj
  simp [writeAt, memcpyIn_one _ h]

theorem readAt_nat (buf : Bytes) (i : Nat) (j : Int) (hj : j = i) : readAt buf j = buf[i]? := by
  subst hj; simp [readAt]

theorem set4_rev (out : Bytes) (i : Nat) (a b c d : UInt8) :
    ((((out.set (i + 3) d).set (i + 2) c).set (i + 1) b).set i a) =
    ((((out.set i a).set (i + 1) b).set (i + 2) c).set (i + 3) d) := by
  rw [List.set_comm _ _ (show i + 1 ≠ i by omega), List.set_comm _ _ (show i + 2 ≠ i by omega),
    List.set_comm _ _ (show i + 3 ≠ i by omega), List.set_comm _ _ (show i + 2 ≠ i + 1 by omega),
    List.set_comm _ _ (show i + 3 ≠ i + 1 by omega), List.set_comm _ _ (show i + 3 ≠ i + 2 by omega)]

theorem inplaceLoop_eq (inp : Bytes) (g fuel : Nat) (buf : Bytes) (bi ci : Int)
    (hbi : bi = 3 * g - 3) (hci : ci = 4 * g - 1)
    (hf : g < fuel) (hg : 3 * g < inp.length + 3) (hbuf : 4 * g ≤ buf.length)
    (hpre : ∀ k, k < 3 * g → k < inp.length → buf[k]? = inp[k]?) :
    inplaceLoop inp.length fuel bi ci buf =
      some (Spec.Base64.encode (inp.take (3 * g)) ++ buf.drop (4 * g)) := by
  induction g generalizing fuel buf bi ci with
  | zero =>
    obtain ⟨f, rfl⟩ : ∃ f, fuel = f + 1 := ⟨fuel - 1, by omega⟩
    unfold inplaceLoop
    rw [if_neg (by omega)]
    simp [Spec.Base64.encode]
  | succ g ih =>
    obtain ⟨f, rfl⟩ : ∃ f, fuel = f + 1 := ⟨fuel - 1, by omega⟩
    unfold inplaceLoop
    rw [if_pos (by omega)]
    have h0 : 3 * g < inp.length := by omega
    have hr : ∀ j, j < 3 → 3 * g + j < inp.length → readAt buf (bi + (j : Nat)) = inp[3 * g + j]? := by
      intro j hj hlt
      rw [readAt_nat buf (3 * g + j) _ (by omega)]
      exact hpre _ (by omega) hlt
    have hr0 := hr 0 (by omega) (by omega)
    simp only [Int.natCast_zero, Int.add_zero, Nat.add_zero] at hr0
    have hr1 := hr 1 (by omega)
    have hr2 := hr 2 (by omega)
    have hga : inp[3 * g]? = some inp[3 * g] := List.getElem?_eq_getElem h0
    have htake : inp.take (3 * (g + 1)) = inp.take (3 * g) ++ (inp.drop (3 * g)).take 3 := by
      rw [show 3 * (g + 1) = 3 * g + 3 by omega, List.take_add]
    have hlt : (inp.take (3 * g)).length % 3 = 0 := by simp; omega
    rw [htake, spec_encode_append _ _ hlt]
    have final : ∀ (w x y z : UInt8), 
        Spec.Base64.encode ((inp.drop (3 * g)).take 3) = [w, x, y, z] →
        inplaceLoop inp.length f (bi - 3) (ci - 4)
          ((((buf.set (4 * g + 3) z).set (4 * g + 2) y).set (4 * g + 1) x).set (4 * g) w) =
        some (Spec.Base64.encode (inp.take (3 * g)) ++
          Spec.Base64.encode ((inp.drop (3 * g)).take 3) ++ buf.drop (4 * (g + 1))) := by
      intro w x y z he
      rw [set4_rev]
      rw [ih f _ _ _ (by omega) (by omega) (by omega) (by omega) (by simp; omega)]
      · rw [set4 _ _ _ _ _ _ (by omega), he]
        simp [List.drop_append, Nat.min_eq_left (show 4 * g ≤ buf.length by omega),
          show 4 * (g + 1) = 4 * g + 4 by omega]
      · intro k hk hki
        rw [← hpre k (by omega) hki]
        simp only [List.getElem?_set]
        rw [if_neg (by omega), if_neg (by omega), if_neg (by omega), if_neg (by omega)]
    have hdrop : inp.drop (3 * g) = inp[3 * g] :: inp.drop (3 * g + 1) := List.drop_eq_getElem_cons h0
    by_cases h1 : 3 * g + 1 < inp.length
    · have hgb : inp[3 * g + 1]? = some inp[3 * g + 1] := List.getElem?_eq_getElem h1
      have hdrop1 : inp.drop (3 * g + 1) = inp[3 * g + 1] :: inp.drop (3 * g + 2) :=
        List.drop_eq_getElem_cons h1
      by_cases h2 : 3 * g + 2 < inp.length
      · have hgc : inp[3 * g + 2]? = some inp[3 * g + 2] := List.getElem?_eq_getElem h2
        have hdrop2 : inp.drop (3 * g + 2) = inp[3 * g + 2] :: inp.drop (3 * g + 3) :=
          List.drop_eq_getElem_cons h2
        obtain ⟨t3, t2, t1, t0⟩ := triple_letters inp[3 * g].toNat inp[3 * g + 1].toNat
          inp[3 * g + 2].toNat (UInt8.toNat_lt _) (UInt8.toNat_lt _) (UInt8.toNat_lt _)
        have hr1 := hr1 h1
        have hr2 := hr2 h2
        simp only [Int.natCast_one] at hr1
        simp only [show ((2 : Nat) : Int) = 2 from rfl] at hr2
        simp only [if_pos (show bi + 1 < (inp.length : Int) by omega),
          if_pos (show bi + 2 < (inp.length : Int) by omega), hr0, hr1, hr2, hga, hgb, hgc,
          Option.bind_eq_bind, Option.bind_some, t0, t1, t2, t3]
        rw [writeAt_nat _ (4 * g + 3) _ _ (by omega) (by omega)]; simp only [Option.bind_some]
        rw [writeAt_nat _ (4 * g + 2) _ _ (by omega) (by simp; omega)]; simp only [Option.bind_some]
        rw [writeAt_nat _ (4 * g + 1) _ _ (by omega) (by simp; omega)]; simp only [Option.bind_some]
        rw [writeAt_nat _ (4 * g) _ _ (by omega) (by simp; omega)]; simp only [Option.bind_some]
        exact final _ _ _ _ (by
          rw [hdrop, hdrop1, hdrop2]
          simp only [List.take_succ_cons, List.take_zero, Spec.Base64.encode, List.append_nil])
      · obtain ⟨t3, t2, t1, t0⟩ := triple_letters inp[3 * g].toNat inp[3 * g + 1].toNat
          (0 : UInt8).toNat (UInt8.toNat_lt _) (UInt8.toNat_lt _) (by decide)
        have hr1 := hr1 h1
        simp only [Int.natCast_one] at hr1
        simp only [if_pos (show bi + 1 < (inp.length : Int) by omega),
          if_neg (show ¬ bi + 2 < (inp.length : Int) by omega), hr0, hr1, hga, hgb,
          Option.bind_eq_bind, Option.bind_some, t1, t2, t3]
        rw [writeAt_nat _ (4 * g + 3) _ _ (by omega) (by omega)]; simp only [Option.bind_some]
        rw [writeAt_nat _ (4 * g + 2) _ _ (by omega) (by simp; omega)]; simp only [Option.bind_some]
        rw [writeAt_nat _ (4 * g + 1) _ _ (by omega) (by simp; omega)]; simp only [Option.bind_some]
        rw [writeAt_nat _ (4 * g) _ _ (by omega) (by simp; omega)]; simp only [Option.bind_some]
        apply final
        rw [hdrop, hdrop1, List.drop_eq_nil_of_le (by omega)]; simp [Spec.Base64.encode, pad]
    · obtain ⟨t3, t2, t1, t0⟩ := triple_letters inp[3 * g].toNat (0 : UInt8).toNat
        (0 : UInt8).toNat (UInt8.toNat_lt _) (by decide) (by decide)
      simp only [if_neg (show ¬ bi + 1 < (inp.length : Int) by omega),
        if_neg (show ¬ bi + 2 < (inp.length : Int) by omega), hr0, hga,
        Option.bind_eq_bind, Option.bind_some, t2, t3]
      rw [writeAt_nat _ (4 * g + 3) _ _ (by omega) (by omega)]; simp only [Option.bind_some]
      rw [writeAt_nat _ (4 * g + 2) _ _ (by omega) (by simp; omega)]; simp only [Option.bind_some]
      rw [writeAt_nat _ (4 * g + 1) _ _ (by omega) (by simp; omega)]; simp only [Option.bind_some]
      rw [writeAt_nat _ (4 * g) _ _ (by omega) (by simp; omega)]; simp only [Option.bind_some]
      apply final
      rw [hdrop, List.drop_eq_nil_of_le (by omega)]; simp [Spec.Base64.encode, pad]

theorem toI32_small (n : Nat) (h : n < 2 ^ 31) : toI32 n = n := by
  unfold toI32
  rw [Int.bmod_eq_of_le] <;> omega

/-- **C08.** Encoding in place the first `binLen` bytes of a buffer with room for the result leaves
exactly what encoding a copy of them elsewhere produces, followed by the untouched tail of the
buffer. (`size_t` and `int` are 32 bits; the encoded length must be representable as an `int`.) -/
theorem C08_base64_inplace (buf : Bytes) (binLen : Nat) (hlen : binLen ≤ buf.length)
    (hroom : encodeLen binLen ≤ buf.length) (hint : encodeLen binLen < 2 ^ 31) :
    encodeInplace buf binLen =
      some (Spec.Base64.encode (buf.take binLen) ++ buf.drop (encodeLen binLen)) := by
  unfold encodeInplace
  unfold encodeLen at *
  simp only
  have hb : toI32 binLen = (buf.take binLen).length := by
    rw [toI32_small _ (by omega)]; simp; omega
  rw [hb, toI32_small _ hint]
  have hst : toI32 (if binLen % 3 = 0 then (binLen + 2 ^ 32 - 3) % 2 ^ 32 else binLen - binLen % 3) =
      3 * ((binLen + 2) / 3 : Nat) - 3 := by
    by_cases h0 : binLen = 0
    · subst h0; decide
    · split
      · have h3 : (binLen + 2 ^ 32 - 3) % 2 ^ 32 = binLen - 3 := by
          rw [show binLen + 2 ^ 32 - 3 = (binLen - 3) + 2 ^ 32 by omega, Nat.add_mod_right,
            Nat.mod_eq_of_lt (by omega)]
        rw [h3, toI32_small _ (by omega)]; omega
      · rw [toI32_small _ (by omega)]; omega
  rw [inplaceLoop_eq (buf.take binLen) ((binLen + 2) / 3) _ buf _ _ hst (by omega) (by omega)
    (by simp; omega) hroom]
  · rw [List.take_take, Nat.min_eq_right (by omega)]
  · intro k hk hk2
    rw [List.getElem?_take, if_pos (by simp at hk2; omega)]

/-- **C08 (equality of the two encoders).** -/
theorem C08_inplace_eq_out_of_place (buf : Bytes) (binLen : Nat) (hlen : binLen ≤ buf.length)
    (hroom : encodeLen binLen ≤ buf.length) (hint : encodeLen binLen < 2 ^ 31) :
    encodeInplace buf binLen = Base64.encode (buf.take binLen) buf := by
  have : (buf.take binLen).length = binLen := by simp; omega
  rw [C08_base64_inplace buf binLen hlen hroom hint, (C07_base64_encode _ _ (by rwa [this])).1, this]

example : encodeInplace [77, 97, 110, 77, 0, 0, 0, 0, 9] 4 =
      some [84, 87, 70, 117, 84, 81, 61, 61, 9] ∧ encodeInplace [1] 0 = some [1] := by
  decide +kernel

end Mflt.Props
