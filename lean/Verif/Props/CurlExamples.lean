import Verif.Model.CurlExamples

/-!
# C135: the examples with libcurl
-/

namespace Mflt.Props

open Mflt.Spec.CurlExamples Mflt.CurlExamples

namespace CurlExamplesAux

/-- A character with no meaning in an address. -/
def Plain (c : Char) : Prop := c ≠ '#' ∧ c ≠ '?' ∧ c ≠ '&' ∧ c ≠ '='

instance (c : Char) : Decidable (Plain c) := inferInstanceAs (Decidable (_ ∧ _))

theorem nibble : ∀ n < 16, hexValue (digit n) = some n ∧ Plain (digit n) := by decide +kernel

theorem byte : ∀ n < 256, unreserved (UInt8.ofNat n) = true → Char.ofNat n ≠ '%' ∧ (Char.ofNat n).toNat = n ∧ Plain (Char.ofNat n) := by
  decide +kernel

theorem byte' {b : UInt8} (h : unreserved b = true) : Char.ofNat b.toNat ≠ '%' ∧ (Char.ofNat b.toNat).toNat = b.toNat ∧
    Plain (Char.ofNat b.toNat) := by
  refine byte b.toNat b.toNat_lt ?_
  rwa [UInt8.ofNat_toNat]

theorem decode_plain {c : Char} (h : c ≠ '%') (s : Text) : decode (c :: s) = (decode s).map fun r => UInt8.ofNat c.toNat :: r := by
  rw [decode]
  · rw [if_neg h]
  · intro a b t e
    exact absurd e h

theorem decode_escape : ∀ s : Bytes, decode (escape s) = some s := by
  intro s
  induction s with
  | nil => rfl
  | cons b s ih =>
    show decode (escapeByte b ++ escape s) = _
    unfold escapeByte
    cases h : unreserved b with
    | true =>
      obtain ⟨h1, h2, _⟩ := byte' h
      rw [if_pos rfl, List.singleton_append, decode_plain h1, ih, h2, UInt8.ofNat_toNat]
      rfl
    | false =>
      have hb := b.toNat_lt
      rw [if_neg (by decide)]
      show decode ('%' :: digit (b.toNat / 16) :: digit (b.toNat % 16) :: escape s) = _
      rw [decode, (nibble (b.toNat / 16) (by omega)).1, (nibble (b.toNat % 16) (by omega)).1, ih]
      show some (UInt8.ofNat (16 * (b.toNat / 16) + b.toNat % 16) :: s) = _
      rw [Nat.div_add_mod, UInt8.ofNat_toNat]

theorem escape_plain (s : Bytes) : ∀ c ∈ escape s, Plain c := by
  intro c hc
  obtain ⟨b, _, hc⟩ := List.mem_flatMap.1 hc
  unfold escapeByte at hc
  cases h : unreserved b with
  | true =>
    rw [h, if_pos rfl, List.mem_singleton] at hc
    rw [hc]
    exact (byte' h).2.2
  | false =>
    have hb := b.toNat_lt
    rw [h, if_neg (by decide)] at hc
    rcases List.mem_cons.1 hc with e | hc
    · rw [e]; decide
    · rcases List.mem_cons.1 hc with e | hc
      · rw [e]; exact (nibble _ (by omega)).2
      · rw [List.mem_singleton.1 hc]; exact (nibble _ (by omega)).2

theorem parts_one {sep : Char} : ∀ (t cur : Text), (∀ c ∈ t, c ≠ sep) → parts sep cur t = [cur ++ t] := by
  intro t
  induction t with
  | nil => intro cur _; simp [parts]
  | cons c t ih =>
    intro cur h
    rw [parts, if_neg (h c (List.mem_cons_self ..)), ih _ fun d hd => h d (List.mem_cons_of_mem _ hd), List.append_assoc]
    rfl

theorem parts_cons {sep : Char} : ∀ (t cur rest : Text), (∀ c ∈ t, c ≠ sep) →
    parts sep cur (t ++ sep :: rest) = (cur ++ t) :: parts sep [] rest := by
  intro t
  induction t with
  | nil => intro cur rest _; simp [parts]
  | cons c t ih =>
    intro cur rest h
    rw [List.cons_append, parts, if_neg (h c (List.mem_cons_self ..)), ih _ _ fun d hd => h d (List.mem_cons_of_mem _ hd),
      List.append_assoc]
    rfl

theorem take_until {x : Char} (t rest : Text) (h : ∀ c ∈ t, c ≠ x) :
    (t ++ x :: rest).takeWhile (fun c => c != x) = t ∧ (t ++ x :: rest).dropWhile (fun c => c != x) = x :: rest := by
  induction t with
  | nil => simp
  | cons c t ih =>
    have h1 := h c (List.mem_cons_self ..)
    have := ih fun d hd => h d (List.mem_cons_of_mem _ hd)
    simp [h1, this]

theorem take_all {x : Char} (t : Text) (h : ∀ c ∈ t, c ≠ x) : t.takeWhile (fun c => c != x) = t := by
  induction t with
  | nil => rfl
  | cons c t ih =>
    have h1 := h c (List.mem_cons_self ..)
    have := ih fun d hd => h d (List.mem_cons_of_mem _ hd)
    simp [h1, this]

theorem field_escape (name : Text) (v : Bytes) (h : ∀ c ∈ name, c ≠ '=') : field (name ++ '=' :: escape v) = some (name, v) := by
  unfold field
  rw [(take_until name (escape v) h).1, (take_until name (escape v) h).2, List.drop_succ_cons, List.drop_zero, decode_escape]
  rfl

/-- An address with four fields. -/
theorem four (base n1 n2 n3 n4 : Text) (v1 v2 v3 v4 : Bytes) (hb : ∀ c ∈ base, Plain c) (h1 : ∀ c ∈ n1, Plain c)
    (h2 : ∀ c ∈ n2, Plain c) (h3 : ∀ c ∈ n3, Plain c) (h4 : ∀ c ∈ n4, Plain c) :
    parse (base ++ '?' :: ((n1 ++ '=' :: escape v1) ++ '&' :: ((n2 ++ '=' :: escape v2) ++ '&' ::
      ((n3 ++ '=' :: escape v3) ++ '&' :: (n4 ++ '=' :: escape v4))))) =
      (base, [some (n1, v1), some (n2, v2), some (n3, v3), some (n4, v4)]) := by
  have key : ∀ (n : Text) (v : Bytes), (∀ c ∈ n, Plain c) → ∀ c ∈ n ++ '=' :: escape v, c ≠ '#' ∧ c ≠ '&' := by
    intro n v h c hc
    rcases List.mem_append.1 hc with hc | hc
    · exact ⟨(h c hc).1, (h c hc).2.2.1⟩
    · rcases List.mem_cons.1 hc with e | hc
      · rw [e]; decide
      · exact ⟨(escape_plain v c hc).1, (escape_plain v c hc).2.2.1⟩
  have k1 := key n1 v1 h1
  have k2 := key n2 v2 h2
  have k3 := key n3 v3 h3
  have k4 := key n4 v4 h4
  unfold parse
  simp only []
  rw [take_all (x := '#')]
  · rw [(take_until base _ fun c hc => (hb c hc).2.1).1, (take_until base _ fun c hc => (hb c hc).2.1).2]
    rw [List.drop_succ_cons, List.drop_zero, parts_cons _ _ _ fun c hc => (k1 c hc).2, parts_cons _ _ _ fun c hc => (k2 c hc).2,
      parts_cons _ _ _ fun c hc => (k3 c hc).2, parts_one _ _ fun c hc => (k4 c hc).2]
    simp only [List.nil_append, List.map_cons, List.map_nil]
    rw [field_escape _ _ fun c hc => (h1 c hc).2.2.2, field_escape _ _ fun c hc => (h2 c hc).2.2.2,
      field_escape _ _ fun c hc => (h3 c hc).2.2.2, field_escape _ _ fun c hc => (h4 c hc).2.2.2]
  · intro c hc
    rcases List.mem_append.1 hc with hc | hc
    · exact (hb c hc).1
    rcases List.mem_cons.1 hc with e | hc
    · rw [e]; decide
    rcases List.mem_append.1 hc with hc | hc
    · exact (k1 c hc).1
    rcases List.mem_cons.1 hc with e | hc
    · rw [e]; decide
    rcases List.mem_append.1 hc with hc | hc
    · exact (k2 c hc).1
    rcases List.mem_cons.1 hc with e | hc
    · rw [e]; decide
    rcases List.mem_append.1 hc with hc | hc
    · exact (k3 c hc).1
    rcases List.mem_cons.1 hc with e | hc
    · rw [e]; decide
    exact (k4 c hc).1

end CurlExamplesAux

open CurlExamplesAux

/-- C135. Whatever bytes the serial, the hardware, the software type and the version consist of, the server that is asked for the
latest release reads exactly these from the address. -/
theorem C135_query (serial hardware software version : Bytes) :
    parse (latestUrl serial hardware software version) =
      ("https://device.memfault.com/api/v0/releases/latest/url".toList,
        [some ("device_serial".toList, serial), some ("hardware_version".toList, hardware),
          some ("software_type".toList, software), some ("current_version".toList, version)]) := by
  have e1 : "?device_serial=".toList = '?' :: ("device_serial".toList ++ ['=']) := by decide +kernel
  have e2 : "&hardware_version=".toList = '&' :: ("hardware_version".toList ++ ['=']) := by decide +kernel
  have e3 : "&software_type=".toList = '&' :: ("software_type".toList ++ ['=']) := by decide +kernel
  have e4 : "&current_version=".toList = '&' :: ("current_version".toList ++ ['=']) := by decide +kernel
  have hb : ∀ c ∈ "https://device.memfault.com/api/v0/releases/latest/url".toList, Plain c := by decide +kernel
  have h1 : ∀ c ∈ "device_serial".toList, Plain c := by decide +kernel
  have h2 : ∀ c ∈ "hardware_version".toList, Plain c := by decide +kernel
  have h3 : ∀ c ∈ "software_type".toList, Plain c := by decide +kernel
  have h4 : ∀ c ∈ "current_version".toList, Plain c := by decide +kernel
  have := four _ _ _ _ _ serial hardware software version hb h1 h2 h3 h4
  unfold latestUrl
  rw [e1, e2, e3, e4]
  rw [← this]
  congr 1
  simp only [List.append_assoc, List.cons_append, List.nil_append]

example : latestUrl [65, 38, 61] [32] [] [0xC3, 0xA9] = ("https://device.memfault.com/api/v0/releases/latest/url?device_serial=A%26%3D" ++
    "&hardware_version=%20&software_type=&current_version=%C3%A9").toList := by decide +kernel

/-- C135. The program that asks for the latest release succeeds exactly if the server answers 200 or 204. Missing: statuses that
are multiples of 256 (`C135_false_status`). -/
theorem C135_latest_exit_partial (o : Outcome) (he : ∀ e, o = .error e → 0 < e ∧ e < 256) (hs : ∀ h, o = .status h → h % 256 ≠ 0) :
    latestExit o = 0 ↔ o = .status 200 ∨ o = .status 204 := by
  cases o with
  | error e =>
    have := he e rfl
    have h : latestExit (.error e) = e := Nat.mod_eq_of_lt this.2
    rw [h]
    constructor
    · intro h; omega
    · rintro (h | h) <;> exact nomatch h
  | status h =>
    have := hs h rfl
    unfold latestExit latestResult
    by_cases h2 : h ≠ 200 ∧ h ≠ 204
    · simp only [h2, ne_eq, not_false_eq_true, and_self, if_true]
      constructor
      · intro h; omega
      · rintro (e | e) <;> injection e with e <;> omega
    · simp only [h2, if_false]
      constructor
      · intro _
        by_cases h3 : h = 200
        · exact Or.inl (by rw [h3])
        · exact Or.inr (by rw [show h = 204 by omega])
      · intro _; trivial

example : latestExit (.status 404) = 148 ∧ latestExit (.status 204) = 0 ∧ latestExit (.error 6) = 6 := by decide

/-- C135 is false for all other statuses, 256, 512 and 768: the program succeeds. -/
theorem C135_false_status : latestExit (.status 256) = 0 ∧ latestExit (.status 512) = 0 ∧ latestExit (.status 768) = 0 := by decide

/-- C135. The program that posts a chunk succeeds exactly if the server answers 202. -/
theorem C135_post_exit (o : Outcome) (he : ∀ e, o = .error e → 0 < e ∧ e < 256) : postExit o = 0 ↔ o = .status 202 := by
  cases o with
  | error e =>
    have := he e rfl
    have h : postExit (.error e) = e := Nat.mod_eq_of_lt this.2
    rw [h]
    constructor
    · intro h; omega
    · intro h; exact nomatch h
  | status h =>
    unfold postExit postResult
    by_cases h2 : h = 202
    · simp [h2]
    · simp [h2]

/-- C135. A chunk of a device whose serial has letters, digits and `-._~` only, and at most 469 of them, is posted to the address
that ends with the serial, where the server reads it. Missing: other serials (`C135_false_serial`, `C135_false_long`). -/
theorem C135_post_partial (serial : Bytes) (hl : serial.length ≤ 469)
    (hs : ∀ b ∈ serial, (48 ≤ b ∧ b ≤ 57) ∨ (65 ≤ b ∧ b ≤ 90) ∨ (97 ≤ b ∧ b ≤ 122) ∨ b = 45 ∨ b = 46 ∨ b = 95 ∨ b = 126) :
    ∃ t, destUrl serial = "https://chunks.memfault.com/api/v0/chunks/".toList ++ t ∧ decode t = some serial ∧ '/' ∉ t ∧ '?' ∉ t ∧ '#' ∉ t := by
  have hu : ∀ b ∈ serial, unreserved b = true := by
    intro b hb
    unfold unreserved
    simp only [Bool.or_eq_true, Bool.and_eq_true, decide_eq_true_eq, beq_iff_eq]
    rcases hs b hb with h | h | h | h | h | h | h <;> simp [h]
  have hslash : ∀ n < 256, unreserved (UInt8.ofNat n) = true → Char.ofNat n ≠ '/' := by decide +kernel
  have e : (serial.map fun b => Char.ofNat b.toNat) = escape serial := by
    clear hl hs
    induction serial with
    | nil => rfl
    | cons b s ih =>
      show Char.ofNat b.toNat :: _ = escapeByte b ++ escape s
      unfold escapeByte
      rw [hu b (List.mem_cons_self ..), if_pos rfl, ← ih fun c hc => hu c (List.mem_cons_of_mem _ hc)]
      rfl
  refine ⟨serial.map fun b => Char.ofNat b.toNat, ?_, ?_, ?_, ?_, ?_⟩
  · unfold destUrl
    refine List.take_of_length_le ?_
    have : "https://chunks.memfault.com/api/v0/chunks/".toList.length = 42 := by decide +kernel
    rw [List.length_append, List.length_map, this]
    omega
  · rw [e, decode_escape]
  · intro h
    obtain ⟨b, hb, hc⟩ := List.mem_map.1 h
    exact hslash b.toNat b.toNat_lt (by rw [UInt8.ofNat_toNat]; exact hu b hb) hc
  · rw [e]
    intro h
    exact (escape_plain _ _ h).2.1 rfl
  · rw [e]
    intro h
    exact (escape_plain _ _ h).1 rfl

example : destUrl [84, 69, 83, 84] = "https://chunks.memfault.com/api/v0/chunks/TEST".toList := by decide +kernel

/-- C135 is false for the serial `a?b`: the chunk is posted for the device `a`. -/
theorem C135_false_serial : (parse (destUrl [97, 63, 98])).1 = "https://chunks.memfault.com/api/v0/chunks/a".toList := by
  decide +kernel

/-- C135 is false for longer serials: devices whose serials agree in the first 469 bytes have the same address. -/
theorem C135_false_long (p s t : Bytes) (h : p.length = 469) : destUrl (p ++ s) = destUrl (p ++ t) := by
  have : "https://chunks.memfault.com/api/v0/chunks/".toList.length = 42 := by decide +kernel
  unfold destUrl
  rw [List.map_append, List.map_append, ← List.append_assoc, ← List.append_assoc, List.take_left', List.take_left'] <;>
    rw [List.length_append, List.length_map, this, h]

end Mflt.Props
