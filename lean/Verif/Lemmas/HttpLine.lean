import Verif.Lemmas.HttpNum

/-!
# Lemmas about parsing one line of an HTTP response
-/

namespace Mflt.Http

open Mflt.Spec.Http (IsDigit decimal toLower NotLength Header)

theorem length_contentLengthName : contentLengthName.length = 14 := rfl

theorem specName : Spec.Http.contentLengthName = contentLengthName := by decide

theorem specVersion : Spec.Http.versionPrefix = httpVersion := by decide

/-! ## No line is read behind its terminator -/

theorem parseLengthValue_total (t : Bytes) (h : 14 ≤ t.length) :
    ∃ o, parseLengthValue (t ++ [0]) t.length = some o := by
  unfold parseLengthValue countSpaces
  obtain ⟨n, hn, h1⟩ := countSpacesLoop_total (t ++ [0]) (t.length - 14) 14 (by simp; omega)
  rw [h1]
  show ∃ o, ((t ++ [0])[14 + n]?).bind _ = some o
  have hlt : 14 + n < (t ++ [0]).length := by simp; omega
  rw [List.getElem?_eq_getElem hlt, Option.bind_some]
  by_cases hc : (t ++ [0])[14 + n] = 58
  · rw [if_neg (by simp [hc])]
    have hin : 14 + n < t.length := by
      by_contra hx
      have hx' : 14 + n = t.length := by simp at hlt; omega
      have : (t ++ [0])[14 + n]? = some 0 := by rw [hx']; simp
      rw [List.getElem?_eq_getElem hlt, hc] at this
      exact absurd this (by decide)
    obtain ⟨m, hm, h2⟩ := countSpacesLoop_total (t ++ [0]) (t.length - (14 + n + 1)) (14 + n + 1)
      (by simp; omega)
    rw [h2]
    show ∃ o, strToDec _ _ _ = some o
    rw [strToDec_eq]
    exact decL_total _ _ _ _ (.inl (by simp; omega))
  · rw [if_pos (by simpa using hc)]
    exact ⟨_, rfl⟩

theorem parseHeader_total (t : Bytes) (old : Int) : ∃ o, parseHeader (t ++ [0]) t.length old = some o := by
  unfold parseHeader
  by_cases h : t.length < 14
  · rw [if_pos h]; exact ⟨_, rfl⟩
  · rw [if_neg h, strcasecmp_eq _ _ (by rw [length_contentLengthName]; simp; omega)]
    cases decide (((t ++ [0]).take contentLengthName.length).map toLower = contentLengthName) with
    | false => exact ⟨_, rfl⟩
    | true =>
      obtain ⟨o, ho⟩ := parseLengthValue_total t (by omega)
      rw [ho]
      cases o with
      | none => exact ⟨_, rfl⟩
      | some p =>
        obtain ⟨v, n⟩ := p
        dsimp only
        split <;> exact ⟨_, rfl⟩

theorem parseStatusLine_total (t : Bytes) : ∃ o, parseStatusLine (t ++ [0]) t.length = some o := by
  unfold parseStatusLine
  by_cases h : t.length < 7
  · rw [if_pos h]; exact ⟨_, rfl⟩
  rw [if_neg h, if_neg (by simp; omega)]
  split
  · exact ⟨_, rfl⟩
  by_cases h8 : t.length < 8
  · rw [if_pos h8]; exact ⟨_, rfl⟩
  rw [if_neg h8, List.getElem?_eq_getElem (by simp; omega)]
  dsimp only
  split
  · exact ⟨_, rfl⟩
  unfold countSpaces
  obtain ⟨n, hn, h1⟩ := countSpacesLoop_total (t ++ [0]) (t.length - 8) 8 (by simp; omega)
  rw [h1]
  cases n with
  | zero => exact ⟨_, rfl⟩
  | succ n =>
    dsimp only
    split
    · exact ⟨_, rfl⟩
    · rw [strToDec_eq]
      obtain ⟨o, ho⟩ := decL_total ((t ++ [0]).drop (8 + (n + 1))) (8 + (n + 1) + 3) 0 0
        (.inr ⟨0, by rw [List.drop_append_of_le_length (by omega)]; simp, by decide⟩)
      rw [ho]
      cases o with
      | none => exact ⟨_, rfl⟩
      | some p =>
        obtain ⟨v, k⟩ := p
        dsimp only
        split <;> exact ⟨_, rfl⟩

/-! ## What well-formed lines give -/

theorem parseHeader_other {t : Bytes} (h : NotLength t) (old : Int) :
    parseHeader (t ++ [0]) t.length old = some (some old) := by
  unfold parseHeader
  by_cases hl : t.length < 14
  · rw [if_pos hl]
  · rw [if_neg hl, strcasecmp_eq _ _ (by rw [length_contentLengthName]; simp; omega)]
    rw [length_contentLengthName, List.take_append_of_le_length (by omega)]
    unfold NotLength at h
    rw [specName] at h
    rw [decide_eq_false h]

theorem parseHeader_length {name : Bytes} {before behind : Nat} {digits : Bytes}
    (h : (Header.length name before behind digits).Ok) (old : Int) :
    parseHeader ((Header.length name before behind digits).text ++ [0])
      (Header.length name before behind digits).text.length old = some (some ((decimal digits : Nat) : Int)) := by
  obtain ⟨h1, h2, h3, h4, h5⟩ := h
  have hname : name.length = 14 := by
    have := congrArg List.length h1
    rw [List.length_map, specName] at this
    exact this
  rw [specName] at h1
  unfold Header.text
  obtain ⟨d, ds, hd⟩ := List.exists_cons_of_ne_nil h2
  have hd32 : ∀ c ∈ digits, c ≠ 32 := by
    rintro c hc rfl
    exact absurd (h3 _ hc).1 (by decide)
  have hval : parseLengthValue
      (name ++ List.replicate before 32 ++ [58] ++ List.replicate behind 32 ++ digits ++ [0])
      (name ++ List.replicate before 32 ++ [58] ++ List.replicate behind 32 ++ digits).length =
      some (some (((decimal digits : Nat) : Int), digits.length)) := by
    unfold parseLengthValue countSpaces
    rw [countSpacesLoop_run _ before _ 14 name ([58] ++ List.replicate behind 32 ++ digits ++ [0]) hname
      (by simp) (.inr ⟨by simp; omega, 58, rfl, by decide⟩)]
    show ((_ : Bytes)[14 + before]?).bind _ = _
    have hcol : (name ++ List.replicate before 32 ++ [58] ++ List.replicate behind 32 ++ digits ++ [0])[14 + before]?
        = some 58 := by
      rw [← hname]; simp
    rw [hcol, Option.bind_some, if_neg (by decide)]
    rw [countSpacesLoop_run _ behind _ (14 + before + 1) (name ++ List.replicate before 32 ++ [58])
      (digits ++ [0]) (by simp; omega) (by simp)
      (.inr ⟨by subst hd; simp; omega, d, by subst hd; rfl, hd32 d (by subst hd; simp)⟩)]
    show strToDec _ _ _ = _
    rw [strToDec_eq]
    have hdrop : (name ++ List.replicate before 32 ++ [58] ++ List.replicate behind 32 ++ digits ++ [0]).drop
        (14 + before + 1 + behind) = digits ++ [0] := by
      rw [List.append_assoc, List.drop_left' (by simp; omega)]
    rw [hdrop]
    have := decL_complete digits ((name ++ List.replicate before 32 ++ [58] ++ List.replicate behind 32 ++ digits).length
      - (14 + before + 1 + behind)) 0 [] h3 h4 [0] (.inl (by simp; omega))
    rw [Nat.zero_add, List.nil_append] at this
    exact this
  unfold parseHeader
  rw [if_neg (by simp; omega), strcasecmp_eq _ _ (by rw [length_contentLengthName]; simp; omega), hval]
  have htake : (name ++ List.replicate before 32 ++ [58] ++ List.replicate behind 32 ++ digits ++ [0]).take
      contentLengthName.length = name := by
    rw [length_contentLengthName]
    simp only [List.append_assoc]
    rw [List.take_left' hname]
  rw [htake, decide_eq_true h1]
  dsimp only
  rw [if_pos (by subst hd; simp)]

theorem parseStatusLine_ok {minor : UInt8} {n : Nat} {code reason : Bytes} (hm : IsDigit minor)
    (hc : code.length = 3) (hd : ∀ c ∈ code, IsDigit c) :
    parseStatusLine
      (Spec.Http.versionPrefix ++ [minor] ++ List.replicate (n + 1) 32 ++ code ++ [32] ++ reason ++ [0])
      (Spec.Http.versionPrefix ++ [minor] ++ List.replicate (n + 1) 32 ++ code ++ [32] ++ reason).length =
      some (some ((decimal code : Nat) : Int)) := by
  rw [specVersion]
  have h7 : httpVersion.length = 7 := rfl
  obtain ⟨line, hline⟩ : ∃ l, l = httpVersion ++ [minor] ++ List.replicate (n + 1) 32 ++ code ++ [32] ++ reason :=
    ⟨_, rfl⟩
  have hlen : line.length = 8 + (n + 1) + 3 + 1 + reason.length := by
    rw [hline]; simp [h7, hc]; omega
  rw [← hline]
  unfold parseStatusLine countSpaces
  rw [if_neg (by omega), if_neg (by simp; omega)]
  have htake : (line ++ [0]).take 7 = httpVersion := by
    rw [hline]
    simp only [List.append_assoc]
    rw [List.take_left' h7]
  have h8 : (line ++ [0])[7]? = some minor := by
    rw [hline]
    simp only [List.append_assoc]
    rw [← h7, List.getElem?_append_right (Nat.le_refl _), Nat.sub_self]
    rfl
  rw [htake, if_neg (by simp), if_neg (by omega), h8]
  dsimp only
  rw [(isNumber_iff minor).2 hm]
  simp only [Bool.not_true, Bool.false_eq_true, if_false]
  obtain ⟨d, ds, hds⟩ : ∃ d ds, code = d :: ds := by
    cases code with
    | nil => simp at hc
    | cons d ds => exact ⟨d, ds, rfl⟩
  have hd32 : d ≠ 32 := by
    rintro rfl
    exact absurd (hd 32 (by rw [hds]; simp)).1 (by decide)
  rw [countSpacesLoop_run (line ++ [0]) (n + 1) _ 8 (httpVersion ++ [minor]) (code ++ [32] ++ reason ++ [0])
    (by simp [h7]) (by rw [hline]; simp) (.inr ⟨by omega, d, by rw [hds]; rfl, hd32⟩)]
  dsimp only
  rw [if_neg (by omega), strToDec_eq]
  have hdrop : (line ++ [0]).drop (8 + (n + 1)) = code ++ ([32] ++ reason ++ [0]) := by
    rw [hline]
    have : httpVersion ++ [minor] ++ List.replicate (n + 1) 32 ++ code ++ [32] ++ reason ++ [0] =
        (httpVersion ++ [minor] ++ List.replicate (n + 1) 32) ++ (code ++ ([32] ++ reason ++ [0])) := by simp
    rw [this, List.drop_left' (by simp [h7]; omega)]
  have hbig : decimal code < 2147483560 := by
    obtain ⟨a, b, c, rfl⟩ : ∃ a b c, code = [a, b, c] := by
      match code, hc with
      | [a, b, c], _ => exact ⟨a, b, c, rfl⟩
    have ha := hd a (by simp)
    have hb := hd b (by simp)
    have hcc := hd c (by simp)
    unfold IsDigit at ha hb hcc
    simp only [decimal, List.foldl_cons, List.foldl_nil]
    omega
  have := decL_complete code (8 + (n + 1) + 3) 0 [] hd hbig ([32] ++ reason ++ [0])
    (.inr ⟨by omega, rfl⟩)
  rw [Nat.zero_add, List.nil_append] at this
  have h0 : ((decimal [] : Nat) : Int) = 0 := rfl
  rw [h0] at this
  rw [hdrop, this]
  dsimp only
  rw [if_pos hc]

end Mflt.Http
