import Verif.Model.HttpRequest
import Verif.Spec.HttpRequest
import Verif.Lemmas.HttpUrl

/-! # Lemmas: sending pieces, and reading requests -/

namespace Mflt.HttpRequest

open Spec.HttpRequest (cut line fields split query parameter Sent Word Request parse)
open Spec.Http (percentDecode Unreserved IsDigit decimal NoBreak encodedLength)

/-! ## Sending -/

/-- Pieces sent one after the other, up to the first that is refused. -/
def sendAll {σ : Type} (send : Send σ) : List Bytes → σ → Bool × σ
  | [], s => (true, s)
  | d :: ds, s => if (send s d).1 then sendAll send ds (send s d).2 else (false, (send s d).2)

/-- A callback that records what it is given. -/
def record (accept : List Bytes → Bytes → Bool) : Send (List Bytes) := fun log d => (accept log d, log ++ [d])

section
variable {σ : Type} (send : Send σ)

theorem put_eq (d : Bytes) (s : σ) : put send d s = some (sendAll send [d] s) := by
  unfold put sendAll
  rcases h : send s d with ⟨b, s'⟩
  cases b <;> simp [sendAll]

theorem andThen_sendAll (a b : List Bytes) (s : σ) :
    andThen (some (sendAll send a s)) (fun s => some (sendAll send b s)) =
      some (sendAll send (a ++ b) s) := by
  induction a generalizing s with
  | nil => rfl
  | cons d ds ih =>
    simp only [sendAll, List.cons_append]
    split
    · exact ih _
    · rfl

theorem writeCrlf_eq (s : σ) : writeCrlf send s = some (sendAll send [[13, 10]] s) := put_eq send _ s

theorem writeHostHdr_eq (host : Bytes) (s : σ) :
    writeHostHdr send host s = some (sendAll send [ascii "Host:", host, [13, 10]] s) := by
  unfold writeHostHdr
  simp only [put_eq, writeCrlf_eq, andThen_sendAll]
  rfl

theorem writeUserAgentHdr_eq (s : σ) :
    writeUserAgentHdr send s = some (sendAll send [ascii "User-Agent:MemfaultSDK/1.23.1\r\n"] s) :=
  put_eq send _ s

theorem writeProjectKeyHdr_eq (cfg : Config) (s : σ) :
    writeProjectKeyHdr cfg send s =
      some (sendAll send [ascii "Memfault-Project-Key:", cfg.apiKey, [13, 10]] s) := by
  unfold writeProjectKeyHdr
  simp only [put_eq, writeCrlf_eq, andThen_sendAll]
  rfl

theorem snprintf_fits {buf text : Bytes} (h : text.length < buf.length) :
    snprintf buf text = some (text ++ 0 :: buf.drop (text.length + 1), text.length) := by
  unfold snprintf
  rw [if_neg (by omega), List.take_of_length_le (by omega)]
  rw [memcpyIn_zero (by rw [List.length_append, List.length_singleton]; omega)]
  simp

theorem snprintf_truncated {buf text : Bytes} (h0 : 0 < buf.length) (h : buf.length ≤ text.length) :
    snprintf buf text = some (text.take (buf.length - 1) ++ [0], text.length) := by
  unfold snprintf
  have hl : (text.take (buf.length - 1) ++ [0]).length = buf.length := by
    rw [List.length_append, List.length_take]; simp; omega
  rw [if_neg (by omega)]
  rw [memcpyIn_zero (by omega), hl]
  simp

theorem writeMsg_eq {buf text : Bytes} {n : Nat} (h : text.length < n) (s : σ) :
    writeMsg send (text ++ 0 :: buf) text.length n s = some (sendAll send [text] s) := by
  unfold writeMsg
  rw [if_neg (by omega), memcpyOut_some (by simp)]
  simp only [Option.bind_some, List.drop_zero, List.take_left]
  exact put_eq send _ s

theorem sendAll_record (accept : List Bytes → Bytes → Bool) (pieces : List Bytes) :
    ∀ l, ∃ ok done, sendAll (record accept) pieces l = (ok, l ++ done) ∧ done <+: pieces ∧
      (ok = true → done = pieces) ∧
      (∀ pre x post, done = pre ++ x :: post → (ok = true ∨ post ≠ []) → accept (l ++ pre) x = true) ∧
      (ok = false → ∃ pre x, done = pre ++ [x] ∧ accept (l ++ pre) x = false) := by
  induction pieces with
  | nil => intro l; exact ⟨true, [], by simp [sendAll], List.prefix_refl _, by simp, by simp, by simp⟩
  | cons d ds ih =>
    intro l
    unfold sendAll
    cases ha : accept l d with
    | false =>
      refine ⟨false, [d], by simp [record, ha], ⟨ds, rfl⟩, by simp, ?_, fun _ => ⟨[], d, rfl, by simpa⟩⟩
      intro pre x post he hp
      rcases hp with hp | hp
      · simp at hp
      · cases pre with
        | nil => simp only [List.nil_append, List.cons.injEq] at he; exact absurd he.2.symm hp
        | cons y ys => simp at he
    | true =>
      obtain ⟨ok, done, h1, h2, h3, h4, h5⟩ := ih (l ++ [d])
      refine ⟨ok, d :: done, ?_, ?_, ?_, ?_, ?_⟩
      · simp only [record, ha, if_true]
        exact h1.trans (by simp)
      · obtain ⟨t, rfl⟩ := h2; exact ⟨t, by simp⟩
      · intro hok; rw [h3 hok]
      · intro pre x post he hp
        cases pre with
        | nil =>
          simp only [List.nil_append, List.cons.injEq] at he
          rw [← he.1]; simpa using ha
        | cons y ys =>
          simp only [List.cons_append, List.cons.injEq] at he
          obtain ⟨rfl, he⟩ := he
          have := h4 ys x post he hp
          simpa using this
      · intro hok
        obtain ⟨pre, x, e1, e2⟩ := h5 hok
        exact ⟨d :: pre, x, by rw [e1]; rfl, by simpa using e2⟩

theorem sendAll_sent (accept : List Bytes → Bytes → Bool) (pieces : List Bytes) :
    ∃ ok log, sendAll (record accept) pieces [] = (ok, log) ∧ Sent accept pieces.flatten ok log := by
  obtain ⟨ok, done, h1, h2, h3, h4, h5⟩ := sendAll_record accept pieces []
  refine ⟨ok, done, by simpa using h1, ?_, ?_, ?_, ?_⟩
  · obtain ⟨t, rfl⟩ := h2
    rw [List.flatten_append]; exact List.prefix_append _ _
  · intro hok; rw [h3 hok]
  · simpa using h4
  · simpa using h5

end

/-! ## Reading -/

theorem cut_append {c : UInt8} {l : Bytes} (h : c ∉ l) (r : Bytes) : cut c (l ++ c :: r) = some (l, r) := by
  induction l with
  | nil => simp [cut]
  | cons x xs ih =>
    simp only [List.mem_cons, not_or] at h
    simp only [List.cons_append, cut]
    rw [if_neg (Ne.symm h.1), ih h.2]
    rfl

theorem line_append {l : Bytes} (h : NoBreak l) (r : Bytes) :
    line (l ++ 13 :: 10 :: r) = some (l, r) := by
  induction l with
  | nil => simp [line]
  | cons x xs ih =>
    simp only [List.cons_append, line]
    rw [if_neg (fun hx => (h x (by simp)).1 hx.1), ih (fun c hc => h c (by simp [hc]))]
    rfl

/-- Header lines. -/
def headerLines (hs : List (Bytes × Bytes)) : Bytes := hs.flatMap fun h => h.1 ++ 58 :: (h.2 ++ [13, 10])

theorem fields_eq (hs : List (Bytes × Bytes))
    (h : ∀ f ∈ hs, 58 ∉ f.1 ∧ NoBreak f.1 ∧ NoBreak f.2) (body : Bytes) :
    ∀ n, hs.length < n → fields n (headerLines hs ++ 13 :: 10 :: body) = some (hs, body) := by
  induction hs with
  | nil =>
    intro n hn
    obtain ⟨n, rfl⟩ : ∃ m, n = m + 1 := ⟨n - 1, by omega⟩
    have : line (13 :: 10 :: body) = some ([], body) := line_append (l := []) (by simp [NoBreak]) body
    simp [headerLines, fields, this]
  | cons f hs ih =>
    intro n hn
    simp only [List.length_cons] at hn
    obtain ⟨n, rfl⟩ : ∃ m, n = m + 1 := ⟨n - 1, by omega⟩
    obtain ⟨h1, h2, h3⟩ := h f (by simp)
    have hnb : NoBreak (f.1 ++ 58 :: f.2) := by
      intro c hc
      simp only [List.mem_append, List.mem_cons] at hc
      rcases hc with hc | rfl | hc
      · exact h2 c hc
      · decide
      · exact h3 c hc
    have hl := line_append hnb (headerLines hs ++ 13 :: 10 :: body)
    have he : headerLines (f :: hs) ++ 13 :: 10 :: body =
        (f.1 ++ 58 :: f.2) ++ 13 :: 10 :: (headerLines hs ++ 13 :: 10 :: body) := by
      simp [headerLines]
    rw [he]
    unfold fields
    rw [hl]
    have hi := ih (fun g hg => h g (by simp [hg])) n (by omega)
    have hc := cut_append h1 f.2
    cases hx : f.1 ++ 58 :: f.2 with
    | nil => simp at hx
    | cons x xs =>
      rw [hx] at hc
      simp only [hc, hi]

theorem length_headerLines (hs : List (Bytes × Bytes)) : hs.length ≤ (headerLines hs).length := by
  induction hs with
  | nil => simp
  | cons f hs ih =>
    simp only [headerLines, List.flatMap_cons, List.length_append, List.length_cons] at ih ⊢
    omega

theorem parse_eq {method target version : Bytes} {hs : List (Bytes × Bytes)} (hm : Word method)
    (ht : Word target) (hv : Word version)
    (h : ∀ f ∈ hs, 58 ∉ f.1 ∧ NoBreak f.1 ∧ NoBreak f.2) (body : Bytes) :
    parse (method ++ 32 :: (target ++ 32 :: (version ++ 13 :: 10 ::
      (headerLines hs ++ 13 :: 10 :: body)))) = some (⟨method, target, version, hs⟩, body) := by
  have hw : ∀ {s : Bytes}, Word s → 32 ∉ s := fun hs hc => (hs 32 hc).1 rfl
  have hn : ∀ {s : Bytes}, Word s → NoBreak s := fun hs c hc => (hs c hc).2
  have hl := line_append (l := method ++ 32 :: (target ++ 32 :: version)) (by
    intro c hc
    simp only [List.mem_append, List.mem_cons] at hc
    rcases hc with hc | rfl | hc | rfl | hc
    · exact hn hm c hc
    · decide
    · exact hn ht c hc
    · decide
    · exact hn hv c hc) (headerLines hs ++ 13 :: 10 :: body)
  have he : method ++ 32 :: (target ++ 32 :: (version ++ 13 :: 10 ::
      (headerLines hs ++ 13 :: 10 :: body))) =
      (method ++ 32 :: (target ++ 32 :: version)) ++ 13 :: 10 ::
        (headerLines hs ++ 13 :: 10 :: body) := by simp
  rw [he]
  generalize hb : (method ++ 32 :: (target ++ 32 :: version)) ++ 13 :: 10 ::
        (headerLines hs ++ 13 :: 10 :: body) = b at hl ⊢
  have hlen : hs.length < b.length + 1 := by
    have := length_headerLines hs
    rw [← hb]; simp only [List.length_append, List.length_cons]; omega
  unfold parse
  rw [hl]
  simp only [cut_append (hw hm), cut_append (hw ht), if_neg (hw hv), fields_eq hs h body _ hlen,
    Option.map_some]

theorem split_append {c : UInt8} {l : Bytes} (h : c ∉ l) (r : Bytes) :
    split c (l ++ c :: r) = l :: split c r := by
  induction l with
  | nil => simp [split]
  | cons x xs ih =>
    simp only [List.mem_cons, not_or] at h
    simp only [List.cons_append, split]
    rw [if_neg (Ne.symm h.1), ih h.2]

theorem split_self {c : UInt8} {l : Bytes} (h : c ∉ l) : split c l = [l] := by
  induction l with
  | nil => rfl
  | cons x xs ih =>
    simp only [List.mem_cons, not_or] at h
    simp only [split]
    rw [if_neg (Ne.symm h.1), ih h.2]

/-- What is decoded consists of unreserved characters and percent signs. -/
theorem percentDecode_chars (e : Bytes) : ∀ s, percentDecode e = some s → ∀ c ∈ e, Unreserved c ∨ c = 37 := by
  have hx : ∀ n < 256, Spec.Http.hexValue (UInt8.ofNat n) ≠ none → Unreserved (UInt8.ofNat n) := by
    decide +kernel
  have hex : ∀ c : UInt8, ∀ v, Spec.Http.hexValue c = some v → Unreserved c := by
    intro c v hv
    have := hx c.toNat c.toNat_lt
    rw [UInt8.ofNat_toNat] at this
    exact this (by rw [hv]; simp)
  fun_induction percentDecode e with
  | case1 => simp
  | case2 a b rest x y s h1 h2 h3 ih =>
    intro s' _ c hc
    simp only [List.mem_cons] at hc
    rcases hc with rfl | rfl | rfl | hc
    · exact .inr rfl
    · exact .inl (hex _ _ h3)
    · exact .inl (hex _ _ h2)
    · exact ih _ h1 c hc
  | case3 => simp
  | case4 c rest h hu ih =>
    intro s' hs d hd
    simp only [Option.map_eq_some_iff] at hs
    obtain ⟨t, h1, -⟩ := hs
    simp only [List.mem_cons] at hd
    rcases hd with rfl | hd
    · exact .inl hu
    · exact ih t h1 d hd
  | case5 => simp

/-! ## Numbers -/

theorem decimal_append (a : Bytes) (c : UInt8) : decimal (a ++ [c]) = 10 * decimal a + (c.toNat - 48) := by
  simp [decimal]

theorem digitsLoop_eq : ∀ fuel n acc, n < fuel →
    ∃ ds, digitsLoop fuel n acc = ds ++ acc ∧ decimal ds = n ∧ (∀ c ∈ ds, IsDigit c) ∧ ds ≠ [] ∧
      ∀ k, n < 10 ^ (k + 1) → ds.length ≤ k + 1 := by
  intro fuel
  induction fuel with
  | zero => intro n acc h; omega
  | succ fuel ih =>
    intro n acc h
    have hd : ∀ m, m < 10 → (UInt8.ofNat (48 + m)).toNat = 48 + m := by
      intro m hm; rw [UInt8.toNat_ofNat']; omega
    have hdig := hd (n % 10) (by omega)
    unfold digitsLoop
    by_cases h0 : n / 10 = 0
    · rw [if_pos h0]
      refine ⟨[UInt8.ofNat (48 + n % 10)], rfl, ?_, ?_, by simp, by simp⟩
      · simp only [decimal, List.foldl_cons, List.foldl_nil, hdig]; omega
      · intro c hc
        simp only [List.mem_singleton] at hc
        subst hc
        unfold IsDigit; rw [hdig]; omega
    · rw [if_neg h0]
      obtain ⟨ds, e1, e2, e3, e4, e5⟩ := ih (n / 10) (UInt8.ofNat (48 + n % 10) :: acc) (by omega)
      refine ⟨ds ++ [UInt8.ofNat (48 + n % 10)], by rw [e1]; simp, ?_, ?_, by simp, ?_⟩
      · rw [decimal_append, e2, hdig]; omega
      · intro c hc
        simp only [List.mem_append, List.mem_singleton] at hc
        rcases hc with hc | rfl
        · exact e3 c hc
        · unfold IsDigit; rw [hdig]; omega
      · intro k hk
        cases k with
        | zero => simp at hk; omega
        | succ k =>
          have := e5 k (by rw [Nat.pow_succ] at hk; omega)
          rw [List.length_append, List.length_singleton]; omega

theorem formatInt_nat {n : Nat} (h : n < 2147483648) :
    decimal (formatInt (Http.wrap n)) = n ∧ (∀ c ∈ formatInt (Http.wrap n), IsDigit c) ∧
      formatInt (Http.wrap n) ≠ [] ∧ (formatInt (Http.wrap n)).length ≤ 10 := by
  have hw : Http.wrap (n : Int) = n := by
    unfold Http.wrap
    rw [Int.bmod_def]
    omega
  rw [hw]
  unfold formatInt
  rw [if_neg (by omega), Int.natAbs_natCast]
  obtain ⟨ds, e1, e2, e3, e4, e5⟩ := digitsLoop_eq (n + 1) n [] (by omega)
  rw [e1, List.append_nil]
  exact ⟨e2, e3, e4, e5 9 (by omega)⟩

end Mflt.HttpRequest
