import Verif.Lemmas.HttpNum

/-!
# Lemmas about parsing URIs
-/

namespace Mflt.Http

open Mflt.Spec.Http (Uri HostName IpLiteral IsDigit decimal toLower schemeName)

theorem findFirst_none {s : Bytes} {c : UInt8} : findFirst s c = none ↔ c ∉ s := by
  unfold findFirst
  rw [List.findIdx?_eq_none_iff]
  constructor
  · intro h hc
    have := h c hc
    simp at this
  · intro h x hx
    simp only [beq_eq_false_iff_ne]
    rintro rfl
    exact h hx

theorem findFirst_app {a : Bytes} {c : UInt8} (h : c ∉ a) (b : Bytes) : findFirst (a ++ c :: b) c = some a.length := by
  unfold findFirst
  rw [List.findIdx?_append]
  have := findFirst_none.2 h
  unfold findFirst at this
  rw [this]
  simp [List.findIdx?_cons]

theorem findFirst_lt {s : Bytes} {c : UInt8} {i : Nat} (h : findFirst s c = some i) : i < s.length := by
  unfold findFirst at h
  rw [List.findIdx?_eq_some_iff_getElem] at h
  exact h.1

theorem findLast_none {s : Bytes} {c : UInt8} (h : c ∉ s) : findLast s c = none := by
  unfold findLast
  have := findFirst_none.2 (fun hx => h (List.mem_reverse.1 hx) : c ∉ s.reverse)
  unfold findFirst at this
  rw [this]
  rfl

theorem findLast_app {b : Bytes} {c : UInt8} (h : c ∉ b) (a : Bytes) : findLast (a ++ c :: b) c = some a.length := by
  unfold findLast
  have h1 : (a ++ c :: b).reverse = b.reverse ++ c :: a.reverse := by simp
  have := findFirst_app (fun hx => h (List.mem_reverse.1 hx) : c ∉ b.reverse) a.reverse
  unfold findFirst at this
  rw [h1, this]
  simp

theorem findLast_some {s : Bytes} {c : UInt8} {i : Nat} (h : findLast s c = some i) : s[i]? = some c := by
  unfold findLast at h
  cases hf : s.reverse.findIdx? (· == c) with
  | none => rw [hf] at h; cases h
  | some j =>
    rw [hf] at h
    cases h
    rw [List.findIdx?_eq_some_iff_getElem] at hf
    obtain ⟨hj, h1, _⟩ := hf
    rw [List.length_reverse] at hj
    rw [List.getElem_reverse] at h1
    show s[s.length - 1 - j]? = some c
    rw [List.getElem?_eq_getElem (by omega)]
    simpa using h1

theorem findLast_lt {s : Bytes} {c : UInt8} {i : Nat} (h : findLast s c = some i) : i < s.length := by
  have := findLast_some h
  by_contra hx
  rw [List.getElem?_eq_none (by omega)] at this
  cases this

/-! ## The scheme -/

theorem startsWith_eq (s m : Bytes) : startsWith s m = some (decide ((s.take m.length).map toLower = m)) := by
  unfold startsWith
  by_cases h : s.length < m.length
  · rw [if_pos h, decide_eq_false]
    intro hx
    have := congrArg List.length hx
    rw [List.length_map, List.length_take] at this
    omega
  · rw [if_neg h, strcasecmp_eq _ _ (by omega)]

theorem scheme_eq (https : Bool) {t : Bytes} (h : t.map toLower = schemeName https) (rest : Bytes) :
    scheme (t ++ [58, 47, 47] ++ rest) =
      some (some (https, if https then 443 else 80, t.length + 3)) := by
  have hl : t.length = (schemeName https).length := by
    have := congrArg List.length h
    rwa [List.length_map] at this
  unfold scheme
  rw [startsWith_eq, startsWith_eq]
  cases https with
  | true =>
    have hl' : t.length = 5 := hl
    have htk : (t ++ [58, 47, 47] ++ rest).take 8 = t ++ [58, 47, 47] := List.take_left' (by simp [hl'])
    rw [show ([104, 116, 116, 112, 115, 58, 47, 47] : Bytes).length = 8 from rfl, htk, List.map_append, h]
    rw [decide_eq_true (by decide)]
    dsimp only
    rw [hl']
    rfl
  | false =>
    have hl' : t.length = 4 := hl
    have htk : (t ++ [58, 47, 47] ++ rest).take 7 = t ++ [58, 47, 47] := List.take_left' (by simp [hl'])
    rw [show ([104, 116, 116, 112, 115, 58, 47, 47] : Bytes).length = 8 from rfl,
      show ([104, 116, 116, 112, 58, 47, 47] : Bytes).length = 7 from rfl, htk, List.map_append, h]
    have hno : ((t ++ [58, 47, 47] ++ rest).take 8).map toLower ≠ [104, 116, 116, 112, 115, 58, 47, 47] := by
      intro hx
      have h4 : (((t ++ [58, 47, 47] ++ rest).take 8).map toLower)[4]? = some (toLower 58) := by
        rw [List.getElem?_map, List.getElem?_take_of_lt (by decide), List.append_assoc,
          List.getElem?_append_right (by omega), hl']
        rfl
      rw [hx] at h4
      exact absurd h4 (by decide)
    rw [decide_eq_false hno, decide_eq_true (by decide)]
    dsimp only
    rw [hl']
    rfl

/-! ## Host and port -/

theorem parseHost_host {https : Bool} {dflt : Nat} {host rest : Bytes} {path : Option Bytes}
    (h : HostName host ∨ IpLiteral host) :
    parseHost https dflt (host ++ rest) host.length path = some (some ⟨https, host, dflt, path⟩) := by
  unfold parseHost
  have htk : (host ++ rest).take host.length = host := List.take_left' rfl
  rw [htk]
  rcases h with ⟨h1, h2, h3⟩ | ⟨inner, h1, h2⟩
  · obtain ⟨c, cs, hc⟩ := List.exists_cons_of_ne_nil h1
    have h0 : (host ++ rest)[0]? = some c := by rw [hc]; rfl
    have hne : c ≠ 91 := by rintro rfl; rw [hc] at h3; exact h3 rfl
    rw [h0]
    dsimp only
    rw [if_neg hne]
    dsimp only
    rw [findLast_none (fun hx => (h2 58 hx).2.2 rfl)]
    dsimp only
    rw [if_neg (by rw [hc]; simp)]
  · have h0 : (host ++ rest)[0]? = some 91 := by rw [h1]; rfl
    rw [h0]
    dsimp only
    rw [if_pos rfl]
    have hl : host.length = inner.length + 2 := by rw [h1]; simp
    have h93 : findLast host 93 = some (inner.length + 1) := by
      rw [h1]
      exact findLast_app (by simp) (91 :: inner)
    rw [h93]
    dsimp only
    cases h58 : findLast host 58 with
    | none =>
      dsimp only
      rw [if_neg (by omega)]
    | some i =>
      dsimp only
      have hi := findLast_some h58
      have hlt := findLast_lt h58
      have : i ≠ inner.length + 1 := by
        rintro rfl
        rw [findLast_some h93] at hi
        cases hi
      rw [if_neg (by omega), if_neg (by omega)]

theorem parseHost_port {https : Bool} {dflt : Nat} {host port rest : Bytes} {path : Option Bytes}
    (h : HostName host ∨ IpLiteral host) (hp : port ≠ []) (hd : ∀ c ∈ port, IsDigit c)
    (hv : decimal port < 2147483560) :
    parseHost https dflt (host ++ (58 :: port) ++ rest) (host ++ 58 :: port).length path =
      some (some ⟨https, host, decimal port, path⟩) := by
  have hdd : ∀ c ∈ port, c ≠ 58 ∧ c ≠ 93 := by
    intro c hc
    have := hd c hc
    unfold IsDigit at this
    constructor
    · rintro rfl; exact absurd this.2 (by decide)
    · rintro rfl; exact absurd this.2 (by decide)
  unfold parseHost
  have htk : (host ++ (58 :: port) ++ rest).take (host ++ 58 :: port).length = host ++ 58 :: port := List.take_left' rfl
  rw [htk, findLast_app (fun hx => (hdd 58 hx).1 rfl)]
  have hpos : 0 < host.length := by
    rcases h with ⟨h1, _⟩ | ⟨inner, h1, _⟩
    · exact List.length_pos_iff.2 h1
    · rw [h1]; simp
  have hsearch : ∃ c0 k, (host ++ (58 :: port) ++ rest)[0]? = some c0 ∧
      (if c0 = 91 then findLast (host ++ 58 :: port) 93 else some 0) = some k ∧ k ≤ host.length := by
    rcases h with ⟨h1, h2, h3⟩ | ⟨inner, h1, h2⟩
    · obtain ⟨c, cs, hc⟩ := List.exists_cons_of_ne_nil h1
      refine ⟨c, 0, by rw [hc]; rfl, ?_, Nat.zero_le _⟩
      rw [if_neg]
      rintro rfl; rw [hc] at h3; exact h3 rfl
    · refine ⟨91, inner.length + 1, by rw [h1]; rfl, ?_, by rw [h1]; simp⟩
      rw [if_pos rfl]
      have : host ++ 58 :: port = (91 :: inner) ++ 93 :: (58 :: port) := by rw [h1]; simp
      rw [this]
      exact findLast_app (by simp; exact fun hx => (hdd 93 hx).2 rfl) (91 :: inner)
  obtain ⟨c0, k, hk1, hk2, hk3⟩ := hsearch
  rw [hk1]
  dsimp only
  rw [hk2]
  dsimp only
  rw [if_pos hk3, strToDec_eq]
  have hdrop : (host ++ (58 :: port) ++ rest).drop (host.length + 1) = port ++ rest := by
    have : host ++ (58 :: port) ++ rest = (host ++ [58]) ++ (port ++ rest) := by simp
    rw [this, List.drop_left' (by simp)]
  have hdec := decL_complete port ((host ++ 58 :: port).length - (host.length + 1)) 0 [] hd hv rest
    (.inl (by rw [List.length_append, List.length_cons]; omega))
  rw [Nat.zero_add, List.nil_append, show ((decimal [] : Nat) : Int) = 0 from rfl] at hdec
  rw [hdrop, hdec]
  dsimp only
  rw [if_neg (fun hx => hp (List.length_eq_zero_iff.1 hx)), if_neg (by omega)]
  have hmod : (((decimal port : Nat) : Int) % 4294967296).toNat = decimal port := by omega
  rw [hmod, List.append_assoc, List.take_left' rfl]

/-! ## Whole URIs -/

/-- What is between scheme and path. -/
def authority (u : Uri) : Bytes :=
  u.userText ++ (u.host ++ u.portText)

theorem host_chars {h : Bytes} (hh : HostName h ∨ IpLiteral h) : ∀ c ∈ h, c ≠ 47 ∧ c ≠ 64 := by
  intro c hc
  rcases hh with ⟨_, h2, _⟩ | ⟨inner, h1, h2⟩
  · exact ⟨(h2 c hc).1, (h2 c hc).2.1⟩
  · rw [h1] at hc
    simp only [List.cons_append, List.mem_cons, List.mem_append, List.not_mem_nil, or_false] at hc
    rcases hc with rfl | hc | rfl
    · decide
    · exact ⟨(h2 c hc).1, (h2 c hc).2.1⟩
    · decide

theorem portText_chars {u : Uri} (h : ∀ q ∈ u.port, q ≠ [] ∧ (∀ c ∈ q, IsDigit c) ∧ decimal q ≤ 65535) :
    ∀ c ∈ u.portText, c ≠ 47 ∧ c ≠ 64 := by
  intro c hc
  unfold Uri.portText at hc
  cases hp : u.port with
  | none => rw [hp] at hc; cases hc
  | some q =>
    rw [hp] at hc
    rcases List.mem_cons.1 hc with rfl | hc
    · decide
    · have := (h q hp).2.1 c hc
      unfold IsDigit at this
      constructor
      · rintro rfl; exact absurd this.1 (by decide)
      · rintro rfl; exact absurd this.2 (by decide)

theorem parseUri_ok {u : Uri} (h : u.Ok) :
    parseUri u.bytes = some (some ⟨u.https, u.host, u.portNumber, u.path⟩) := by
  have hb : u.bytes = u.schemeText ++ [58, 47, 47] ++ (authority u ++ u.path.getD []) := by
    unfold Uri.bytes authority
    simp only [List.append_assoc]
  unfold parseUri
  rw [hb, scheme_eq u.https h.scheme]
  dsimp only
  have hdrop : (u.schemeText ++ [58, 47, 47] ++ (authority u ++ u.path.getD [])).drop (u.schemeText.length + 3) =
      authority u ++ u.path.getD [] := List.drop_left' (by simp)
  rw [hdrop]
  have hhost := host_chars h.host
  have hport := portText_chars h.port
  have hauth : ∀ c ∈ authority u, c ≠ 47 := by
    intro c hc
    unfold authority at hc
    rcases List.mem_append.1 hc with hc | hc
    · unfold Uri.userText at hc
      cases hu : u.user with
      | none => rw [hu] at hc; cases hc
      | some s =>
        rw [hu] at hc
        rcases List.mem_append.1 hc with hc | hc
        · exact (h.user s hu c hc).1
        · rw [List.mem_singleton.1 hc]; decide
    · rcases List.mem_append.1 hc with hc | hc
      · exact (hhost c hc).1
      · exact (hport c hc).1
  have hfirst : (findFirst (authority u ++ u.path.getD []) 47).getD (authority u ++ u.path.getD []).length =
        (authority u).length ∧
      ((findFirst (authority u ++ u.path.getD []) 47).map fun o => (authority u ++ u.path.getD []).drop o) = u.path := by
    cases hp : u.path with
    | none =>
      rw [Option.getD_none, List.append_nil, findFirst_none.2 (fun hx => hauth 47 hx rfl)]
      exact ⟨rfl, rfl⟩
    | some p =>
      have hh := h.path p hp
      cases p with
      | nil => cases hh
      | cons c p =>
        cases hh
        rw [Option.getD_some, findFirst_app (fun hx => hauth 47 hx rfl)]
        exact ⟨rfl, by rw [Option.map_some, List.drop_left' rfl]⟩
  rw [hfirst.1, hfirst.2, List.take_left' rfl]
  -- the host and the port
  have hhp : ∀ rest : Bytes,
      parseHost u.https (if u.https = true then 443 else 80)
        ((u.host ++ u.portText) ++ rest)
        (u.host ++ u.portText).length u.path =
      some (some ⟨u.https, u.host, u.portNumber, u.path⟩) := by
    intro rest
    unfold Uri.portText
    cases hp : u.port with
    | none =>
      dsimp only
      rw [List.append_nil, parseHost_host h.host]
      unfold Uri.portNumber
      rw [hp]
    | some p =>
      obtain ⟨p1, p2, p3⟩ := h.port p hp
      dsimp only
      rw [parseHost_port h.host p1 p2 (by omega)]
      unfold Uri.portNumber
      rw [hp]
  have hnoat : ∀ c ∈ u.host ++ u.portText, c ≠ 64 := by
    intro c hc
    rcases List.mem_append.1 hc with hc | hc
    · exact (hhost c hc).2
    · exact (hport c hc).2
  unfold authority Uri.userText
  cases hu : u.user with
  | none =>
    dsimp only
    rw [List.nil_append, findFirst_none.2 (fun hx => hnoat 64 hx rfl)]
    dsimp only
    rw [hhp]
  | some s =>
    dsimp only
    have hs : (64 : UInt8) ∉ s := fun hx => (h.user s hu 64 hx).2 rfl
    have e : s ++ [64] ++ (u.host ++ u.portText) =
        s ++ 64 :: (u.host ++ u.portText) := by simp
    rw [e, findFirst_app hs]
    dsimp only
    have hpos : 0 < u.host.length := by
      rcases h.host with ⟨h1, _⟩ | ⟨inner, h1, _⟩
      · exact List.length_pos_iff.2 h1
      · rw [h1]; simp
    have hlen : (s ++ 64 :: (u.host ++ u.portText)).length -
        (s.length + 1) = (u.host ++ u.portText).length := by
      rw [List.length_append, List.length_cons]; omega
    rw [if_neg (by rw [List.length_append, List.length_cons, List.length_append]; omega), hlen]
    have hdr : ((s ++ 64 :: (u.host ++ u.portText)) ++ u.path.getD []).drop
        (s.length + 1) = (u.host ++ u.portText) ++ u.path.getD [] := by
      have : (s ++ 64 :: (u.host ++ u.portText)) ++ u.path.getD [] =
          (s ++ [64]) ++ ((u.host ++ u.portText) ++ u.path.getD []) := by
        simp
      rw [this, List.drop_left' (by simp)]
    rw [hdr, hhp]

/-- Parsing reads inside the string, unless the string ends behind the scheme. -/
theorem parseHost_total {https : Bool} {port : Nat} {mem : Bytes} {hostLen : Nat} {path : Option Bytes}
    (h0 : 0 < mem.length) (hl : hostLen ≤ mem.length) : ∃ o, parseHost https port mem hostLen path = some o := by
  unfold parseHost
  rw [List.getElem?_eq_getElem h0]
  dsimp only
  cases (if mem[0] = 91 then findLast (mem.take hostLen) 93 else some 0) with
  | none => exact ⟨_, rfl⟩
  | some k =>
    dsimp only
    cases h58 : findLast (mem.take hostLen) 58 with
    | none => exact ⟨_, rfl⟩
    | some i =>
      dsimp only
      split
      · have := findLast_lt h58
        rw [List.length_take] at this
        rw [strToDec_eq]
        obtain ⟨o, ho⟩ := decL_total (mem.drop (i + 1)) (hostLen - (i + 1)) 0 0 (.inl (by rw [List.length_drop]; omega))
        rw [ho]
        cases o with
        | none => exact ⟨_, rfl⟩
        | some p =>
          obtain ⟨v, n⟩ := p
          dsimp only
          split
          · exact ⟨_, rfl⟩
          · split <;> exact ⟨_, rfl⟩
      · exact ⟨_, rfl⟩

theorem scheme_total (uri : Bytes) : ∃ o, scheme uri = some o ∧ ∀ p ∈ o, p.2.2 ≤ uri.length ∧
    (uri.take p.2.2).map toLower = schemeName p.1 ++ [58, 47, 47] := by
  unfold scheme
  rw [startsWith_eq, startsWith_eq]
  by_cases h1 : (uri.take ([104, 116, 116, 112, 115, 58, 47, 47] : Bytes).length).map toLower =
      [104, 116, 116, 112, 115, 58, 47, 47]
  · rw [decide_eq_true h1]
    refine ⟨_, rfl, ?_⟩
    rintro _ ⟨⟩
    refine ⟨?_, h1⟩
    have := congrArg List.length h1
    rw [List.length_map, List.length_take] at this
    show 8 ≤ _
    have e : ([104, 116, 116, 112, 115, 58, 47, 47] : Bytes).length = 8 := rfl
    rw [e] at this
    omega
  · rw [decide_eq_false h1]
    dsimp only
    by_cases h2 : (uri.take ([104, 116, 116, 112, 58, 47, 47] : Bytes).length).map toLower =
        [104, 116, 116, 112, 58, 47, 47]
    · rw [decide_eq_true h2]
      refine ⟨_, rfl, ?_⟩
      rintro _ ⟨⟩
      refine ⟨?_, h2⟩
      have := congrArg List.length h2
      rw [List.length_map, List.length_take] at this
      show 7 ≤ _
      have e : ([104, 116, 116, 112, 58, 47, 47] : Bytes).length = 7 := rfl
      rw [e] at this
      omega
    · rw [decide_eq_false h2]
      exact ⟨_, rfl, by rintro _ ⟨⟩⟩

theorem parseUri_total (uri : Bytes) (h : ∀ b, uri.map toLower ≠ schemeName b ++ [58, 47, 47]) :
    ∃ o, parseUri uri = some o := by
  unfold parseUri
  obtain ⟨o, h1, h2⟩ := scheme_total uri
  rw [h1]
  cases o with
  | none => exact ⟨_, rfl⟩
  | some p =>
    obtain ⟨https, port, used⟩ := p
    obtain ⟨h3, h4⟩ := h2 _ rfl
    dsimp only at h3 h4 ⊢
    have hlt : used < uri.length := by
      by_contra hx
      rw [List.take_of_length_le (by omega)] at h4
      exact h https h4
    have hal : 0 < (uri.drop used).length := by rw [List.length_drop]; omega
    have hhl : (findFirst (uri.drop used) 47).getD (uri.drop used).length ≤ (uri.drop used).length := by
      cases hf : findFirst (uri.drop used) 47 with
      | none => exact Nat.le_refl _
      | some i => exact Nat.le_of_lt (findFirst_lt hf)
    generalize ((findFirst (uri.drop used) 47).map fun o => (uri.drop used).drop o) = path
    generalize (findFirst (uri.drop used) 47).getD (uri.drop used).length = hostLen at hhl ⊢
    generalize uri.drop used = auth at hal hhl ⊢
    cases hat : findFirst (auth.take hostLen) 64 with
    | none => exact parseHost_total hal hhl
    | some i =>
      have hi := findFirst_lt hat
      rw [List.length_take] at hi
      dsimp only
      split
      · exact ⟨_, rfl⟩
      · exact parseHost_total (by rw [List.length_drop]; omega) (by rw [List.length_drop]; omega)

end Mflt.Http
