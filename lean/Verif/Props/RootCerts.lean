import Verif.Spec.RootCerts

/-! # C108: root certificates -/

namespace Mflt.Props

open RootCerts Spec.RootCerts

namespace RootC

theorem takeWhile_text {t : Bytes} (h : 0 ∉ t) : (t ++ [0]).takeWhile (· ≠ 0) = t := by
  induction t with
  | nil => rfl
  | cons a t ih =>
    simp only [List.mem_cons, not_or] at h
    have ha : a ≠ 0 := fun x => h.1 x.symm
    simp [ha]
    simpa using ih h.2

theorem next_zero {m : Modem} (h : ∀ e ∈ m.script, e = 0) :
    m.next.1 = 0 ∧ (∀ e ∈ m.next.2.script, e = 0) := by
  unfold Modem.next
  split
  · rename_i hs; exact ⟨rfl, by rw [hs]; simp⟩
  · rename_i e es hs
    rw [hs] at h
    exact ⟨h e (by simp), fun x hx => h x (by simp [hx])⟩

theorem next_store (m : Modem) : m.next.2.store = m.store ∧ m.next.2.writes = m.writes ∧ m.next.2.spoiled = m.spoiled := by
  unfold Modem.next
  split <;> exact ⟨rfl, rfl, rfl⟩

/-- What adding a certificate does. -/
theorem add_spec (id : Nat) {t : Bytes} (ht : 0 ∉ t) (m : Modem) :
    (∀ k, k ≠ id → (modemAdd id (t ++ [0]) m).2.store k = m.store k) ∧
    ((modemAdd id (t ++ [0]) m).1 = 0 → (modemAdd id (t ++ [0]) m).2.store id = some t) ∧
    ((∀ e ∈ m.script, e = 0) → (modemAdd id (t ++ [0]) m).1 = 0 ∧
      (∀ e ∈ (modemAdd id (t ++ [0]) m).2.script, e = 0) ∧
      (m.store id = some t → (modemAdd id (t ++ [0]) m).2.writes = m.writes ∧
        (modemAdd id (t ++ [0]) m).2.store = m.store)) := by
  have e1 := takeWhile_text ht
  have e2 : (t ++ [0]).take ((t ++ [0]).length - 1) = t := by simp
  obtain ⟨n1, n2, _⟩ := next_store m
  obtain ⟨n3, n4, _⟩ := next_store m.next.2
  obtain ⟨n5, n6, _⟩ := next_store m.next.2.next.2
  by_cases hE : m.next.1 = 0
  · by_cases hF : (m.store id).isSome = true
    · by_cases hC : m.next.2.next.1 = 0 ∧ m.store id = some t
      · have hv : modemAdd id (t ++ [0]) m = (0, m.next.2.next.2) := by
          simp only [modemAdd, Modem.exists, Modem.cmp, Modem.write, e1, e2]
          rw [if_neg (by simp [hE]), if_pos hF, if_pos (by rw [if_neg (by simp [hC.1]), if_pos (by rw [n1]; exact hC.2)])]
        rw [hv]
        refine ⟨fun k _ => ?_, fun _ => ?_, fun hs => ⟨rfl, (next_zero (next_zero hs).2).2, fun _ => ⟨?_, ?_⟩⟩⟩
        · dsimp only; rw [n3, n1]
        · dsimp only; rw [n3, n1]; exact hC.2
        · dsimp only; rw [n4, n2]
        · dsimp only; rw [n3, n1]
      · have hv : modemAdd id (t ++ [0]) m = m.next.2.next.2.write id t := by
          simp only [modemAdd, Modem.exists, Modem.cmp, e1, e2]
          rw [if_neg (by simp [hE]), if_pos hF, if_neg]
          intro h
          by_cases h1 : m.next.2.next.1 = 0
          · rw [if_neg (by simp [h1])] at h
            by_cases h2 : m.next.2.store id = some t
            · exact hC ⟨h1, by rw [← n1]; exact h2⟩
            · rw [if_neg h2] at h; simp at h
          · rw [if_pos h1] at h; exact h1 h
        rw [hv]
        simp only [Modem.write]
        refine ⟨fun k hk => by simp [put, hk, n3, n1], fun h => by simp [put, h], fun hs => ?_⟩
        have z2 := next_zero (next_zero hs).2
        have z3 := next_zero z2.2
        exact ⟨z3.1, z3.2, fun hst => absurd ⟨z2.1, hst⟩ hC⟩
    · have hv : modemAdd id (t ++ [0]) m = m.next.2.write id t := by
        simp only [modemAdd, Modem.exists, e1]
        rw [if_neg (by simp [hE]), if_neg hF]
      rw [hv]
      simp only [Modem.write]
      refine ⟨fun k hk => by simp [put, hk, n1], fun h => by simp [put, h], fun hs => ?_⟩
      have z2 := next_zero (next_zero hs).2
      exact ⟨z2.1, z2.2, fun hst => absurd (by rw [hst]; rfl) hF⟩
  · have hv : modemAdd id (t ++ [0]) m = (m.next.1, m.next.2) := by
      simp only [modemAdd, Modem.exists]
      exact if_pos hE
    rw [hv]
    exact ⟨fun k _ => by dsimp only; rw [n1], fun h => absurd h hE, fun hs => absurd (next_zero hs).1 hE⟩

theorem remove_spec (id : Nat) (m : Modem) :
    (∀ k, k ≠ id → (modemRemove id m).2.store k = m.store k) ∧
    ((∀ e ∈ m.script, e = 0) → (modemRemove id m).2.store id = none ∧
      (∀ e ∈ (modemRemove id m).2.script, e = 0) ∧
      (m.store id = none → (modemRemove id m).2.writes = m.writes)) := by
  obtain ⟨n1, n2, _⟩ := next_store m
  obtain ⟨n3, n4, _⟩ := next_store m.next.2
  by_cases hE : m.next.1 = 0
  · by_cases hF : (m.store id).isSome = true
    · have hv : modemRemove id m = m.next.2.delete id := by
        simp only [modemRemove, Modem.exists]
        exact (if_neg (fun h => h hE)).trans (if_neg (by simp [hF]))
      rw [hv]
      simp only [Modem.delete]
      refine ⟨fun k hk => by simp [put, hk, n1], fun hs => ?_⟩
      have z2 := next_zero (next_zero hs).2
      exact ⟨by simp [put, z2.1], z2.2, fun hn => by rw [hn] at hF; simp at hF⟩
    · have hv : modemRemove id m = (0, m.next.2) := by
        simp only [modemRemove, Modem.exists]
        exact (if_neg (fun h => h hE)).trans (if_pos (by simpa using hF))
      rw [hv]
      refine ⟨fun k _ => by dsimp only; rw [n1], fun hs => ⟨?_, (next_zero hs).2, fun _ => n2⟩⟩
      dsimp only; rw [n1]; simpa using hF
  · have hv : modemRemove id m = (m.next.1, m.next.2) := by
      simp only [modemRemove, Modem.exists]
      exact if_pos hE
    rw [hv]
    exact ⟨fun k _ => by dsimp only; rw [n1], fun hs => absurd (next_zero hs).1 hE⟩

theorem table_add (id : Nat) (c : Bytes) (es : List (Nat × Bytes)) (cap : Nat) (h : ∀ e ∈ es, e.1 ≠ id)
    (hc : es.length < cap) : tableAdd id c ⟨es, cap⟩ = (0, ⟨es ++ [(id, c)], cap⟩) := by
  have : es.any (fun e => decide (e.1 = id)) = false := by
    rw [List.any_eq_false]; intro e he hx; exact h e he (of_decide_eq_true hx)
  simp only [tableAdd, this]
  rw [if_neg (by simp), if_neg (show ¬ es.length ≥ cap by omega)]

/-- The calls of `install`, one after the other. -/
theorem install_eq (t : Texts) (m : Modem) :
    let m0 := (modemRemove 1004 m).2
    let r1 := modemAdd 1001 (t.digicertG2 ++ [0]) m0
    let r2 := modemAdd 1002 (t.amazonCa1 ++ [0]) r1.2
    let r3 := modemAdd 1003 (t.digicertCa ++ [0]) r2.2
    install modem t.literals m =
      if r1.1 ≠ 0 then (1, r1.2) else if r2.1 ≠ 0 then (1, r2.2) else if r3.1 ≠ 0 then (1, r3.2) else (0, r3.2) := by
  simp only [install, installLoop, installCert, modem, Texts.literals]
  by_cases h1 : (modemAdd 1001 (t.digicertG2 ++ [0]) (modemRemove 1004 m).2).1 = 0
  · by_cases h2 : (modemAdd 1002 (t.amazonCa1 ++ [0]) (modemAdd 1001 (t.digicertG2 ++ [0]) (modemRemove 1004 m).2).2).1 = 0
    · by_cases h3 : (modemAdd 1003 (t.digicertCa ++ [0]) (modemAdd 1002 (t.amazonCa1 ++ [0]) (modemAdd 1001 (t.digicertG2 ++ [0]) (modemRemove 1004 m).2).2).2).1 = 0
      · simp [h1, h2, h3]
      · simp [h1, h2, h3]
    · simp [h1, h2]
  · simp [h1]

end RootC

open RootC

/-- **C108 (modem).** Whatever the modem has stored and whichever of its calls fail: if installing the root
certificates returns 0, all three are stored, and other credentials are as before. If no call fails, it returns 0, and
the certificate that is not used any more is gone. -/
theorem C108_modem (t : Texts) (ht : t.plain) (m : Modem) :
    (∀ k, k ∉ tags → k ≠ deprecated → (install modem t.literals m).2.store k = m.store k) ∧
    ((install modem t.literals m).1 = 0 → Installed t (install modem t.literals m).2.store) ∧
    ((∀ e ∈ m.script, e = 0) → (install modem t.literals m).1 = 0 ∧
      (install modem t.literals m).2.store deprecated = none) := by
  obtain ⟨p1, p2, p3⟩ := ht
  have h0 := remove_spec 1004 m
  have h1 := add_spec 1001 p1 (modemRemove 1004 m).2
  have h2 := add_spec 1002 p2 (modemAdd 1001 (t.digicertG2 ++ [0]) (modemRemove 1004 m).2).2
  have h3 := add_spec 1003 p3 (modemAdd 1002 (t.amazonCa1 ++ [0]) (modemAdd 1001 (t.digicertG2 ++ [0]) (modemRemove 1004 m).2).2).2
  have he := install_eq t m
  dsimp only at he
  rw [he]
  refine ⟨?_, ?_, ?_⟩
  · intro k hk hd
    simp only [tags, List.mem_cons, List.not_mem_nil, or_false, not_or] at hk
    have e1 := h1.1 k hk.1
    have e2 := h2.1 k hk.2.1
    have e3 := h3.1 k hk.2.2
    have e0 := h0.1 k hd
    split
    · rw [e1, e0]
    · split
      · rw [e2, e1, e0]
      · split <;> (dsimp only; rw [e3, e2, e1, e0])
  · split
    · intro h; simp at h
    · rename_i g1
      split
      · intro h; simp at h
      · rename_i g2
        split
        · intro h; simp at h
        · rename_i g3
          intro _
          have f1 := h1.2.1 (Decidable.not_not.1 g1)
          have f2 := h2.2.1 (Decidable.not_not.1 g2)
          have f3 := h3.2.1 (Decidable.not_not.1 g3)
          refine ⟨?_, ?_, f3⟩
          · rw [h3.1 _ (by decide), h2.1 _ (by decide)]; exact f1
          · rw [h3.1 _ (by decide)]; exact f2
  · intro hs
    obtain ⟨z0, s0, _⟩ := h0.2 hs
    obtain ⟨z1, s1, _⟩ := h1.2.2 s0
    obtain ⟨z2, s2, _⟩ := h2.2.2 s1
    obtain ⟨z3, s3, _⟩ := h3.2.2 s2
    rw [if_neg (by simp [z1]), if_neg (by simp [z2]), if_neg (by simp [z3])]
    refine ⟨rfl, ?_⟩
    show _ = none
    rw [show deprecated = 1004 from rfl]
    dsimp only
    rw [h3.1 _ (by decide), h2.1 _ (by decide), h1.1 _ (by decide), z0]

/-- **C108 (modem, no wear).** If all three are stored, the one not used any more is gone, and no call fails,
installing again writes nothing to the modem. -/
theorem C108_modem_again (t : Texts) (ht : t.plain) (m : Modem) (hi : Installed t m.store)
    (hd : m.store deprecated = none) (hs : ∀ e ∈ m.script, e = 0) :
    (install modem t.literals m).1 = 0 ∧ (install modem t.literals m).2.writes = m.writes ∧
    Installed t (install modem t.literals m).2.store := by
  obtain ⟨i1, i2, i3⟩ := hi
  have hm := C108_modem t ht m
  refine ⟨(hm.2.2 hs).1, ?_, hm.2.1 (hm.2.2 hs).1⟩
  obtain ⟨p1, p2, p3⟩ := ht
  have h0 := remove_spec 1004 m
  have h1 := add_spec 1001 p1 (modemRemove 1004 m).2
  have h2 := add_spec 1002 p2 (modemAdd 1001 (t.digicertG2 ++ [0]) (modemRemove 1004 m).2).2
  have h3 := add_spec 1003 p3 (modemAdd 1002 (t.amazonCa1 ++ [0]) (modemAdd 1001 (t.digicertG2 ++ [0]) (modemRemove 1004 m).2).2).2
  obtain ⟨z0, s0, w0⟩ := h0.2 hs
  obtain ⟨z1, s1, w1⟩ := h1.2.2 s0
  obtain ⟨z2, s2, w2⟩ := h2.2.2 s1
  obtain ⟨z3, s3, w3⟩ := h3.2.2 s2
  have he := install_eq t m
  dsimp only at he
  rw [he, if_neg (by simp [z1]), if_neg (by simp [z2]), if_neg (by simp [z3])]
  dsimp only
  have k1 := w1 (by rw [h0.1 _ (by decide)]; exact i1)
  have k2 := w2 (by rw [h1.1 _ (by decide), h0.1 _ (by decide)]; exact i2)
  have k3 := w3 (by rw [h2.1 _ (by decide), h1.1 _ (by decide), h0.1 _ (by decide)]; exact i3)
  rw [k3.1, k2.1, k1.1, w0 hd]

/-- **C108 is false (error codes).** Whatever error the storage has, the code that is returned is 1. -/
theorem C108_false_code {σ : Type} (b : Backend σ) (certs : Certs) (s : σ) :
    (install b certs s).1 = 0 ∨ (install b certs s).1 = 1 := by
  have one : ∀ id s, (installCert b certs id s).1 = 0 ∨ (installCert b certs id s).1 = 1 := by
    intro id s
    simp only [installCert]
    split
    · dsimp only; split <;> simp
    · split
      · dsimp only; split <;> simp
      · split
        · dsimp only; split <;> simp
        · simp
  have : ∀ ids s, (installLoop b certs ids s).1 = 0 ∨ (installLoop b certs ids s).1 = 1 := by
    intro ids
    induction ids with
    | nil => intro s; exact Or.inl rfl
    | cons id ids ih =>
      intro s
      simp only [installLoop]
      split
      · exact one id s
      · exact ih _
  exact this _ _

/-- **C108 (Zephyr).** With room for three more credentials, none of them with these tags, installing returns 0 and
adds the three certificates with their tags. -/
theorem C108_table (certs : Certs) (t : Table) (hn : ∀ e ∈ t.entries, e.1 ∉ tags)
    (hc : t.entries.length + 3 ≤ t.capacity) :
    install table certs t = (0, { t with entries := t.entries ++
      [(1001, certs.digicertG2), (1002, certs.amazonCa1), (1003, certs.digicertCa)] }) := by
  obtain ⟨es, cap⟩ := t
  dsimp only at hn hc
  have ne : ∀ k ∈ tags, ∀ e ∈ es, e.1 ≠ k := fun k hk e he h => hn e he (by rw [h]; exact hk)
  have a1 := table_add 1001 certs.digicertG2 es cap (ne 1001 (by decide)) (by omega)
  have a2 := table_add 1002 certs.amazonCa1 (es ++ [(1001, certs.digicertG2)]) cap (by
    intro e he
    rcases List.mem_append.1 he with he | he
    · exact ne 1002 (by decide) e he
    · simp at he; rw [he]; simp) (by simp; omega)
  have a3 := table_add 1003 certs.digicertCa (es ++ [(1001, certs.digicertG2)] ++ [(1002, certs.amazonCa1)]) cap (by
    intro e he
    rcases List.mem_append.1 he with he | he
    · rcases List.mem_append.1 he with he | he
      · exact ne 1003 (by decide) e he
      · simp at he; rw [he]; simp
    · simp at he; rw [he]; simp) (by simp; omega)
  have i1 : installCert table certs 1001 ⟨es, cap⟩ = (0, ⟨es ++ [(1001, certs.digicertG2)], cap⟩) := by
    simp [installCert, table, a1]
  have i2 : installCert table certs 1002 ⟨es ++ [(1001, certs.digicertG2)], cap⟩ =
      (0, ⟨es ++ [(1001, certs.digicertG2)] ++ [(1002, certs.amazonCa1)], cap⟩) := by
    simp only [installCert, table, a2]; simp
  have i3 : installCert table certs 1003 ⟨es ++ [(1001, certs.digicertG2)] ++ [(1002, certs.amazonCa1)], cap⟩ =
      (0, ⟨es ++ [(1001, certs.digicertG2)] ++ [(1002, certs.amazonCa1)] ++ [(1003, certs.digicertCa)], cap⟩) := by
    simp only [installCert, table, a3]; simp
  show installLoop table certs [1001, 1002, 1003] ⟨es, cap⟩ = _
  simp only [installLoop, i1, i2, i3]
  simp

/-- **C108 is false (Zephyr, again).** Installing again fails although the certificates are there. -/
theorem C108_false_again (certs : Certs) (t : Table) (h : ∃ c, (1001, c) ∈ t.entries) :
    install table certs t = (1, t) := by
  obtain ⟨c, hc⟩ := h
  have : t.entries.any (fun e => decide (e.1 = 1001)) = true := by
    rw [List.any_eq_true]; exact ⟨_, hc, by simp⟩
  simp [install, installLoop, installCert, table, tableRemove, tableAdd, this]

/-- **C108 (sockets).** A socket that is connected with TLS makes the server prove that it is the host, by the
certificates that are installed. As calls for options return 0 or -1. -/
theorem C108_socket (der : Bool) (host : Bytes) (r : Results) (s : Socket)
    (hr : (r.tags = 0 ∨ r.tags = -1) ∧ (r.verify = 0 ∨ r.verify = -1) ∧ (r.nocopy = 0 ∨ r.nocopy = -1) ∧
      (r.hostname = 0 ∨ r.hostname = -1))
    (h : openSocket false der host r = some s) : s.connected = true ∧ Verified host s ∧ s.nocopy = der := by
  obtain ⟨h1, h2, h3, h4⟩ := hr
  rcases h1 with h1 | h1
  · rcases h2 with h2 | h2
    · by_cases h5 : der = true ∧ r.nocopy ≠ 0
      · have := h3.resolve_left h5.2
        simp [openSocket, configureTls, h1, h2, h5.1, this] at h
      · rcases h4 with h4 | h4
        · simp only [openSocket, configureTls, h1, h2, h4, if_neg h5] at h
          simp at h
          obtain ⟨_, rfl⟩ := h
          exact ⟨rfl, ⟨rfl, rfl, rfl⟩, rfl⟩
        · simp only [openSocket, configureTls, h1, h2, h4, if_neg h5] at h
          simp at h
    · simp [openSocket, configureTls, h1, h2] at h
  · simp [openSocket, configureTls, h1] at h

/-- A modem with an old certificate, the deprecated one and one of the user; the calls all work. -/
example :
    let t : Texts := ⟨[65], [66, 67], [68]⟩
    let m : Modem := ⟨fun k => if k = 1002 then some [1] else if k = 1004 then some [2] else if k = 7 then some [3] else none, [0, 0], none, 0⟩
    let r := install modem t.literals m
    t.plain ∧ (r.1, r.2.writes) = (0, 4) ∧ (r.2.store 1001, r.2.store 1002, r.2.store 1003) = (some [65], some [66, 67], some [68]) ∧
      (r.2.store 1004, r.2.store 7) = (none, some [3]) := by
  refine ⟨by unfold Texts.plain; decide, by decide, by decide, by decide⟩

/-- The write of the second certificate fails with -5. -/
example :
    let t : Texts := ⟨[65], [66, 67], [68]⟩
    let r := install modem t.literals ⟨fun _ => none, [0, 0, 0, 0, -5], none, 0⟩
    (r.1, r.2.store 1001, r.2.store 1002, r.2.store 1003) = (1, some [65], none, none) := by decide

example : install table ⟨[1], [2], [3]⟩ ⟨[(5, [9])], 4⟩ = (0, ⟨[(5, [9]), (1001, [1]), (1002, [2]), (1003, [3])], 4⟩) := by
  decide

example : openSocket false true [104] ⟨0, 0, 0, 0, 0⟩ = some ⟨some [1001, 1002, 1003], some 2, true, some [104], true⟩ ∧
    openSocket false true [104] ⟨0, -1, 0, 0, 0⟩ = none := by decide

end Mflt.Props
