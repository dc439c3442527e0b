import Verif.Spec.MbedtlsHttp

/-! # C86: clients on top of Mbed TLS -/

namespace Mflt.Props

open MbedtlsHttp
open Spec.MbedtlsHttp (Held held netOf SocketsGiven)

private theorem held_append (a b : List Act) (h : Held) :
    held (a ++ b) h = (held a h).bind fun h => held b h := by
  induction a generalizing h with
  | nil => rfl
  | cons x t ih =>
    cases x <;> simp only [List.cons_append, held] <;> (try split) <;> simp [ih]

/-- The five contexts. -/
private def all : List Cx := [.entropy, .cacert, .drbg, .conf, .ssl]

/-- What a client holds besides address lists. -/
private def Inv (c : Client) (lists : List Nat) : Prop :=
  ∃ ds, held c.acts {} = some ⟨if c.active then all else [], ds, lists⟩ ∧
    ds = (if c.active ∧ c.fd ≠ -1 then [c.fd.toNat] else []) ∧ (c.active = true → -1 ≤ c.fd)

private theorem teardown_inv {c : Client} {lists : List Nat} {ds : List Nat}
    (h : held c.acts {} = some ⟨all, ds, lists⟩)
    (hd : (c.fd = -1 ∧ ds = []) ∨ (0 ≤ c.fd ∧ ds = [c.fd.toNat])) :
    held (teardown c).acts {} = some ⟨[], [], lists⟩ ∧ (teardown c).active = c.active := by
  unfold teardown netFree
  rcases hd with ⟨h1, h2⟩ | ⟨h1, h2⟩
  · rw [if_pos h1]
    refine ⟨?_, rfl⟩
    simp only [Client.act]
    rw [held_append, h, h2]
    simp [held, all]
  · rw [if_neg (by omega)]
    refine ⟨?_, rfl⟩
    simp only [Client.act]
    rw [held_append, held_append, h, h2]
    simp [held, all, h1]

/-- The address lists that one `create` leaves behind. -/
private def leaked (net : Net) (n : Nat) : List Nat :=
  if net.seed = 0 ∧ net.certs = 0 ∧ net.list = true ∧ (net.dns ≠ 0 ∨ net.socket = false) then [n] else []

private theorem create_inv (net : Net) {c : Client} {lists : List Nat} (h : Inv c lists) :
    Inv (create net c).2 (if c.active then lists else leaked net c.next ++ lists) := by
  unfold create
  obtain ⟨ds, h1, h2, h3⟩ := h
  cases ha : c.active with
  | true => simp only [if_true]; exact ⟨ds, h1, h2, h3⟩
  | false =>
    simp only [Bool.false_eq_true, if_false]
    rw [ha] at h1 h2
    simp only [Bool.false_eq_true, if_false, false_and] at h1 h2
    subst h2
    have g : ∀ x, held (c.acts ++ [.made .ssl, .made .conf, .made .drbg, .made .cacert] ++ [.made .entropy]) {} =
        some x ↔ x = ⟨all, [], lists⟩ := by
      intro x
      rw [held_append, held_append, h1]
      simp [held, all, eq_comm]
    have g0 := (g _).2 rfl
    have fin : ∀ (c' : Client) l, held c'.acts {} = some ⟨[], [], l⟩ ∧ c'.active = c.active → Inv c' l := by
      intro c' l hc
      rw [ha] at hc
      exact ⟨[], by rw [hc.1, hc.2]; rfl, by rw [hc.2]; simp, by rw [hc.2]; simp⟩
    by_cases hs : net.seed ≠ 0
    · rw [if_pos hs]
      have : leaked net c.next = [] := by simp [leaked, hs]
      rw [this]
      exact fin _ _ (teardown_inv g0 (Or.inl ⟨rfl, rfl⟩))
    · rw [if_neg hs]
      by_cases hc : net.certs ≠ 0
      · rw [if_pos hc]
        have : leaked net c.next = [] := by simp [leaked, hc]
        rw [this]
        exact fin _ _ (teardown_inv g0 (Or.inl ⟨rfl, rfl⟩))
      · rw [if_neg hc]
        simp only [ne_eq, Decidable.not_not] at hs hc
        -- the connection
        have key : ∀ c0 : Client, c0.acts = c.acts ++ [.made .ssl, .made .conf, .made .drbg, .made .cacert] ++
            [.made .entropy] → c0.fd = -1 → c0.active = false → c0.next = c.next →
            ∃ ds, held (netConnect net c0).2.acts {} = some ⟨all, ds, leaked net c.next ++ lists⟩ ∧
              (((netConnect net c0).2.fd = -1 ∧ ds = []) ∨
                (0 ≤ (netConnect net c0).2.fd ∧ ds = [(netConnect net c0).2.fd.toNat])) ∧
              (netConnect net c0).2.active = false := by
          intro c0 k1 k2 k3 k4
          unfold netConnect
          simp only
          rw [← k1] at g0
          by_cases hd : net.dns ≠ 0 ∨ net.list = false
          · rw [if_pos hd]
            cases hl : net.list with
            | false =>
              have : leaked net c.next = [] := by simp [leaked, hl]
              rw [this]
              exact ⟨[], g0, Or.inl ⟨k2, rfl⟩, k3⟩
            | true =>
              have hd' : net.dns ≠ 0 := by rcases hd with hd | hd
                                           · exact hd
                                           · rw [hl] at hd; simp at hd
              have : leaked net c.next = [c.next] := by simp [leaked, hl, hs, hc, hd']
              rw [this]
              refine ⟨[], ?_, Or.inl ⟨k2, rfl⟩, k3⟩
              simp only [if_true, Client.act]
              rw [held_append, g0, k4]
              rfl
          · rw [if_neg hd]
            have hd1 : net.dns = 0 := by
              by_cases h : net.dns = 0
              · exact h
              · exact absurd (Or.inl h) hd
            have hd2 : net.list = true := by
              cases h : net.list with
              | true => rfl
              | false => exact absurd (Or.inr h) hd
            cases hk : net.socket with
            | false =>
              have : leaked net c.next = [c.next] := by simp [leaked, hd2, hs, hc, hk]
              rw [this]
              refine ⟨[], ?_, Or.inl ⟨rfl, rfl⟩, k3⟩
              simp only [if_true, Client.act]
              rw [held_append, g0, k4]
              rfl
            | true =>
              have : leaked net c.next = [] := by simp [leaked, hk, hd1]
              rw [this]
              refine ⟨[c0.next + 1], ?_, Or.inr ⟨?_, ?_⟩, k3⟩
              · simp only [Bool.true_eq_false, if_false, Client.act]
                rw [held_append, g0]
                simp [held]
              · simp only [Bool.true_eq_false, if_false, Client.act]; omega
              · simp only [Bool.true_eq_false, if_false, Client.act, Int.toNat_natCast]
        obtain ⟨ds, k1, k2, k3⟩ := key
          { (c.act [.made .ssl, .made .conf, .made .drbg, .made .cacert]) with
            fd := -1, acts := c.acts ++ [.made .ssl, .made .conf, .made .drbg, .made .cacert] ++ [.made .entropy] }
          rfl rfl ha rfl
        have t := teardown_inv k1 k2
        rw [k3, ← ha] at t
        by_cases hdef : net.defaults ≠ 0
        · rw [if_pos hdef]; exact fin _ _ t
        · rw [if_neg hdef]
          by_cases hh : net.hostname ≠ 0
          · rw [if_pos hh]; exact fin _ _ t
          · rw [if_neg hh]
            cases hsh : handshake net.shakes with
            | false => exact fin _ _ t
            | true =>
              refine ⟨ds, k1, ?_, fun _ => ?_⟩
              rotate_left
              · rcases k2 with ⟨e1, _⟩ | ⟨e1, _⟩
                · exact Int.le_of_eq e1.symm
                · exact Int.le_trans (by decide) e1
              simp only [if_true, true_and]
              rcases k2 with ⟨e1, e2⟩ | ⟨e1, e2⟩
              · rw [if_neg, e2]
                intro h
                exact h e1
              · rw [if_pos, e2]
                · rfl
                · intro h
                  have : (0 : Int) ≤ -1 := by rw [← h]; exact e1
                  omega

private theorem destroy_inv {c : Client} {lists : List Nat} (h : Inv c lists) :
    Inv (destroy c).2 lists ∧ (destroy c).2.active = false := by
  unfold destroy
  obtain ⟨ds, h1, h2, h3⟩ := h
  cases ha : c.active with
  | false => exact ⟨⟨ds, h1, h2, h3⟩, ha⟩
  | true =>
    rw [ha] at h1 h2
    simp only [true_and, if_true] at h1 h2
    have hf := h3 ha
    have t := teardown_inv h1 (by
      by_cases hm : c.fd = -1
      · exact Or.inl ⟨hm, by rw [h2, if_neg (by simpa using hm)]⟩
      · exact Or.inr ⟨by omega, by rw [h2, if_pos hm]⟩)
    refine ⟨⟨[], ?_, ?_, ?_⟩, rfl⟩
    · simpa using t.1
    · simp
    · simp

/-- The address lists that one call leaves behind. -/
private def leakedOp (c : Client) : Op → List Nat
  | .create n => if c.active then [] else leaked n c.next
  | .destroy _ => []
  | .post available n _ => if available = false ∨ c.active then [] else leaked n c.next

private theorem create_active (net : Net) (c : Client) : c.active = true → create net c = (false, c) := by
  intro h
  unfold create
  rw [if_pos h]

private theorem create_result (net : Net) {c : Client} {lists : List Nat} (h : Inv c lists) :
    (create net c).1 = true ↔ c.active = false ∧ (create net c).2.active = true := by
  cases ha : c.active with
  | true => rw [create_active net c ha]; simp
  | false =>
    have hfin : ∀ c' : Client, (teardown c').active = c'.active := by
      intro c'; unfold teardown netFree Client.act; split <;> rfl
    unfold create
    rw [ha]
    simp only [Bool.false_eq_true, if_false, true_and]
    have hn : ∀ c' : Client, (netConnect net c').2.active = c'.active := by
      intro c'
      unfold netConnect Client.act
      simp only
      split
      · split <;> rfl
      · split <;> rfl
    split
    · simp [hfin, Client.act, ha]
    · split
      · simp [hfin, Client.act, ha]
      · split
        · simp [hfin, hn, Client.act, ha]
        · split
          · simp [hfin, hn, Client.act, ha]
          · split
            · simp
            · simp [hfin, hn, Client.act, ha]

private theorem step_inv {c : Client} {lists : List Nat} (op : Op) (h : Inv c lists) :
    Inv (step c op) (leakedOp c op ++ lists) := by
  cases op with
  | create n =>
    have := create_inv n h
    simp only [step, leakedOp]
    cases ha : c.active with
    | true => rw [ha] at this; simpa using this
    | false => rw [ha] at this; simpa using this
  | destroy null =>
    simp only [step, leakedOp, httpDestroy, List.nil_append]
    cases null with
    | true => exact h
    | false => exact (destroy_inv h).1
  | post available n posted =>
    simp only [step, leakedOp, postChunk]
    cases available with
    | false => exact h
    | true =>
      simp only [Bool.not_true, Bool.false_eq_true, if_false, Bool.true_eq_false, false_or]
      have hi := create_inv n h
      have hl : (if c.active = true then lists else leaked n c.next ++ lists) =
          (if c.active = true then [] else leaked n c.next) ++ lists := by split <;> simp
      rw [hl] at hi
      cases hr : (create n c).1 with
      | false => exact hi
      | true => exact (destroy_inv hi).1

private theorem run_inv : ∀ (ops : List Op) (c : Client) (lists : List Nat), Inv c lists →
    ∃ l, Inv (run c ops) l ∧ ((∀ op ∈ ops, ∀ n, netOf op = some n → SocketsGiven n) → l = lists) := by
  intro ops
  induction ops with
  | nil => intro c lists h; exact ⟨lists, h, fun _ => rfl⟩
  | cons op ops ih =>
    intro c lists h
    obtain ⟨l, i1, i2⟩ := ih _ _ (step_inv op h)
    refine ⟨l, i1, fun hs => ?_⟩
    rw [i2 fun op h => hs op (List.mem_cons_of_mem _ h)]
    have hz : ∀ n, SocketsGiven n → ∀ k, leaked n k = [] := by
      intro n hn k
      unfold leaked
      rw [if_neg]
      rintro ⟨_, _, h1, h2⟩
      obtain ⟨h3, h4⟩ := hn h1
      rcases h2 with h2 | h2
      · exact h2 h3
      · rw [h4] at h2; simp at h2
    have : leakedOp c op = [] := by
      cases op with
      | create n =>
        simp only [leakedOp, hz n (hs _ (List.mem_cons_self ..) n rfl), ite_self]
      | destroy null => rfl
      | post a n p =>
        simp only [leakedOp, hz n (hs _ (List.mem_cons_self ..) n rfl), ite_self]
    rw [this, List.nil_append]

private theorem init_inv : Inv {} [] := ⟨[], rfl, rfl, by simp⟩

/-- **C86 (resources).** After every history of calls, whatever fails in it: no context of Mbed TLS was
initialised while it was in use, nothing was given back twice, a client that is not in use holds no
context and no descriptor, and one that is in use holds at most one descriptor. -/
theorem C86_resources (ops : List Op) :
    ∃ h, held (run {} ops).acts {} = some h ∧ h.descriptors.length ≤ 1 ∧
      ((run {} ops).active = false → h.contexts = [] ∧ h.descriptors = []) ∧
      ((run {} ops).active = true → ∀ c, c ∈ h.contexts) := by
  obtain ⟨l, ⟨ds, h1, h2, _⟩, _⟩ := run_inv ops {} [] init_inv
  refine ⟨_, h1, ?_, fun ha => ?_, fun ha => ?_⟩
  · rw [h2]
    simp only
    split <;> simp
  · rw [h2, ha]
    simp
  · rw [ha]
    intro c
    cases c <;> simp [all]

/-- **C86 (address lists).** They are given back as well when a lookup that gives one is followed by a
descriptor. Missing: when there is no descriptor the list is lost (`C86_false_list`). -/
theorem C86_lists_partial (ops : List Op)
    (hs : ∀ op ∈ ops, ∀ n, netOf op = some n → SocketsGiven n) :
    ∃ h, held (run {} ops).acts {} = some h ∧ h.lists = [] := by
  obtain ⟨l, ⟨ds, h1, h2, _⟩, h4⟩ := run_inv ops {} [] init_inv
  exact ⟨_, h1, h4 hs⟩

/-- **C86 (create).** After every history: a client is given out exactly when none is in use, seeding, the
certificates, the defaults and the name of the host are fine and the handshakes end well; it is in use
from then on. -/
theorem C86_create (ops : List Op) (net : Net) :
    ((create net (run {} ops)).1 = true ↔ (run {} ops).active = false ∧ net.seed = 0 ∧ net.certs = 0 ∧
      net.defaults = 0 ∧ net.hostname = 0 ∧
      ∃ n rest, net.shakes = List.replicate n .want ++ .done :: rest) ∧
    (create net (run {} ops)).2.active = ((run {} ops).active || (create net (run {} ops)).1) := by
  obtain ⟨l, hi, _⟩ := run_inv ops {} [] init_inv
  have hr := create_result net hi
  generalize run {} ops = c at hr hi
  have hsh : ∀ s, handshake s = true ↔ ∃ n rest, s = List.replicate n .want ++ .done :: rest := by
    intro s
    induction s with
    | nil => simp [handshake]
    | cons x t ih =>
      cases x with
      | done => exact iff_of_true rfl ⟨0, t, rfl⟩
      | fail =>
        refine iff_of_false (by simp [handshake]) ?_
        rintro ⟨n, rest, h⟩
        cases n <;> simp [List.replicate_succ] at h
      | want =>
        rw [handshake, ih]
        constructor
        · rintro ⟨n, rest, rfl⟩
          exact ⟨n + 1, rest, rfl⟩
        · rintro ⟨n, rest, h⟩
          cases n with
          | zero => simp at h
          | succ n => exact ⟨n, rest, by simpa [List.replicate_succ] using h⟩
  cases ha : c.active with
  | true => rw [create_active net c ha]; simp [ha]
  | false =>
    refine ⟨?_, ?_⟩
    · rw [← hsh]
      unfold create
      rw [ha]
      simp only [Bool.false_eq_true, if_false, true_and]
      by_cases h1 : net.seed = 0
      · by_cases h2 : net.certs = 0
        · by_cases h3 : net.defaults = 0
          · by_cases h4 : net.hostname = 0
            · cases h5 : handshake net.shakes <;> simp [h1, h2, h3, h4]
            · simp [h1, h2, h3, h4]
          · simp [h1, h2, h3]
        · simp [h1, h2]
      · simp [h1]
    · rw [Bool.false_or]
      cases hb : (create net c).1 with
      | true => exact (hr.1 hb).2
      | false =>
        cases hc : (create net c).2.active with
        | false => rfl
        | true => rw [hr.2 ⟨ha, hc⟩] at hb; simp at hb

/-- **C86 (one chunk).** `memfault_http_client_post_chunk` leaves the client as it was: in use only if it
was before, by someone else, and then it says that it failed. Without data it does nothing. -/
theorem C86_post (ops : List Op) (available : Bool) (net : Net) (posted : Int) :
    (step (run {} ops) (.post available net posted)).active = (run {} ops).active ∧
    (available = false → postChunk available net posted (run {} ops) = (1, run {} ops)) ∧
    (available = true → (run {} ops).active = true →
      postChunk available net posted (run {} ops) = (-1, run {} ops)) ∧
    (available = true → (postChunk available net posted (run {} ops)).1 =
      if (create net (run {} ops)).1 then posted else -1) := by
  obtain ⟨l, hi, _⟩ := run_inv ops {} [] init_inv
  have hr := create_result net hi
  generalize run {} ops = c at hr hi
  simp only [step]
  refine ⟨?_, ?_, ?_, ?_⟩
  · unfold postChunk
    cases available with
    | false => rfl
    | true =>
      simp only [Bool.not_true, Bool.false_eq_true, if_false]
      cases hb : (create net c).1 with
      | true =>
        rw [(hr.1 hb).1]
        exact (destroy_inv (create_inv net hi)).2
      | false =>
        simp only [Bool.not_false, if_true]
        cases ha : c.active with
        | true => rw [create_active net c ha]; exact ha
        | false =>
          cases hc : (create net c).2.active with
          | false => rfl
          | true => rw [hr.2 ⟨ha, hc⟩] at hb; simp at hb
  · rintro rfl; rfl
  · rintro rfl ha
    unfold postChunk
    rw [create_active net c ha]
    rfl
  · rintro rfl
    unfold postChunk
    simp only [Bool.not_true, Bool.false_eq_true, if_false]
    cases (create net c).1 <;> rfl

/-- **C86 (destroy).** It gives the client back if there is one, and does nothing otherwise. -/
theorem C86_destroy (ops : List Op) :
    (destroy (run {} ops)).1 = (if (run {} ops).active then 0 else -1) ∧
    (destroy (run {} ops)).2.active = false ∧
    httpDestroy true (run {} ops) = (-2, run {} ops) ∧
    ((run {} ops).active = false → (destroy (run {} ops)).2 = run {} ops) := by
  obtain ⟨l, hi, _⟩ := run_inv ops {} [] init_inv
  have hd := (destroy_inv hi).2
  generalize run {} ops = c at hd
  refine ⟨?_, hd, rfl, fun ha => ?_⟩
  · unfold destroy
    cases c.active <;> rfl
  · unfold destroy
    rw [ha]
    rfl

/-- A network on which all goes well. -/
private def exNet : Net := ⟨0, 0, 0, true, true, 0, 0, 0, 0, [.want, .want, .done]⟩

/-- A client is opened, used, refused to a second user, given back, and opened for one chunk. -/
example : SocketsGiven exNet ∧
    (create exNet {}).1 = true ∧
    (create exNet (run {} [.create exNet])).1 = false ∧
    held (run {} [.create exNet]).acts {} = some ⟨[.entropy, .cacert, .drbg, .conf, .ssl], [1], []⟩ ∧
    held (run {} [.create exNet, .create exNet, .destroy false, .destroy false, .post true exNet 0]).acts {} =
      some {} := by
  refine ⟨fun _ => ⟨rfl, rfl⟩, by decide, by decide, by decide, by decide⟩

/-- Every attempt without a descriptor loses an address list. -/
theorem C86_false_list (n : Nat) :
    ∃ h, held (run {} (List.replicate n (.create { exNet with socket := false, shakes := [.fail] }))).acts {} =
      some h ∧ h.lists.length = n := by
  have key : ∀ n (c : Client) (lists : List Nat), Inv c lists → c.active = false →
      ∃ l, Inv (run c (List.replicate n (.create { exNet with socket := false, shakes := [.fail] }))) l ∧
        l.length = n + lists.length := by
    intro n
    induction n with
    | zero => intro c lists h _; exact ⟨lists, h, by simp⟩
    | succ n ih =>
      intro c lists h ha
      have h1 := step_inv (.create { exNet with socket := false, shakes := [.fail] }) h
      have h2 : (step c (.create { exNet with socket := false, shakes := [.fail] })).active = false := by
        simp only [step]
        cases hc : (create { exNet with socket := false, shakes := [.fail] } c).2.active with
        | false => rfl
        | true =>
          have := (create_result _ h).2 ⟨ha, hc⟩
          unfold create at this
          rw [ha] at this
          simp [exNet, handshake] at this
      obtain ⟨l, i1, i2⟩ := ih _ _ h1 h2
      refine ⟨l, i1, ?_⟩
      rw [i2]
      simp only [leakedOp, ha, Bool.false_eq_true, if_false]
      simp [leaked, exNet]
      omega
  obtain ⟨l, ⟨ds, h1, _⟩, h2⟩ := key n {} [] init_inv rfl
  exact ⟨_, h1, by simpa using h2⟩

end Mflt.Props
