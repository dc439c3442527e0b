import Verif.Spec.ZephyrUpload

/-! # C83: connections of the Zephyr port -/

namespace Mflt.Props

open ZephyrUpload
open Spec.ZephyrUpload (held ConnFine)

private theorem held_append (a b : List Act) : ∀ h, held (a ++ b) h = (held a h).bind (held b) := by
  induction a with
  | nil => intro h; rfl
  | cons x a ih =>
    intro h
    rw [List.cons_append]
    cases x with
    | opened fd => exact ih _
    | looked i => exact ih _
    | closed fd =>
      simp only [held]
      split
      · exact ih _
      · rfl
    | freed i =>
      simp only [held]
      split
      · exact ih _
      · rfl

/-- What a context holds on top of `h`. -/
private def Holds (os : Os) (c : Ctx) (h : List Nat × List Nat) : Prop :=
  held os.acts ([], []) = some ((if 0 ≤ c.fd then [c.fd.toNat] else []) ++ h.1, c.res.toList ++ h.2) ∧
    (0 ≤ c.fd ↔ c.res.isSome)

private theorem held_act {os : Os} {h h' : List Nat × List Nat} {a : Act}
    (e : held os.acts ([], []) = some h) (e' : held [a] h = some h') :
    held (os.act a).acts ([], []) = some h' := by
  unfold Os.act
  rw [held_append, e]
  exact e'

private theorem close_nothing {os : Os} {c : Ctx} {h : List Nat × List Nat} (e : Holds os c h) :
    held (closeSocket c os).2.acts ([], []) = some h := by
  obtain ⟨e, f⟩ := e
  unfold closeSocket
  simp only
  obtain ⟨h1, h2⟩ := h
  by_cases hf : 0 ≤ c.fd
  · rw [if_pos hf] at e
    rw [if_pos (show c.fd ≥ 0 from hf)]
    have e1 : held (os.act (.closed c.fd)).acts ([], []) = some (h1, c.res.toList ++ h2) :=
      held_act e (by simp [held, hf])
    cases hr : c.res with
    | none => simpa [hr] using e1
    | some i =>
      refine held_act e1 ?_
      simp [hr, held]
  · rw [if_neg hf] at e
    rw [if_neg (show ¬ c.fd ≥ 0 from hf)]
    cases hr : c.res with
    | none => simpa [hr] using e
    | some i => rw [hr] at f; simp at f; omega

private theorem create_cases (net : Net) (os : Os) (hd : net.dns ≤ 0) {h : List Nat × List Nat}
    (e : held os.acts ([], []) = some h) :
    (Holds (createSocket net none os).2.2
      ⟨(createSocket net none os).1, (createSocket net none os).2.1⟩ h ∧
      0 ≤ (createSocket net none os).1) ∨
    ((createSocket net none os).1 < 0 ∧
      held (createSocket net none os).2.2.acts ([], []) =
        some (h.1, (createSocket net none os).2.1.toList ++ h.2)) := by
  unfold createSocket
  split
  · exact Or.inr ⟨by simp only; omega, by simpa using e⟩
  · have e1 : held (os.act (.looked os.next)).acts ([], []) = some (h.1, os.next :: h.2) :=
      held_act e rfl
    split
    · refine Or.inl ⟨⟨?_, ?_⟩, ?_⟩
      · have e2 : held ((os.act (.looked os.next)).act (.opened (os.next + 1))).acts ([], [])
            = some ((os.next + 1) :: h.1, os.next :: h.2) := held_act e1 rfl
        simp only
        rw [if_pos (by simp; omega)]
        exact e2
      · simp only [Option.isSome_some, iff_true]
        simp
        omega
      · simp
        omega
    · exact Or.inr ⟨by simp, e1⟩

/-- The address list alone is given back too. -/
private theorem close_info {os : Os} {res : Option Nat} {h : List Nat × List Nat} {fd : Int} (hf : fd < 0)
    (e : held os.acts ([], []) = some (h.1, res.toList ++ h.2)) :
    held (closeSocket ⟨fd, res⟩ os).2.acts ([], []) = some h := by
  unfold closeSocket
  simp only
  rw [if_neg (by omega)]
  cases res with
  | none => simpa using e
  | some i => exact held_act e (by simp [held])

private theorem open_cases (tls : Bool) (net : Net) (os : Os) (hd : net.dns ≤ 0)
    {h : List Nat × List Nat} (e : held os.acts ([], []) = some h) :
    ∃ fd res os', openSocket tls net none os = some (fd, res, os') ∧
      ((Holds os' ⟨fd, res⟩ h ∧ 0 ≤ fd) ∨
        (fd = -1 ∧ held os'.acts ([], []) = some (h.1, res.toList ++ h.2))) := by
  unfold openSocket
  simp only
  rcases create_cases net os hd e with ⟨⟨c1, c2⟩, c3⟩ | ⟨c1, c2⟩
  · rw [if_neg (by omega)]
    rw [if_pos c3] at c1
    have hclose : held ((createSocket net none os).2.2.act (.closed (createSocket net none os).1)).acts
        ([], []) = some (h.1, (createSocket net none os).2.1.toList ++ h.2) :=
      held_act c1 (by simp [held, c3])
    split
    · exact ⟨_, _, _, rfl, Or.inr ⟨rfl, hclose⟩⟩
    · have hres := c2.1 c3
      unfold connectSocket
      cases hr : (createSocket net none os).2.1 with
      | none => simp only at hres; rw [hr] at hres; exact absurd hres (by simp)
      | some i =>
        rw [hr] at hclose c1
        simp only
        split
        · exact ⟨_, _, _, rfl, Or.inr ⟨rfl, hclose⟩⟩
        · refine ⟨_, _, _, rfl, Or.inl ⟨⟨?_, ?_⟩, c3⟩⟩
          · simp only
            rw [if_pos c3]
            exact c1
          · simp [c3]
  · rw [if_pos c1]
    exact ⟨_, _, _, rfl, Or.inr ⟨rfl, c2⟩⟩

private theorem holds_empty {os : Os} {h : List Nat × List Nat} (e : held os.acts ([], []) = some h) :
    Holds os ⟨-1, none⟩ h := by
  refine ⟨?_, by simp⟩
  simpa using e

private theorem httpOpen_holds (tls : Bool) (net : Net) {c : Ctx} {os : Os} (hd : net.dns ≤ 0)
    {h : List Nat × List Nat} (e : Holds os c h) :
    ∃ rv c' os', httpOpen tls net c os = some (rv, c', os') ∧ Holds os' c' h ∧
      (rv = 0 ↔ 0 ≤ c'.fd) := by
  unfold httpOpen
  have e0 := close_nothing e
  have hr : (closeSocket c os).1.res = none := rfl
  simp only
  rw [hr]
  obtain ⟨fd, res, os', o1, o2⟩ := open_cases tls net (closeSocket c os).2 hd e0
  rw [o1]
  simp only
  rcases o2 with ⟨o2, o3⟩ | ⟨o2, o3⟩
  · rw [if_neg (by omega)]
    exact ⟨_, _, _, rfl, o2, by simp [o3]⟩
  · rw [if_pos (by omega)]
    exact ⟨_, _, _, rfl, holds_empty (close_info (by omega) o3), by simp [closeSocket]⟩

private theorem step_holds (tls : Bool) {c : Ctx} {os : Os} (op : Op) (hf : ConnFine op)
    (e : Holds os c ([], [])) :
    (∃ c' os', step tls (c, os) op = some (c', os') ∧ Holds os' c' ([], [])) ∨
      (step tls (c, os) op = none ∧ c.fd < 0 ∧ ∃ n, op = .connect n) := by
  cases op with
  | «open» n =>
    obtain ⟨rv, c', os', o1, o2, _⟩ := httpOpen_holds tls n hf e
    refine Or.inl ⟨c', os', ?_, o2⟩
    simp [step, o1]
  | create n =>
    refine Or.inl ⟨_, _, rfl, ?_⟩
    simp only [httpCreate]
    have hr : (closeSocket c os).1.res = none := rfl
    rw [hr]
    rcases create_cases n (closeSocket c os).2 hf (close_nothing e) with ⟨c1, c2⟩ | ⟨c1, c2⟩
    · rw [if_neg (by omega)]
      exact c1
    · rw [if_pos c1]
      exact holds_empty (close_info c1 c2)
  | configure n =>
    refine Or.inl ⟨_, _, rfl, ?_⟩
    simp only [httpConfigure]
    split
    · exact holds_empty (close_nothing e)
    · exact e
  | connect n =>
    simp only [ConnFine] at hf
    simp only [step, httpConnect, connectSocket]
    cases hr : c.res with
    | none =>
      right
      refine ⟨rfl, ?_, n, rfl⟩
      have := e.2
      rw [hr] at this
      simp at this
      omega
    | some i =>
      left
      simp only
      rw [if_neg (by omega), if_neg (by omega)]
      exact ⟨_, _, rfl, e⟩
  | close => exact Or.inl ⟨_, _, rfl, holds_empty (close_nothing e)⟩
  | post a n u =>
    left
    simp only [ConnFine] at hf
    simp only [step, postData]
    split
    · exact ⟨_, _, rfl, e⟩
    · rename_i ha
      have hu : u = true := hf.2 (by simpa using ha)
      subst hu
      obtain ⟨rv, c', os', o1, o2, o3⟩ := httpOpen_holds tls n hf.1 (holds_empty e.1)
      rw [o1]
      simp only [if_true, Option.map_some]
      by_cases hz : rv = 0
      · subst hz
        simp only [if_true]
        exact ⟨_, _, rfl, close_nothing o2, e.2⟩
      · rw [if_neg hz, if_neg hz]
        refine ⟨_, _, rfl, ?_, e.2⟩
        have hneg : ¬ 0 ≤ c'.fd := fun h => hz (o3.2 h)
        have hnone : c'.res = none := by
          cases hr : c'.res with
          | none => rfl
          | some i => exact absurd (o2.2.2 (by simp [hr])) hneg
        have := o2.1
        rw [if_neg hneg, hnone] at this
        exact this
  | ota n =>
    left
    simp only [step, ota]
    obtain ⟨fd, res, os', o1, o2⟩ := open_cases tls n os hf e.1
    rw [o1]
    simp only [Option.map_some]
    refine ⟨_, _, rfl, ?_, e.2⟩
    rcases o2 with ⟨o2, o3⟩ | ⟨o2, o3⟩
    · exact close_nothing o2
    · exact close_info (by omega) o3

private theorem run_holds (tls : Bool) (ops : List Op) : ∀ (c : Ctx) (os : Os),
    Holds os c ([], []) → (∀ op ∈ ops, ConnFine op) → ∀ s, run tls (c, os) ops = some s →
    Holds s.2 s.1 ([], []) := by
  induction ops with
  | nil =>
    intro c os e _ s h
    simp only [run, Option.some.injEq] at h
    subst h
    exact e
  | cons op ops ih =>
    intro c os e hf s h
    rw [run] at h
    rcases step_holds tls op (hf op (List.mem_cons_self ..)) e with ⟨c', os', h1, h2⟩ | ⟨h1, _⟩
    · rw [h1] at h
      exact ih c' os' h2 (fun o ho => hf o (List.mem_cons_of_mem _ ho)) s h
    · rw [h1] at h
      exact absurd h (by simp)

/-- **C83.** For every history of calls, whatever the network does: nothing is given back twice, and
what is held is the descriptor and the address list of the context, and nothing else. Missing: failures
of `connect_socket` (`C83_false_connect`) and of an upload (`C83_false_post`), lookups that fail with a
positive number (`C83_false_lookup`). -/
theorem C83_partial (tls : Bool) (ops : List Op) (hf : ∀ op ∈ ops, ConnFine op) (c : Ctx) (os : Os)
    (h : run tls (⟨-1, none⟩, ⟨0, []⟩) ops = some (c, os)) :
    held os.acts ([], []) = some (if 0 ≤ c.fd then [c.fd.toNat] else [], c.res.toList) := by
  have := (run_holds tls ops _ _ (holds_empty rfl) hf _ h).1
  simpa using this

/-- **C83 (close).** After closing nothing is held. -/
theorem C83_closed (tls : Bool) (ops : List Op) (hf : ∀ op ∈ ops, ConnFine op) (c : Ctx) (os : Os)
    (h : run tls (⟨-1, none⟩, ⟨0, []⟩) (ops ++ [.close]) = some (c, os)) :
    held os.acts ([], []) = some ([], []) ∧ isConnected c = false := by
  have happ : ∀ (ops : List Op) s, run tls s (ops ++ [.close]) =
      (run tls s ops).map fun s => closeSocket s.1 s.2 := by
    intro ops
    induction ops with
    | nil => intro s; rfl
    | cons op ops ih =>
      intro s
      rw [List.cons_append, run, run]
      cases step tls s op with
      | none => rfl
      | some s' => exact ih s'
  rw [happ] at h
  cases hr : run tls (⟨-1, none⟩, ⟨0, []⟩) ops with
  | none => rw [hr] at h; exact absurd h (by simp)
  | some s =>
    rw [hr] at h
    simp only [Option.map_some, Option.some.injEq] at h
    have hh := close_nothing (run_holds tls ops _ _ (holds_empty rfl) hf s hr)
    rw [h] at hh
    refine ⟨hh, ?_⟩
    have : (closeSocket s.1 s.2).1 = c := by rw [h]
    rw [← this]
    rfl

/-- **C83 (connected).** After any history, a connection is reported exactly while a descriptor is held. -/
theorem C83_connected (tls : Bool) (ops : List Op) (hf : ∀ op ∈ ops, ConnFine op) (c : Ctx) (os : Os)
    (h : run tls (⟨-1, none⟩, ⟨0, []⟩) ops = some (c, os)) :
    isConnected c = true ↔ ∃ fd infos, held os.acts ([], []) = some ([fd], infos) := by
  rw [C83_partial tls ops hf c os h]
  simp only [isConnected, decide_eq_true_eq, ge_iff_le]
  by_cases hc : 0 ≤ c.fd
  · simp [hc]
  · simp [hc]

/-- **C83 (no crash).** After any history, a call is undefined only if it is `connect_socket` on a
context without a connection. -/
theorem C83_defined (tls : Bool) (ops : List Op) (hf : ∀ op ∈ ops, ConnFine op) (s : Ctx × Os)
    (h : run tls (⟨-1, none⟩, ⟨0, []⟩) ops = some s) (op : Op) (ho : ConnFine op)
    (hn : step tls s op = none) : isConnected s.1 = false ∧ ∃ n, op = .connect n := by
  have e := run_holds tls ops _ _ (holds_empty rfl) hf s h
  rcases step_holds tls op ho e with ⟨_, _, h1, _⟩ | ⟨_, h2, h3⟩
  · rw [show step tls s op = step tls (s.1, s.2) op from rfl] at hn
    rw [h1] at hn
    exact absurd hn (by simp)
  · refine ⟨?_, h3⟩
    simp only [isConnected, decide_eq_false_iff_not]
    omega

/-- **C83 (results).** On any context, whatever it holds: `open_socket` and `create_socket` leave a
connection exactly if they return 0 (with lookups that do not fail with a positive number), and they do if
the network lets them. `configure_socket` and `connect_socket` leave the context as it is if they do not
fail, and without a connection if they do. -/
theorem C83_results (tls : Bool) (n : Net) (hd : n.dns ≤ 0) (c : Ctx) (os : Os) :
    (∀ rv c' os', httpOpen tls n c os = some (rv, c', os') →
      (rv = 0 ↔ isConnected c' = true) ∧
      (rv = 0 ↔ n.dns = 0 ∧ n.socket = true ∧ (tls = true ∨ 0 ≤ n.configure) ∧ 0 ≤ n.connect)) ∧
    (∀ rv c' os', httpCreate n c os = (rv, c', os') →
      (rv = 0 ↔ isConnected c' = true) ∧ (rv = 0 ↔ n.dns = 0 ∧ n.socket = true)) ∧
    (∀ rv c' os', httpConfigure tls n c os = (rv, c', os') →
      (0 ≤ rv ↔ tls = true ∨ 0 ≤ n.configure) ∧ (0 ≤ rv → c' = c ∧ os' = os) ∧
      (rv < 0 → isConnected c' = false)) ∧
    (∀ rv c' os', httpConnect n c os = some (rv, c', os') →
      (0 ≤ rv ↔ 0 ≤ n.connect) ∧ (0 ≤ rv → c' = c ∧ os' = os) ∧ (rv < 0 → isConnected c' = false)) := by
  have hdn : (n.dns = 0 ∧ ¬ n.dns < 0) ∨ (n.dns ≠ 0 ∧ n.dns < 0) := by omega
  refine ⟨?_, ?_, ?_, ?_⟩
  · intro rv c' os' h
    simp only [httpOpen, openSocket, createSocket, closeSocket, connectSocket, configureSocket, Os.act] at h
    rcases tls with _ | _ <;> rcases hs : n.socket with _ | _ <;> rcases hdn with ⟨h0, hx⟩ | ⟨h0, hx⟩ <;>
      by_cases h1 : n.configure < 0 <;> by_cases h2 : n.connect < 0 <;>
      simp [hs, h0, hx, h1, h2] at h ⊢
    all_goals
      obtain ⟨rfl, rfl, rfl⟩ := h
      simp only [isConnected]
      refine ⟨?_, ?_⟩ <;> simp <;> omega
  · intro rv c' os' h
    simp only [httpCreate, createSocket, closeSocket, Os.act] at h
    rcases hs : n.socket with _ | _ <;> rcases hdn with ⟨h0, hx⟩ | ⟨h0, hx⟩ <;> simp [hs, h0, hx] at h ⊢
    all_goals
      obtain ⟨rfl, rfl, rfl⟩ := h
      simp only [isConnected]
      refine ⟨?_, ?_⟩ <;> simp <;> omega
  · intro rv c' os' h
    simp only [httpConfigure, configureSocket] at h
    rcases tls with _ | _ <;> by_cases h1 : n.configure < 0 <;> simp [h1] at h ⊢
    all_goals
      obtain ⟨rfl, rfl, rfl⟩ := h
      simp [closeSocket, isConnected]
      try omega
  · intro rv c' os' h
    simp only [httpConnect, connectSocket] at h
    rcases hr : c.res with _ | _ <;> by_cases h1 : n.connect < 0 <;> simp [hr, h1] at h ⊢
    · obtain ⟨rfl, rfl, rfl⟩ := h
      exact ⟨Iff.rfl, fun h => by omega, fun _ => rfl⟩
    · obtain ⟨rfl, rfl, rfl⟩ := h
      exact ⟨Iff.rfl, fun _ => ⟨rfl, rfl⟩, fun h => by omega⟩

/-- Non-vacuity: a lookup that fails, a connection step by step, one reopened with a failure, an upload
and an update in between. -/
example : (∀ op ∈ ([.open ⟨-2, true, 0, 0⟩, .create ⟨0, true, 0, 0⟩, .configure ⟨0, true, 0, 0⟩,
      .connect ⟨0, true, 0, 0⟩, .post true ⟨0, true, 0, 0⟩ true, .ota ⟨0, true, 0, -1⟩,
      .open ⟨0, true, -1, 0⟩] : List Op), ConnFine op) ∧
    (run false (⟨-1, none⟩, ⟨0, []⟩) [.open ⟨-2, true, 0, 0⟩, .create ⟨0, true, 0, 0⟩,
      .configure ⟨0, true, 0, 0⟩, .connect ⟨0, true, 0, 0⟩, .post true ⟨0, true, 0, 0⟩ true,
      .ota ⟨0, true, 0, -1⟩, .open ⟨0, true, -1, 0⟩]).map (fun s => (s.1, s.2.acts.length))
      = some (⟨-1, none⟩, 16) := by
  constructor
  · intro op h
    simp only [List.mem_cons, List.not_mem_nil, or_false] at h
    rcases h with rfl | rfl | rfl | rfl | rfl | rfl | rfl <;> simp [ConnFine]
  · decide

/-- A connection that is refused: `connect_socket` closes the descriptor twice. -/
theorem C83_false_connect (tls : Bool) (n : Net) (h : n.connect < 0) :
    ∃ c os, run tls (⟨-1, none⟩, ⟨0, []⟩) [.create ⟨0, true, 0, 0⟩, .connect n] = some (c, os) ∧
      held os.acts ([], []) = none ∧ os.acts.count (.closed 1) = 2 := by
  refine ⟨⟨-1, none⟩, ⟨2, [.looked 0, .opened 1, .closed 1, .closed 1, .freed 0]⟩, ?_, by decide, by decide⟩
  simp [run, step, httpCreate, createSocket, closeSocket, httpConnect, connectSocket, h, Os.act]

/-- Every upload that fails on an open connection leaves its descriptor and its address list behind:
after `k` of them, `k` descriptors are open that no one can close. -/
theorem C83_false_post (tls : Bool) (k : Nat) :
    ∃ os fds infos, run tls (⟨-1, none⟩, ⟨0, []⟩)
        (List.replicate k (.post true ⟨0, true, 0, 0⟩ false)) = some (⟨-1, none⟩, os) ∧
      held os.acts ([], []) = some (fds, infos) ∧ fds.length = k ∧ infos.length = k := by
  suffices ∀ (k : Nat) (os : Os) (h : List Nat × List Nat), held os.acts ([], []) = some h →
      ∃ os' fds infos, run tls (⟨-1, none⟩, os)
        (List.replicate k (.post true ⟨0, true, 0, 0⟩ false)) = some (⟨-1, none⟩, os') ∧
      held os'.acts ([], []) = some (fds, infos) ∧ fds.length = h.1.length + k ∧
      infos.length = h.2.length + k by
    obtain ⟨os, fds, infos, a, b, c, d⟩ := this k ⟨0, []⟩ ([], []) rfl
    exact ⟨os, fds, infos, a, b, by simpa using c, by simpa using d⟩
  intro k
  induction k with
  | zero => intro os h e; exact ⟨os, h.1, h.2, rfl, e, rfl, rfl⟩
  | succ k ih =>
    intro os h e
    have e1 : held (os.act (.looked os.next)).acts ([], []) = some (h.1, os.next :: h.2) := held_act e rfl
    have e2 : held ((os.act (.looked os.next)).act (.opened (os.next + 1))).acts ([], [])
            = some ((os.next + 1) :: h.1, os.next :: h.2) := held_act e1 rfl
    obtain ⟨os', fds, infos, a, b, c, d⟩ := ih
      ⟨os.next + 2, ((os.act (.looked os.next)).act (.opened (os.next + 1))).acts⟩ _ e2
    refine ⟨os', fds, infos, ?_, b, by simp only [List.length_cons] at c; omega,
      by simp only [List.length_cons] at d; omega⟩
    rw [List.replicate_succ, run]
    have hs : step tls (⟨-1, none⟩, os) (.post true ⟨0, true, 0, 0⟩ false)
        = some (⟨-1, none⟩, ⟨os.next + 2,
            ((os.act (.looked os.next)).act (.opened (os.next + 1))).acts⟩) := by
      have hcfg : configureSocket tls ⟨0, true, 0, 0⟩ = 0 := by
        unfold configureSocket; split <;> rfl
      have hnn : ¬ ((os.next : Int) + 1 < 0) := by omega
      simp [step, postData, httpOpen, closeSocket, openSocket, createSocket, connectSocket, hcfg, hnn,
        Os.act]
    rw [hs]
    exact a

/-- A lookup that fails with a positive number is taken for a descriptor: `create_socket` succeeds and
closing the context closes a descriptor of someone else. -/
theorem C83_false_lookup (tls : Bool) (dns : Int) (h : 0 < dns) :
    ∃ c os, run tls (⟨-1, none⟩, ⟨0, []⟩) [.create ⟨dns, true, 0, 0⟩] = some (c, os) ∧
      isConnected c = true ∧ os.acts = [] ∧ (closeSocket c os).2.acts = [.closed dns] := by
  refine ⟨⟨dns, none⟩, ⟨0, []⟩, ?_, ?_, rfl, ?_⟩
  · have h0 : dns ≠ 0 := by omega
    have h1 : ¬ dns < 0 := by omega
    simp [run, step, httpCreate, createSocket, closeSocket, h0, h1]
  · simp only [isConnected, decide_eq_true_eq]
    omega
  · have : dns ≥ 0 := by omega
    simp [closeSocket, this, Os.act]

end Mflt.Props
