import Verif.Spec.WifiMetrics

/-! # C106: Wi-Fi metrics of the ports -/

namespace Mflt.Props

open WifiMetrics Spec.WifiMetrics
open NetMetrics (Sta)

namespace WifiM

variable {τ κ ε : Type} [DecidableEq τ] [DecidableEq κ]

theorem fold_ms (cs : List (Cmd τ κ)) : ∀ s : Store τ κ, (cs.foldl apply s).ms = s.ms := by
  induction cs with
  | nil => intro s; rfl
  | cons c cs ih => intro s; rw [List.foldl_cons, ih]; cases c <;> rfl

theorem fold_count (k : κ) (cs : List (Cmd τ κ)) : ∀ s : Store τ κ,
    (cs.foldl apply s).count k = s.count k + cs.countP fun c => decide (c = .add k) := by
  induction cs with
  | nil => intro s; rfl
  | cons c cs ih =>
    intro s
    rw [List.foldl_cons, ih, List.countP_cons]
    cases c with
    | start t => simp [apply]
    | stop t => simp [apply]
    | add l =>
      by_cases h : k = l
      · subst h; simp [apply]; omega
      · have h' : ¬ l = k := fun x => h x.symm
        simp [apply, h, h']

/-- If the flag of a timer follows `up`, its times are those for which `up` held. `ok`: what is assumed of the
events. -/
theorem run_times (handler : ε → List (Cmd τ κ)) (t : τ) (up : List ε → Bool) (ok : List ε → ε → Prop)
    (step : ∀ (s : Store τ κ) past e, ok past e → s.running t = up past →
      ((handler e).foldl apply s).running t = up (past ++ [e])) :
    ∀ (as : List (Act ε)) (s : Store τ κ) (past : List ε), s.running t = up past →
      (∀ pre e post, events as = pre ++ e :: post → ok (past ++ pre) e) →
      ((run handler s as).1.map fun r => r.ms t) = times up past (s.ms t) as := by
  intro as
  induction as with
  | nil => intro s past _ _; rfl
  | cons a as ih =>
    intro s past h hok
    cases a with
    | event e =>
      simp only [run, times]
      rw [ih _ (past ++ [e]) (step s past e (by simpa using hok [] e (events as) rfl) h), fold_ms]
      intro pre e' post he
      simpa using hok (e :: pre) e' post (by simp [events, he])
    | wait ms =>
      simp only [run, times]
      rw [ih { s with ms := fun t => s.ms t + if s.running t then ms else 0 } past h
        fun pre e post he => hok pre e post (by simpa [events] using he)]
      simp only [h]
      cases up past <;> rfl
    | beat =>
      simp only [run, times, List.map_cons]
      rw [ih { s with ms := fun _ => 0, count := fun _ => 0 } past h
        fun pre e post he => hok pre e post (by simpa [events] using he)]

theorem run_counts (handler : ε → List (Cmd τ κ)) (k : κ) (hit : List ε → ε → Bool) (ok : List ε → ε → Prop)
    (step : ∀ past e, ok past e →
      ((handler e).countP fun c => decide (c = .add k)) = if hit past e then 1 else 0) :
    ∀ (as : List (Act ε)) (s : Store τ κ) (past : List ε),
      (∀ pre e post, events as = pre ++ e :: post → ok (past ++ pre) e) →
      ((run handler s as).1.map fun r => r.count k) = counts hit past (s.count k) as := by
  intro as
  induction as with
  | nil => intro s past _; rfl
  | cons a as ih =>
    intro s past hok
    cases a with
    | event e =>
      simp only [run, counts]
      rw [ih _ (past ++ [e]), fold_count, step past e (by simpa using hok [] e (events as) rfl)]
      · cases hit past e <;> rfl
      · intro pre e' post he
        simpa using hok (e :: pre) e' post (by simp [events, he])
    | wait ms =>
      simp only [run, counts]
      rw [ih _ past fun pre e post he => hok pre e post (by simpa [events] using he)]
    | beat =>
      simp only [run, counts, List.map_cons]
      rw [ih _ past fun pre e post he => hok pre e post (by simpa [events] using he)]

end WifiM

open WifiM

/-- **C106 (PSoC 6, connected).** Every heartbeat says for how long the device was connected since the one before. -/
theorem C106_wcm_connected (as : List (Act Wcm)) :
    ((run wcmHandler .init as).1.map fun r => r.ms .connected) = times wcmUp [] 0 as := by
  refine run_times wcmHandler .connected wcmUp (fun _ _ => True) ?_ as .init [] rfl fun _ _ _ _ => trivial
  intro s past e _ h
  cases e <;> simp [wcmHandler, apply, wcmUp, List.filter_append] <;> simpa [wcmUp] using h

/-- **C106 (PSoC 6, counts).** Every heartbeat says how often a connection was made, failed to be made, was made
again and was lost since the one before. -/
theorem C106_wcm_counts (as : List (Act Wcm)) :
    let n := fun k => (run wcmHandler .init as).1.map fun r => r.count k
    n .connect = counts (fun _ e => e = .connected) [] 0 as ∧
    n .failure = counts (fun _ e => e = .connectFailed) [] 0 as ∧
    n .reconnect = counts (fun _ e => e = .reconnected) [] 0 as ∧
    n .disconnect = counts (fun _ e => e = .disconnected) [] 0 as := by
  refine ⟨?_, ?_, ?_, ?_⟩ <;>
    refine run_counts wcmHandler _ _ (fun _ _ => True) ?_ as .init [] (fun _ _ _ _ => trivial) <;>
    intro past e _ <;> cases e <;> decide

/-- **C106 (PSoC 6, connecting, partial).** Every heartbeat says for how long a connection was being made, if no
connection is lost or made again while one is being made. Missing: connections lost or made again meanwhile
(`C106_false_connecting`). -/
theorem C106_wcm_connecting_partial (as : List (Act Wcm))
    (h : ∀ pre e post, events as = pre ++ e :: post → wcmConnecting pre = true →
      e ≠ .disconnected ∧ e ≠ .reconnected) :
    ((run wcmHandler .init as).1.map fun r => r.ms .connecting) = times wcmConnecting [] 0 as := by
  refine run_times wcmHandler .connecting wcmConnecting
    (fun past e => wcmConnecting past = true → e ≠ .disconnected ∧ e ≠ .reconnected) ?_ as .init [] rfl
    (by simpa using h)
  intro s past e hok hs
  have hb : (wcmConnecting past = true → e ≠ .disconnected ∧ e ≠ .reconnected) := hok
  cases e with
  | disconnected =>
    have : wcmConnecting past = false := by
      cases hx : wcmConnecting past with
      | false => rfl
      | true => exact absurd rfl (hb hx).1
    rw [this] at hs
    simp [wcmHandler, apply, wcmConnecting, List.filter_append, hs]
  | reconnected =>
    have : wcmConnecting past = false := by
      cases hx : wcmConnecting past with
      | false => rfl
      | true => exact absurd rfl (hb hx).2
    rw [this] at hs
    simp [wcmHandler, apply, wcmConnecting, List.filter_append, hs]
  | other => simp [wcmHandler, wcmConnecting, List.filter_append]; simpa [wcmConnecting] using hs
  | _ => simp [wcmHandler, apply, wcmConnecting, List.filter_append]

/-- **C106 is false (connecting).** After a connection that was being made is lost, the time goes on. -/
theorem C106_false_connecting :
    let as : List (Act Wcm) := [.event .connecting, .wait 5, .event .disconnected, .wait 100, .beat]
    ((run wcmHandler .init as).1.map fun r => r.ms .connecting) = [105] ∧ times wcmConnecting [] 0 as = [5] := by
  decide

/-- **C106 (Zephyr, partial).** If connections end with status 0, every heartbeat says for how long the device was
connected and how many connections ended since the one before. Missing: connections that end with another status
(`C106_false_zephyr`). -/
theorem C106_zephyr_partial (as : List (Act Mgmt))
    (h : ∀ s, Mgmt.disconnectResult s ∈ events as → s = 0) :
    ((run mgmtHandler .init as).1.map fun r => r.ms ()) = times mgmtUp [] 0 as ∧
    ((run mgmtHandler .init as).1.map fun r => r.count ()) =
      counts (fun _ e => match e with | .disconnectResult _ => true | _ => false) [] 0 as := by
  constructor
  · refine run_times mgmtHandler () mgmtUp (fun _ e => ∀ s, e = .disconnectResult s → s = 0) ?_ as .init [] rfl ?_
    · intro s past e hok hs
      cases e with
      | connectResult x =>
        by_cases hx : x = 0
        · simp [mgmtHandler, hx, apply, mgmtUp, List.filter_append]
        · simp [mgmtHandler, hx, mgmtUp, List.filter_append]
          simpa [mgmtUp] using hs
      | disconnectResult x =>
        have hx := hok x rfl
        simp [mgmtHandler, hx, apply, mgmtUp, List.filter_append]
      | other =>
        simp [mgmtHandler, mgmtUp, List.filter_append]
        simpa [mgmtUp] using hs
    · intro pre e post he x hx
      exact h x (by rw [he, hx]; simp)
  · refine run_counts mgmtHandler () _ (fun _ e => ∀ s, e = .disconnectResult s → s = 0) ?_ as .init [] ?_
    · intro past e hok
      cases e with
      | connectResult x => by_cases hx : x = 0 <;> simp [mgmtHandler, hx]
      | disconnectResult x => have hx := hok x rfl; simp [mgmtHandler, hx]
      | other => rfl
    · intro pre e post he x hx
      exact h x (by rw [he, hx]; simp)

/-- **C106 is false (Zephyr).** An access point leaves: the reason (3) is taken for an error. The device goes on to
report that it is connected, and no connection as lost. -/
theorem C106_false_zephyr :
    let as : List (Act Mgmt) := [.event (.connectResult 0), .wait 5, .event (.disconnectResult 3), .wait 100, .beat]
    ((run mgmtHandler .init as).1.map fun r => (r.ms (), r.count ())) = [(105, 0)] ∧ times mgmtUp [] 0 as = [5] := by
  decide

/-- **C106 (ESP-IDF, connected).** Every heartbeat says for how long the station was connected since the one
before. -/
theorem C106_esp_connected (as : List (Act Sta)) :
    ((run espHandler .init as).1.map fun r => r.ms ()) = times espUp [] 0 as := by
  refine run_times espHandler () espUp (fun _ _ => True) ?_ as .init [] rfl fun _ _ _ _ => trivial
  intro s past e _ h
  cases e <;> simp [espHandler, apply, espUp, List.filter_append] <;> simpa [espUp] using h

/-- **C106 (ESP-IDF, lost connections, partial).** If no attempt to connect fails (the driver says
`disconnected` only when connected), every heartbeat says how many connections were lost since the one before.
Missing: attempts to connect that fail (`C106_false_esp`). -/
theorem C106_esp_lost_partial (as : List (Act Sta))
    (h : ∀ pre post, events as = pre ++ .disconnected :: post → espUp pre = true) :
    ((run espHandler .init as).1.map fun r => r.count ()) =
      counts (fun past e => espUp past && decide (e = .disconnected)) [] 0 as := by
  refine run_counts espHandler () _ (fun past e => e = .disconnected → espUp past = true) ?_ as .init [] ?_
  · intro past e hok
    cases e <;> simp [espHandler]
    exact hok rfl
  · intro pre e post he hx
    subst hx
    simpa using h pre post he

/-- **C106 is false (ESP-IDF).** A connection that could not be made is reported as one that was lost. -/
theorem C106_false_esp :
    let as : List (Act Sta) := [.event .start, .event .disconnected, .beat]
    ((run espHandler .init as).1.map fun r => r.count ()) = [1] ∧
    counts (fun past e => espUp past && decide (e = .disconnected)) [] 0 as = [0] := by
  decide

/-- **C106 (Particle).** Every heartbeat says for how long the device was connected to the cloud and for how long
it was connecting since the one before, and how often it connected and was disconnected. -/
theorem C106_particle (as : List (Act SysEvent)) :
    let r := (run cloudHandler .init as).1
    (r.map fun x => x.ms .connected) = times cloudUp [] 0 as ∧
    (r.map fun x => x.ms .connecting) = times cloudComing [] 0 as ∧
    (r.map fun x => x.count .connect) = counts (fun _ e => e = .cloud .connected) [] 0 as ∧
    (r.map fun x => x.count .disconnect) = counts (fun _ e => e = .cloud .disconnected) [] 0 as := by
  refine ⟨?_, ?_, ?_, ?_⟩
  · refine run_times cloudHandler .connected cloudUp (fun _ _ => True) ?_ as .init [] rfl fun _ _ _ _ => trivial
    intro s past e _ h
    rcases e with e | _
    · cases e <;> simp [cloudHandler, apply, cloudUp, List.filter_append] <;> simpa [cloudUp] using h
    · simp [cloudHandler, cloudUp, List.filter_append]; simpa [cloudUp] using h
  · refine run_times cloudHandler .connecting cloudComing (fun _ _ => True) ?_ as .init [] rfl fun _ _ _ _ => trivial
    intro s past e _ h
    rcases e with e | _
    · cases e <;> simp [cloudHandler, apply, cloudComing, List.filter_append] <;> simpa [cloudComing] using h
    · simp [cloudHandler, cloudComing, List.filter_append]; simpa [cloudComing] using h
  all_goals
    refine run_counts cloudHandler _ _ (fun _ _ => True) ?_ as .init [] (fun _ _ _ _ => trivial)
    intro past e _
    rcases e with e | _
    · cases e <;> decide
    · decide

example :
    let as : List (Act SysEvent) := [.event (.cloud .connecting), .wait 5, .event (.cloud .connected), .wait 7, .beat,
      .event .other, .wait 3, .event (.cloud .disconnecting), .wait 2, .event (.cloud .disconnected), .wait 100, .beat]
    ((run cloudHandler .init as).1.map fun r => (r.ms .connecting, r.ms .connected, r.count .connect,
      r.count .disconnect)) = [(5, 7, 1, 0), (0, 3, 0, 1)] := by decide

theorem WifiM.beats_rx (last : Nat) (ts : List (Option (Nat × Nat))) (s : Stats) (hs : s.rx = BitVec.ofNat 32 last)
    (hg : Growing last (ts.map (Option.map Prod.snd))) :
    ((wcmBeats s (ts.map (Option.map fun t => ⟨BitVec.ofNat 32 t.1, BitVec.ofNat 32 t.2⟩))).map fun b =>
      b.tx.map BitVec.toNat) = changes last (ts.map (Option.map Prod.snd)) ∧
    ∀ b ∈ wcmBeats s (ts.map (Option.map fun t => ⟨BitVec.ofNat 32 t.1, BitVec.ofNat 32 t.2⟩)), b.rx = none := by
  induction ts generalizing last s with
  | nil => exact ⟨rfl, by simp [wcmBeats]⟩
  | cons t ts ih =>
    cases t with
    | none =>
      simp only [List.map_cons, Option.map_none, wcmBeats, wcmCollect, changes, Growing] at hg ⊢
      obtain ⟨i1, i2⟩ := ih last s hs hg
      exact ⟨by rw [i1], by simpa using i2⟩
    | some t =>
      simp only [List.map_cons, Option.map_some, wcmBeats, wcmCollect, changes, Growing] at hg ⊢
      obtain ⟨g1, g2, g3⟩ := hg
      obtain ⟨i1, i2⟩ := ih t.2 ⟨BitVec.ofNat 32 t.1, BitVec.ofNat 32 t.2⟩ rfl g3
      refine ⟨?_, by simpa using i2⟩
      rw [i1]
      congr 2
      rw [hs, BitVec.toNat_sub, BitVec.toNat_ofNat, BitVec.toNat_ofNat]
      omega

/-- **C106 is false (PSoC 6, bytes).** Whatever the device sends and receives: the number of received bytes is never
reported, and the number reported as sent is that of the received bytes. `ts`: the true totals at each
heartbeat, `none` if the driver does not tell them. -/
theorem C106_false_bytes (ts : List (Option (Nat × Nat))) (hg : Growing 0 (ts.map (Option.map Prod.snd))) :
    let beats := wcmBeats ⟨0, 0⟩ (ts.map (Option.map fun t => ⟨BitVec.ofNat 32 t.1, BitVec.ofNat 32 t.2⟩))
    (beats.map fun b => b.tx.map BitVec.toNat) = changes 0 (ts.map (Option.map Prod.snd)) ∧
    ∀ b ∈ beats, b.rx = none :=
  WifiM.beats_rx 0 ts ⟨0, 0⟩ rfl hg

/-- Histories that meet the hypotheses, with heartbeats in the middle of a connection. -/
example :
    let as : List (Act Wcm) := [.event .connecting, .wait 5, .event .connected, .wait 7, .beat, .wait 3,
      .event .disconnected, .wait 100, .event .reconnected, .wait 1, .beat]
    ((run wcmHandler .init as).1.map fun r => (r.ms .connecting, r.ms .connected, r.count .connect,
      r.count .disconnect, r.count .reconnect)) = [(5, 7, 1, 0, 0), (0, 4, 0, 1, 1)] ∧
    events as = [.connecting, .connected, .disconnected, .reconnected] := by decide

example :
    let as : List (Act Mgmt) := [.event (.connectResult (-1)), .wait 9, .event (.connectResult 0), .wait 5, .beat,
      .wait 2, .event (.disconnectResult 0), .wait 100, .beat]
    ((run mgmtHandler .init as).1.map fun r => (r.ms (), r.count ())) = [(5, 0), (2, 1)] := by decide

example :
    wcmBeats ⟨0, 0⟩ [some ⟨100, 20⟩, none, some ⟨150, 30⟩] =
      [⟨some 20, none⟩, ⟨none, none⟩, ⟨some 10, none⟩] := by decide

end Mflt.Props
