import Verif.Lemmas.MetricsDebug
import Verif.Props.Metrics

/-! # C110: debug output of metrics -/

namespace Mflt.Props

open Metrics (exec keyOf)
open MetricsDebug (Decl Request)
open Spec.Metrics (Op Out eventMetric position)
open Spec.MetricsDebug

/-- Definitions for examples: a session `ota`, all kinds of metrics. -/
def exDecls : List Decl :=
  [.key (text "up") .timer, .keyRange (text "temp") .signed (-2147483648) 2147483647, .session (text "ota"),
    .stringIn (text "url") 8 (text "ota"), .keyScale (text "soc") .unsigned 100,
    .keyIn (text "rx") .timer (text "ota"), .string (text "fw") 5]

theorem exDecls_valid : Valid exDecls := by
  refine ⟨by decide, by decide, by decide, by decide, ?_, by decide⟩
  intro d hd n t lo hi s k h
  simp only [exDecls, List.mem_cons, List.not_mem_nil, or_false] at hd
  rcases hd with rfl | rfl | rfl | rfl | rfl | rfl | rfl <;> simp at h
  · rw [← h.2]; decide
  · rw [← h.2.1]; decide
  · rw [← h.2.1]; decide
  · rw [← h.2.1]; decide

namespace MDebug

theorem update {dev : SerializerHelper.Device} (hd : Spec.Event.DeviceOk dev) {tab : Metrics.Table}
    (ht : Metrics.TableOk tab) {st : Metrics.State} (h : Metrics.Good tab st) (times : Nat → Nat) :
    ∃ st', Metrics.timersUpdate tab st times = some st' ∧ Metrics.Good tab st' := by
  obtain ⟨o, st', a, b⟩ := Metrics.exec_good hd ht h (op := .updateTimers times) trivial
  simp only [exec] at a
  obtain ⟨x, h1, h2⟩ := Option.map_eq_some_iff.1 a
  simp only [Prod.mk.injEq] at h2
  exact ⟨st', by rw [h1, h2.2], b⟩

end MDebug

/-- **C110 (unknown names).** There is no identifier for a name that was not defined. -/
theorem C110_unknown {ds : List Decl} {session name : Bytes}
    (h : ∀ m ∈ metrics ds, m.session ++ text "__" ++ m.name ≠ session ++ text "__" ++ name) :
    MetricsDebug.metricId ds session name = none := by
  unfold MetricsDebug.metricId
  rw [if_neg]
  rw [MetricsDebug.ids_eq, List.mem_map]
  rintro ⟨m, h1, h2⟩
  exact h m h1 h2

/-- **C110 (a metric is what its name says).** In whatever order and with whatever macros metrics are
defined: the identifier made from the name of a session and of a metric is the position of that metric
among all metrics, and the table has the type, the session and, of a text, the length that were defined. -/
theorem C110_ids {ds : List Decl} (hv : Valid ds) {k : Nat} {m : Metric}
    (h : (metrics ds)[k]? = some m) :
    MetricsDebug.metricId ds m.session m.name = some k ∧
      ∃ kv, (MetricsDebug.table ds)[k]? = some kv ∧ kv.type = m.type ∧
        (sessions ds)[kv.session]? = some m.session ∧ (m.type = .string → kv.range = m.maxLen) := by
  constructor
  · have hi : (MetricsDebug.ids ds)[k]? = some (m.session ++ text "__" ++ m.name) := by
      rw [MetricsDebug.ids_eq, List.getElem?_map, h]; rfl
    have hj : MetricsDebug.join m.session m.name = m.session ++ text "__" ++ m.name := rfl
    unfold MetricsDebug.metricId
    rw [hj, if_pos (List.mem_of_getElem? hi),
      MetricsDebug.idxOf_get (by rw [MetricsDebug.ids_eq]; exact hv.metricsDiffer) hi]
  · obtain ⟨kv, a, b, c, d⟩ := MetricsDebug.table_get hv h
    refine ⟨kv, a, b, ?_, d⟩
    rw [c]
    exact MetricsDebug.get_idxOf (hv.declared m (List.mem_of_getElem? h))

example : (metrics exDecls)[6]?.map (fun m => (m.session, m.name)) = some (text "ota", text "rx") := by
  decide

/-- **C110 (the debug output shows the metrics).** In every state that calls can reach, at any times and
for one session or for all but the heartbeat: a debug print logs one line for each metric of what was
asked for, in the order of the definitions, with its name and the value that a report of its session at
this moment has. -/
theorem C110_lines {dev : SerializerHelper.Device} (hd : Spec.Event.DeviceOk dev) {ds : List Decl}
    (hv : Valid ds) {st : Metrics.State} (hr : Reached dev (MetricsDebug.table ds) st)
    (times : Nat → Nat) (req : Request) (time : Option Nat) :
    ∃ (lines : List Bytes) (st' : Metrics.State), MetricsDebug.debugPrint ds st times req =
        some (text "Metrics keys/values:" :: lines, st') ∧
      lines.length = (printed ds req).length ∧
      ∀ (j k : Nat), (printed ds req)[j]? = some k → ∃ m i e item t, (metrics ds)[k]? = some m ∧
        (sessions ds)[i]? = some m.session ∧
        exec dev (MetricsDebug.table ds) st' (.report i time) = some (.event (some e), st') ∧
        eventMetric e (position ((MetricsDebug.table ds).map keyOf) i k) = some item ∧
        Shows item t ∧ lines[j]? = some (text "  " ++ m.label ++ text ": " ++ t) := by
  have ht := MetricsDebug.table_ok hv
  obtain ⟨st', hu, s, hrel⟩ := MDebug.update hd ht (reached_good hd ht hr) times
  obtain ⟨t, h1, h2⟩ := MetricsDebug.debugPrint_rel hv hu hrel req
  refine ⟨_, st', h2, by simp, fun j k hj => ?_⟩
  have hk : k < (metrics ds).length := by
    have := List.mem_of_getElem? hj
    unfold printed at this
    exact List.mem_range.1 (List.mem_filter.1 this).1
  have hm := List.getElem?_eq_getElem hk
  obtain ⟨kv, a, -, c, -⟩ := MetricsDebug.table_get hv hm
  have hses := hv.declared _ (List.getElem_mem hk)
  have hlt : (sessions ds).idxOf (metrics ds)[k].session < 4294967296 := by
    have h1 := List.idxOf_lt_length_iff.2 hses
    have h2 : (sessions ds).length ≤ (metrics ds).length + 1 := by
      clear * -
      induction ds with
      | nil => simp [sessions, metrics]
      | cons d ds ih =>
        have : (metrics (d :: ds)).length = (metricsOf d).length + (metrics ds).length := by
          simp [metrics]
        rw [this]
        cases d <;> simp [sessions, metricsOf] <;> omega
    have := hv.many
    omega
  have hrep : Spec.Metrics.step dev ((MetricsDebug.table ds).map keyOf) s
      (.report ((sessions ds).idxOf (metrics ds)[k].session) time) =
      some (.event (some (Spec.Metrics.sessionEvent dev time ((MetricsDebug.table ds).map keyOf) s
        ((sessions ds).idxOf (metrics ds)[k].session))), s) := by
    simp only [Spec.Metrics.step]
    rw [if_neg (by omega)]
  obtain ⟨st2, e1, -⟩ := Metrics.step_rel hd ht hrel hrep
  have hst : st2 = st' := by
    simp only [exec] at e1
    obtain ⟨x, -, h3⟩ := Option.map_eq_some_iff.1 e1
    simp only [Prod.mk.injEq] at h3
    exact h3.2.symm
  rw [hst] at e1
  have hkt : k < (MetricsDebug.table ds).length := by rw [MetricsDebug.table_length]; exact hk
  refine ⟨_, _, _, (s k).item, t k, hm, MetricsDebug.get_idxOf hses, e1, ?_, h1 k hk, ?_⟩
  · exact Metrics.eventMetric_get dev time s (key := keyOf kv) (by rw [List.getElem?_map, a]; rfl) c
  · rw [List.getElem?_map, hj, Option.map_some, hm]
    rfl

/-- The output of the heartbeat and of the sessions after some calls. -/
example : ((Metrics.execAll exDev (MetricsDebug.table exDecls) (Metrics.State.init (MetricsDebug.table exDecls))
    [.setSigned 1 (-17), .timerStart 0 10, .setText 4 (text "a/b")]).bind fun r =>
      (MetricsDebug.heartbeatDebugPrint exDecls r.2 fun _ => 52).bind fun a =>
        (MetricsDebug.debugPrint exDecls a.2 (fun _ => 60) .allSessions).map fun b => (a.1, b.1)) =
    some ([text "Metrics keys/values:", text "  up: 42", text "  temp: -17", text "  soc: null", text "  fw: \"\""],
      [text "Metrics keys/values:", text "  ota__MemfaultSdkMetric_IntervalMs: 0",
        text "  ota__operational_crashes: null", text "  ota__url: \"a/b\"", text "  ota__rx: 0"]) := by
  decide +kernel

/-- **C110 (the heartbeat's output).** The debug output of the heartbeat is the output of the session
that comes after all sessions that are defined. -/
theorem C110_heartbeat {ds : List Decl} (hv : Valid ds) (st : Metrics.State) (times : Nat → Nat) :
    MetricsDebug.heartbeatDebugPrint ds st times =
      MetricsDebug.debugPrint ds st times (.session ((sessions ds).length - 1)) := by
  have hl : (sessions ds)[(sessions ds).length - 1]? = some (text "heartbeat") := by
    rw [← MetricsDebug.sessionNames_eq]
    unfold MetricsDebug.sessionNames
    simp [MetricsDebug.text_eq]
  unfold MetricsDebug.heartbeatDebugPrint MetricsDebug.sessionKey
  rw [MetricsDebug.sessionNames_eq, show HttpRequest.ascii "heartbeat" = text "heartbeat" from rfl,
    MetricsDebug.idxOf_get hv.sessionsDiffer hl]

/-- **C110 (number of metrics).** The number of metrics of a session is the number of its metrics that
are defined. -/
theorem C110_count {dev : SerializerHelper.Device} (hd : Spec.Event.DeviceOk dev) {ds : List Decl}
    (hv : Valid ds) {st : Metrics.State} (hr : Reached dev (MetricsDebug.table ds) st) {i : Nat}
    {session : Bytes} (hs : (sessions ds)[i]? = some session) :
    MetricsDebug.numMetrics ds st i = some ((metrics ds).countP fun m => m.session == session) := by
  have ht := MetricsDebug.table_ok hv
  obtain ⟨s, hrel⟩ := reached_good hd ht hr
  unfold MetricsDebug.numMetrics
  rw [MetricsDebug.iterate_filter
    (fun k => ((metrics ds)[k]?.map fun m => m.session == session).getD false) (fun _ => ())]
  · rw [MetricsDebug.table_length]
    simp only [Option.map_some, List.length_map, Option.some.injEq]
    rw [← List.countP_eq_length_filter]
    have hmap : (List.range (metrics ds).length).map (fun k => (metrics ds)[k]?) = (metrics ds).map some := by
      refine List.ext_getElem? fun k => ?_
      rw [List.getElem?_map, List.getElem?_map]
      by_cases hk : k < (metrics ds).length
      · rw [List.getElem?_range hk, Option.map_some, List.getElem?_eq_getElem hk, Option.map_some]
      · rw [List.getElem?_eq_none (by simpa using hk), List.getElem?_eq_none (by simpa using hk)]; rfl
    have := congrArg (List.countP fun o : Option Metric => (o.map fun m => m.session == session).getD false) hmap
    rw [List.countP_map, List.countP_map] at this
    exact this
  · intro k hk
    have hk := List.mem_range.1 hk
    obtain ⟨d, c, -⟩ := MetricsDebug.render_shows hrel hk
    have hk' : k < (metrics ds).length := by rw [← MetricsDebug.table_length]; exact hk
    have hm := List.getElem?_eq_getElem hk'
    obtain ⟨kv, a, -, b, -⟩ := MetricsDebug.table_get hv hm
    rw [c, Option.bind_some, a, Option.map_some, b, hm]
    simp only [Option.map_some, Option.getD_some, Option.some.injEq]
    have hses := hv.declared _ (List.getElem_mem hk')
    by_cases hc : (metrics ds)[k].session = session
    · have : (sessions ds).idxOf (metrics ds)[k].session = i :=
        MetricsDebug.idxOf_get hv.sessionsDiffer (by rw [hs, hc])
      rw [if_pos this]
      simp [hc]
    · have : (sessions ds).idxOf (metrics ds)[k].session ≠ i := by
        intro e
        have := MetricsDebug.get_idxOf hses
        rw [e, hs] at this
        exact hc (Option.some.inj this).symm
      simp [hc, this]

example : (metrics exDecls).countP (fun m => m.session == text "ota") = 4 := by decide

/-- **C110 (the heartbeat's number of metrics).** -/
theorem C110_count_heartbeat {ds : List Decl} (hv : Valid ds) (st : Metrics.State) :
    MetricsDebug.heartbeatNumMetrics ds st = MetricsDebug.numMetrics ds st ((sessions ds).length - 1) := by
  have hl : (sessions ds)[(sessions ds).length - 1]? = some (text "heartbeat") := by
    rw [← MetricsDebug.sessionNames_eq]
    unfold MetricsDebug.sessionNames
    simp [MetricsDebug.text_eq]
  unfold MetricsDebug.heartbeatNumMetrics MetricsDebug.sessionKey
  rw [MetricsDebug.sessionNames_eq, show HttpRequest.ascii "heartbeat" = text "heartbeat" from rfl,
    MetricsDebug.idxOf_get hv.sessionsDiffer hl]

namespace MDebug

theorem history_rel {dev : SerializerHelper.Device} (hd : Spec.Event.DeviceOk dev) {ds : List Decl}
    (hv : Valid ds) : ∀ (es : List Ev) {st : Metrics.State} {s : Spec.Metrics.State} {os : List Out}
      {s' : Spec.Metrics.State}, Metrics.Rel (MetricsDebug.table ds) st s →
      run dev ((MetricsDebug.table ds).map keyOf) s es = some (os, s') →
      ∃ st', history dev ds st es = some (os, st') := by
  have ht := MetricsDebug.table_ok hv
  intro es
  induction es with
  | nil =>
    intro st s os s' _ h
    simp only [run, Option.some.injEq, Prod.mk.injEq] at h
    exact ⟨st, by rw [← h.1]; rfl⟩
  | cons e es ih =>
    intro st s os s' h hs
    cases e with
    | print times req =>
      simp only [run] at hs
      obtain ⟨r, h1, h2⟩ := Option.bind_eq_some_iff.1 hs
      obtain ⟨st', a, b⟩ := Metrics.step_rel hd ht h h1
      simp only [exec] at a
      obtain ⟨x, a1, a2⟩ := Option.map_eq_some_iff.1 a
      simp only [Prod.mk.injEq] at a2
      obtain ⟨rfl⟩ := a2.2
      obtain ⟨t, -, c⟩ := MetricsDebug.debugPrint_rel hv a1 b req
      obtain ⟨st2, d⟩ := ih b h2
      exact ⟨st2, by simp only [history, c, Option.bind_some, d]⟩
    | call op =>
      simp only [run] at hs
      obtain ⟨r, h1, h2⟩ := Option.bind_eq_some_iff.1 hs
      obtain ⟨q, h3, h4⟩ := Option.map_eq_some_iff.1 h2
      obtain ⟨st', a, b⟩ := Metrics.step_rel hd ht h h1
      obtain ⟨st2, d⟩ := ih b h3
      simp only [Prod.mk.injEq] at h4
      exact ⟨st2, by simp only [history, a, Option.bind_some, d, Option.map_some, h4.1]⟩
    | heartbeat times session time =>
      simp only [run] at hs
      obtain ⟨r1, h1, hs⟩ := Option.bind_eq_some_iff.1 hs
      obtain ⟨r2, h2, hs⟩ := Option.bind_eq_some_iff.1 hs
      obtain ⟨r3, h3, hs⟩ := Option.bind_eq_some_iff.1 hs
      obtain ⟨q, h4, h5⟩ := Option.map_eq_some_iff.1 hs
      obtain ⟨x1, a1, b1⟩ := Metrics.step_rel hd ht h h1
      obtain ⟨x2, a2, b2⟩ := Metrics.step_rel hd ht b1 h2
      obtain ⟨x3, a3, b3⟩ := Metrics.step_rel hd ht b2 h3
      obtain ⟨st2, d⟩ := ih b3 h4
      simp only [Prod.mk.injEq] at h5
      exact ⟨st2, by simp only [history, a1, a2, a3, Option.bind_some, d, Option.map_some, h5.1]⟩

theorem run_sim {dev : SerializerHelper.Device} {keys : List Spec.Metrics.Key} :
    ∀ (es : List Ev) {s s' t t' : Spec.Metrics.State} {os os' : List Out}, (∀ e ∈ es, e.ok) →
      MetricsDebug.SimS keys.length s s' → run dev keys s es = some (os, t) →
      run dev keys s' (es.filter fun e => !e.isPrint) = some (os', t') → os = os' := by
  intro es
  induction es with
  | nil =>
    intro s s' t t' os os' _ _ a b
    simp only [run, List.filter_nil, Option.some.injEq, Prod.mk.injEq] at a b
    rw [← a.1, ← b.1]
  | cons e es ih =>
    intro s s' t t' os os' hok h a b
    have hok' : ∀ e ∈ es, e.ok := fun e he => hok e (by simp [he])
    cases e with
    | print times req =>
      rw [List.filter_cons_of_neg (by simp [Ev.isPrint])] at b
      simp only [run] at a
      obtain ⟨r, h1, h2⟩ := Option.bind_eq_some_iff.1 a
      exact ih hok' (MetricsDebug.update_sim h h1) h2 b
    | call op =>
      rw [List.filter_cons_of_pos (by simp [Ev.isPrint])] at b
      simp only [run] at a b
      obtain ⟨r, h1, h2⟩ := Option.bind_eq_some_iff.1 a
      obtain ⟨q, h3, h4⟩ := Option.map_eq_some_iff.1 h2
      obtain ⟨r', h1', h2'⟩ := Option.bind_eq_some_iff.1 b
      obtain ⟨q', h3', h4'⟩ := Option.map_eq_some_iff.1 h2'
      obtain ⟨e1, e2⟩ := MetricsDebug.step_sim h (hok _ (by simp)) h1 h1'
      simp only [Prod.mk.injEq] at h4 h4'
      rw [← h4.1, ← h4'.1, e1, ih hok' e2 h3 h3']
    | heartbeat times session time =>
      rw [List.filter_cons_of_pos (by simp [Ev.isPrint])] at b
      simp only [run] at a b
      obtain ⟨r1, h1, a⟩ := Option.bind_eq_some_iff.1 a
      obtain ⟨r1', h1', b⟩ := Option.bind_eq_some_iff.1 b
      obtain ⟨-, e⟩ := MetricsDebug.update_eq h h1 h1'
      rw [← e] at b
      obtain ⟨r2, h2, a⟩ := Option.bind_eq_some_iff.1 a
      obtain ⟨r2', h2', b⟩ := Option.bind_eq_some_iff.1 b
      obtain rfl : r2 = r2' := by rw [h2] at h2'; exact Option.some.inj h2'
      obtain ⟨r3, h3, a⟩ := Option.bind_eq_some_iff.1 a
      obtain ⟨r3', h3', b⟩ := Option.bind_eq_some_iff.1 b
      obtain rfl : r3 = r3' := by rw [h3] at h3'; exact Option.some.inj h3'
      obtain ⟨q, h4, h5⟩ := Option.map_eq_some_iff.1 a
      obtain ⟨q', h4', h5'⟩ := Option.map_eq_some_iff.1 b
      simp only [Prod.mk.injEq] at h5 h5'
      rw [← h5.1, ← h5'.1, ih hok' (.refl _ _) h4 h4']

end MDebug

/-- **C110 (printing changes nothing else).** Wherever debug prints are made in a history of calls and
heartbeats, the results of all calls and all reported heartbeats are those of the history without the
prints. Both histories are within the specification: between two readings of a running timer the clock
does not go back and less than 2^31 ms pass. Missing: reports and clearing of sessions, where it is
false (`C110_false_session`). -/
theorem C110_silent_partial {dev : SerializerHelper.Device} (hd : Spec.Event.DeviceOk dev) {ds : List Decl}
    (hv : Valid ds) {es : List Ev} (hok : ∀ e ∈ es, e.ok)
    (h1 : (run dev ((MetricsDebug.table ds).map keyOf)
      (Spec.Metrics.init ((MetricsDebug.table ds).map keyOf)) es).isSome)
    (h2 : (run dev ((MetricsDebug.table ds).map keyOf)
      (Spec.Metrics.init ((MetricsDebug.table ds).map keyOf)) (es.filter fun e => !e.isPrint)).isSome) :
    ∃ os st st', history dev ds (Metrics.State.init (MetricsDebug.table ds)) es = some (os, st) ∧
      history dev ds (Metrics.State.init (MetricsDebug.table ds)) (es.filter fun e => !e.isPrint) =
        some (os, st') := by
  obtain ⟨⟨os, s⟩, h1⟩ := Option.isSome_iff_exists.1 h1
  obtain ⟨⟨os', s'⟩, h2⟩ := Option.isSome_iff_exists.1 h2
  obtain rfl := MDebug.run_sim es hok (.refl _ _) h1 h2
  obtain ⟨st, a⟩ := MDebug.history_rel hd hv es (Metrics.init_rel _) h1
  obtain ⟨st', b⟩ := MDebug.history_rel hd hv _ (Metrics.init_rel _) h2
  exact ⟨os, st, st', a, b⟩

/-- Two prints while a timer runs, the second in between two heartbeats. -/
def exPrints : List Ev :=
  [.call (.timerStart 0 5), .print (fun _ => 20) .allSessions, .call (.timerRead 0 30),
    .heartbeat (fun _ => 100) 1 none, .print (fun _ => 150) (.session 0), .heartbeat (fun _ => 200) 1 none]

example : (∀ e ∈ exPrints, e.ok) ∧
    (run exDev ((MetricsDebug.table exDecls).map keyOf)
      (Spec.Metrics.init ((MetricsDebug.table exDecls).map keyOf)) exPrints).isSome = true ∧
    (run exDev ((MetricsDebug.table exDecls).map keyOf)
      (Spec.Metrics.init ((MetricsDebug.table exDecls).map keyOf))
      (exPrints.filter fun e => !e.isPrint)).isSome = true := by
  refine ⟨?_, by decide +kernel, by decide +kernel⟩
  intro e he
  simp only [exPrints, List.mem_cons, List.not_mem_nil, or_false] at he
  rcases he with rfl | rfl | rfl | rfl | rfl | rfl <;> simp [Ev.ok]

/-- The number at a position of the events of a history. -/
def reportedAt (j : Nat) (r : Option (List Out × Metrics.State)) : Option (List Nat) :=
  r.map fun r => r.1.filterMap fun o =>
    match o.event?.bind fun e => eventMetric e j with
    | some (.uint n) => some n
    | _ => none

/-- **C110 is false of reports of sessions.** The end of a session does not read its running timers, so
a print before it changes what is reported: 0 ms without, 15 ms with a print. -/
theorem C110_false_session :
    reportedAt 3 (history exDev exDecls (Metrics.State.init (MetricsDebug.table exDecls))
      [.call (.timerStart 6 5), .call (.report 0 none)]) = some [0] ∧
    reportedAt 3 (history exDev exDecls (Metrics.State.init (MetricsDebug.table exDecls))
      [.call (.timerStart 6 5), .print (fun _ => 20) .allSessions, .call (.report 0 none)]) = some [15] := by
  constructor <;> decide +kernel

end Mflt.Props
