import Verif.Lemmas.SystemStep
import Verif.Props.Cdr
import Mathlib.Tactic.FinCases

/-!
# Property C94: what is recorded reaches the server, once

The packetizer is run on the coredump storage, the event storage, the log buffer and the custom data recordings,
together. `Spec/System.lean` says what the writer of events, the task that sends chunks and the server see of a
history of calls.
-/

namespace Mflt.Props

open Sys
open Packetizer (Src)
open Spec.Packetizer (deliveredFrom IsMessage code)
open Spec.System (Op Out View Parts Carry payloads recorded registered saved Fits Enabled storedSize stored)
open Cdr (Recording)

/-- The configuration: buffers of usual sizes, a coredump that lies in its storage, the device information is
text. -/
structure SysOk (cfg : Config) (mem : Bytes) (evSize logSize : Nat) : Prop where
  config : ConfigOk cfg
  dev : Spec.Event.DeviceOk cfg.dev
  cdrDev : Spec.Event.DeviceOk cfg.cdr.dev
  memSize : mem.length < 2 ^ 31
  core : ∀ n, storedSize mem = some n → n ≤ mem.length ∧ n < 2 ^ 30
  ev : 0 < evSize ∧ evSize < 2 ^ 29
  log : 0 < logSize ∧ logSize < 2 ^ 20

private theorem hasValid_eq (mem : Bytes) : Coredump.hasValid true mem = storedSize mem := by
  unfold Coredump.hasValid Coredump.readHeader
  match mem with
  | x :: y :: z :: u :: e :: f :: g :: h :: a :: b :: c :: d :: rest =>
    rw [if_neg (by simp), if_pos (by simp)]
    simp only [Coredump.headerValid, List.take_succ_cons, List.take_zero, List.drop_succ_cons, List.drop_zero,
      Coredump.ofLe32, storedSize]
    by_cases hx : x = 0x43 ∧ y = 0x4F ∧ z = 0x52 ∧ u = 0x45
    · obtain ⟨rfl, rfl, rfl, rfl⟩ := hx
      rw [if_pos (by decide), if_pos (by decide)]
      congr 1
      omega
    · rw [if_neg hx, if_neg]
      intro he
      apply hx
      have he := eq_of_beq he
      have h1 := x.toNat_lt
      have h2 := y.toNat_lt
      have h3 := z.toNat_lt
      have h4 := u.toNat_lt
      refine ⟨UInt8.toNat_inj.1 ?_, UInt8.toNat_inj.1 ?_, UInt8.toNat_inj.1 ?_, UInt8.toNat_inj.1 ?_⟩ <;>
        simp only [UInt8.reduceToNat] <;> omega
  | [] => rfl
  | [_] | [_, _] | [_, _, _] | [_, _, _, _] | [_, _, _, _, _] | [_, _, _, _, _, _] | [_, _, _, _, _, _, _]
  | [_, _, _, _, _, _, _, _] | [_, _, _, _, _, _, _, _, _] | [_, _, _, _, _, _, _, _, _, _]
  | [_, _, _, _, _, _, _, _, _, _, _] => simp [storedSize]

private theorem core_rel {cfg : Config} {mem : Bytes} {evSize logSize : Nat} (h : SysOk cfg mem evSize logSize) :
    CoreRel mem (stored mem) := by
  unfold stored
  cases hs : storedSize mem with
  | none => show Coredump.hasValid true mem = none; rw [hasValid_eq, hs]
  | some n =>
    obtain ⟨h1, h2⟩ := h.core n hs
    have hl : (mem.take n).length = n := by rw [List.length_take]; omega
    show Coredump.hasValid true mem = some (mem.take n).length ∧ _
    rw [hasValid_eq, hs, hl]
    exact ⟨rfl, rfl, h1, h2⟩

private theorem boot_good {cfg : Config} {mem : Bytes} {evSize logSize : Nat} (h : SysOk cfg mem evSize logSize)
    (multi : Bool) (lvl : Nat) :
    ∃ s, boot cfg mem evSize lvl logSize = some s ∧ Good cfg multi (stored mem) lvl logSize [] s View.init := by
  have hl := h.log
  obtain ⟨e, e1, e2⟩ := boot_holds (b := cfg.ev.batchMax) h.ev.1 (by have := h.ev.2; omega)
  obtain ⟨l, l1, l2⟩ := Log.boot_rel cfg.log lvl hl.1 (by omega)
  have hro : l.cb.readOffset = 0 := by
    unfold Log.boot at l1
    obtain ⟨cb, c1, c2⟩ := Option.map_eq_some_iff.1 l1
    subst c2
    unfold CircBuf.init at c1
    split at c1
    · cases c1
    · cases c1; rfl
  let s : State := ⟨⟨mem, e, l, Cdr.State.init cfg.cdr⟩, none, DataSourceRle.State.zero, 0x1E, none, Chunk.Ctx.start 0 false⟩
  let g : Ghost := ⟨stored mem, Spec.EventQueue.empty evSize, Spec.Log.init lvl logSize, Spec.Cdr.State.init, 0⟩
  let S : Spec.Packetizer.State := ⟨fun x => if x = .coredump then (stored mem).toList else [], 0x1E, none, []⟩
  refine ⟨s, by simp only [boot, e1, l1]; rfl, g, S, ⟨⟨rfl, rfl, ?_, fun _ => rfl, rfl, Or.inl rfl⟩, ?_⟩,
    ⟨rfl, [], rfl, rfl, by simp⟩, ?_, fun _ x => (show (0x1E : Nat).testBit (code x) = true by cases x <;> decide), fun _ ht => nomatch ht⟩
  · intro src m hm
    by_cases hx : src = .coredump
    · subst hx
      have hm : m ∈ (stored mem).toList := hm
      have hc := core_rel h
      cases hs : stored mem with
      | none => rw [hs] at hm; cases hm
      | some m' =>
        rw [hs] at hm hc
        simp at hm
        subst hm
        exact hc.2.2.2
    · have hm : m ∈ (if src = .coredump then (stored mem).toList else []) := hm
      rw [if_neg hx] at hm; cases hm
  · exact ⟨h.memSize, core_rel h, rfl, e2, h.ev.2, rfl, l2, h.log.2, Or.inl rfl, cdr_init_rel cfg.cdr,
      fun _ _ hr => (by cases hr), Or.inl rfl, hro⟩
  · exact ⟨rfl, ⟨[], by simp, rfl, rfl⟩, fun _ ha => (nomatch ha), fun _ => Or.inl rfl, ⟨[], rfl, fun _ => rfl⟩,
      by simp [registered, g, Spec.Cdr.State.init], fun _ hi => (nomatch hi), rfl, rfl,
      fun _ => ⟨⟨[], by simp, rfl, rfl⟩, rfl, rfl⟩⟩

private theorem payloads_delivered (x : Src) (l : List (Src × Bytes × Bytes)) :
    payloads x l = deliveredFrom x (l.map fun m => (m.1, m.2.1)) := by
  unfold payloads deliveredFrom
  rw [List.filter_map, List.map_map]
  rfl

/-- The parts that have been delivered. -/
private theorem parts_of {cfg : Config} {multi : Bool} {core : Option Bytes} {lvl cap : Nat} {past : List Op} {v : View}
    {g : Ghost} {S : Spec.Packetizer.State} (h2 : RInv cfg multi S v.receiver)
    (h3 : Data cfg core lvl cap past v.writer S.delivered g) :
    ∃ p : Parts, Carry cfg (Cdr.head cfg.cdr.dev) (Fits cap (saved cfg.log lvl past)) v.receiver.messages p ∧
      p.core ++ g.core.toList = core.toList ∧ p.events.flatten ++ g.q.committed = v.writer.done ∧
      (∀ i, p.of i ++ g.t.waiting i = recorded i past) ∧
      (Fits cap (saved cfg.log lvl past) → p.lines ++ unsentLines g.S.entries = saved cfg.log lvl past) := by
  obtain ⟨l, a1, a2, a3⟩ := h2.messages
  obtain ⟨groups, e1, e2, e3⟩ := h3.ev
  obtain ⟨rs, r1, r2⟩ := h3.cdr
  have hlog : ∃ gs : List (Option Nat × List Spec.Log.Line), Fits cap (saved cfg.log lvl past) → (∀ x ∈ gs, x.2 ≠ []) ∧
      (deliveredFrom .log S.delivered).map Spec.Cbor.decode =
        gs.map (fun x => some (Spec.System.report cfg.log cfg.dev x.1 x.2)) ∧
      (gs.map (·.2)).flatten ++ unsentLines g.S.entries = saved cfg.log lvl past := by
    by_cases hf : Fits cap (saved cfg.log lvl past)
    · obtain ⟨⟨gs, l1⟩, -, -⟩ := h3.log hf
      exact ⟨gs, fun _ => l1⟩
    · exact ⟨[], fun h => absurd h hf⟩
  obtain ⟨gs, hgs⟩ := hlog
  refine ⟨⟨deliveredFrom .coredump S.delivered, groups, rs, gs⟩, ⟨l, a2, a3, ?_, ?_, e1, ?_, fun hf => ?_⟩, h3.core,
    e3, r2, fun hf => (hgs hf).2.2⟩
  · rw [payloads_delivered, a1]
  · rw [payloads_delivered, a1, e2]
  · rw [payloads_delivered, a1]; exact r1
  · rw [payloads_delivered, a1]; exact ⟨(hgs hf).2.1, (hgs hf).1⟩

/-- **C94, nothing twice and in order.** Whatever the application records and whatever the sending task does, with any
buffers, aborting and disabling sources as it likes: nothing goes wrong in the device, and the messages at the server
are the coredump (at most once), the first of the finished events, the first recordings of each source, and the first
of the saved log lines, none twice, none left out in between, all in order and none made up. Missing: both ways
of taking chunks mixed in one message (`C94_false_mixed`), and what `SysOk` excludes. -/
theorem C94_at_most_once_partial {cfg : Config} {mem : Bytes} {evSize logSize : Nat} (h : SysOk cfg mem evSize logSize)
    (multi : Bool) (lvl : Nat) (ops : List Op) (hops : ∀ op ∈ ops, op.Ok cfg.cdr.maxMetadata multi) :
    ∃ head : Recording → Bytes,
      (∀ r, Spec.Cdr.Ok cfg.cdr.maxMetadata r →
        Spec.Cbor.decode (head r ++ r.data) = some (Spec.Cdr.event cfg.cdr.dev r)) ∧
      ∃ s0 s v, boot cfg mem evSize lvl logSize = some s0 ∧ play cfg s0 View.init ops = some (s, v) ∧
        ∃ p, Carry cfg head (Fits logSize (saved cfg.log lvl ops)) v.receiver.messages p ∧
          p.core <+: (stored mem).toList ∧
          p.events.flatten <+: v.writer.done ∧
          (∀ i, p.of i <+: recorded i ops) ∧
          (Fits logSize (saved cfg.log lvl ops) → p.lines <+: saved cfg.log lvl ops) := by
  refine ⟨Cdr.head cfg.cdr.dev, fun r hr => Cdr.decode_head h.cdrDev hr, ?_⟩
  obtain ⟨s0, b1, b2⟩ := boot_good h multi lvl
  obtain ⟨s, v, p1, g, S, h1, h2, h3, h4⟩ := play_good h.config h.dev ops [] b2 hops
  rw [List.nil_append] at h3
  obtain ⟨p, k1, k2, k3, k4, k5⟩ := parts_of h2 h3
  exact ⟨s0, s, v, b1, p1, p, k1, ⟨_, k2⟩, ⟨_, k3⟩, fun i => ⟨_, k4 i⟩, fun hf => ⟨_, k5 hf⟩⟩

/-- **C94, nothing left.** When the packetizer says that there is no data (all sources being enabled), the server has
the coredump, every finished event, and every recording of the registered sources. Missing: the log lines that
were not collected, and what `SysOk` excludes. -/
theorem C94_nothing_left_partial {cfg : Config} {mem : Bytes} {evSize logSize : Nat} (h : SysOk cfg mem evSize logSize)
    (multi : Bool) (lvl : Nat) (ops : List Op) (hops : ∀ op ∈ ops, op.Ok cfg.cdr.maxMetadata multi)
    (hen : Enabled ops) :
    ∃ head : Recording → Bytes,
      (∀ r, Spec.Cdr.Ok cfg.cdr.maxMetadata r →
        Spec.Cbor.decode (head r ++ r.data) = some (Spec.Cdr.event cfg.cdr.dev r)) ∧
      ((∀ i, ∀ r ∈ recorded i ops, (head r).length ≤ cfg.cdr.maxMetadata) →
      ∃ s0 s v o s', boot cfg mem evSize lvl logSize = some s0 ∧ play cfg s0 View.init ops = some (s, v) ∧
        dataAvailable cfg s = some (o, s') ∧
        (o = false → ∃ p, Carry cfg head (Fits logSize (saved cfg.log lvl ops)) v.receiver.messages p ∧
          p.core = (stored mem).toList ∧
          p.events.flatten = v.writer.done ∧
          (∀ i ∈ (registered ops).take cfg.cdr.maxSources, p.of i = recorded i ops))) := by
  refine ⟨Cdr.head cfg.cdr.dev, fun r hr => Cdr.decode_head h.cdrDev hr, fun hfit => ?_⟩
  obtain ⟨s0, b1, b2⟩ := boot_good h multi lvl
  obtain ⟨s, v, p1, g, S, h1, h2, h3, h4⟩ := play_good h.config h.dev ops [] b2 hops
  rw [List.nil_append] at h3 h4
  obtain ⟨o, s', g', Q, c1, c2, c3, c4⟩ := available_ok h.config h1
  refine ⟨s0, s, v, o, s', b1, p1, c1, fun ho => ?_⟩
  have h3' := data_asked h3 c3
  obtain ⟨z1, z2, -, z4⟩ := items_zero (items_empty c2.w (described h3' hfit) fun x => c4 ho x (h4.1 hen x))
  obtain ⟨p, k1, k2, k3, k4, -⟩ := parts_of (recv_queue h2 Q) h3'
  rw [z1] at k2
  rw [z2] at k3
  refine ⟨p, k1, by simpa using k2, by simpa using k3, fun i hi => ?_⟩
  have := k4 i
  rw [z4 i (by rw [h3'.sources]; exact hi), List.append_nil] at this
  exact this

private theorem fits_snoc_chunks (cfg : Log.Config) (lvl : Nat) (ops : List Op) (bufs : List Bytes) :
    saved cfg lvl (ops ++ bufs.map .getChunk) = saved cfg lvl ops ∧
    (∀ i, recorded i (ops ++ bufs.map .getChunk) = recorded i ops) ∧
    registered (ops ++ bufs.map .getChunk) = registered ops := by
  have h1 : ∀ l, saved cfg l (bufs.map .getChunk) = [] := by
    intro l; induction bufs with
    | nil => rfl
    | cons b bs ih => simpa [saved] using ih
  have h2 : ∀ i, recorded i (bufs.map .getChunk) = [] := by
    clear h1; intro i; induction bufs with
    | nil => rfl
    | cons b bs ih => simpa [recorded] using ih
  have h3 : registered (bufs.map .getChunk) = [] := by
    clear h1 h2; induction bufs with
    | nil => rfl
    | cons b bs ih => simpa [registered] using ih
  refine ⟨by rw [saved_append, h1, List.append_nil], fun i => by rw [recorded_append, h2, List.append_nil],
    by rw [registered_append, h3, List.append_nil]⟩

private theorem play_append (cfg : Config) : ∀ (a b : List Op) (s : State) (v : View),
    play cfg s v (a ++ b) = (play cfg s v a).bind fun r => play cfg r.1 r.2 b := by
  intro a
  induction a with
  | nil => intro b s v; rfl
  | cons op a ih =>
    intro b s v
    show (if v.writer.may op then (step cfg s op).bind fun r => play cfg r.2 (v.sees op r.1) (a ++ b)
      else play cfg s v (a ++ b)) = (if v.writer.may op then (step cfg s op).bind fun r => play cfg r.2 (v.sees op r.1) a
      else play cfg s v a).bind fun r => play cfg r.1 r.2 b
    split
    · cases step cfg s op with
      | none => rfl
      | some r => exact ih b _ _
    · exact ih b _ _

/-- **C94, everything arrives.** After any history (in which no source was disabled), if the sending task keeps asking
for chunks, with buffers of any sizes from 9 bytes on, then after finitely many calls the server has the coredump,
every finished event and every recording of the registered sources. Missing: disabled sources and smaller
buffers, and what `SysOk` excludes. -/
theorem C94_delivers_partial {cfg : Config} {mem : Bytes} {evSize logSize : Nat} (h : SysOk cfg mem evSize logSize)
    (lvl : Nat) (ops : List Op) (hops : ∀ op ∈ ops, op.Ok cfg.cdr.maxMetadata false) (hen : Enabled ops) :
    ∃ head : Recording → Bytes,
      (∀ r, Spec.Cdr.Ok cfg.cdr.maxMetadata r →
        Spec.Cbor.decode (head r ++ r.data) = some (Spec.Cdr.event cfg.cdr.dev r)) ∧
      ((∀ i, ∀ r ∈ recorded i ops, (head r).length ≤ cfg.cdr.maxMetadata) →
      ∃ s0 s v n, boot cfg mem evSize lvl logSize = some s0 ∧ play cfg s0 View.init ops = some (s, v) ∧
        ∀ bufs : List Bytes, (∀ b ∈ bufs, 9 ≤ b.length) → n ≤ bufs.length →
        ∃ s' v', play cfg s0 View.init (ops ++ bufs.map .getChunk) = some (s', v') ∧
          ∃ p, Carry cfg head (Fits logSize (saved cfg.log lvl ops)) v'.receiver.messages p ∧
            p.core = (stored mem).toList ∧
            p.events.flatten = v.writer.done ∧
            (∀ i ∈ (registered ops).take cfg.cdr.maxSources, p.of i = recorded i ops)) := by
  refine ⟨Cdr.head cfg.cdr.dev, fun r hr => Cdr.decode_head h.cdrDev hr, fun hfit => ?_⟩
  obtain ⟨s0, b1, b2⟩ := boot_good h false lvl
  obtain ⟨s, v, p1, g, S, h1, h2, h3, h4⟩ := play_good h.config h.dev ops [] b2 hops
  rw [List.nil_append] at h3 h4
  refine ⟨s0, s, v, potential g S, b1, p1, fun bufs hb hn => ?_⟩
  obtain ⟨s', v', g', S', d1, d2, d3, d4, -, -, d7, -, d9⟩ :=
    Sys.drain h.config h.dev bufs ops hb hfit h1 h2 h3 (h4.1 hen) h4.2 hn
  refine ⟨s', v', by rw [play_append, p1]; exact d1, ?_⟩
  obtain ⟨z1, z2, -, z4⟩ := items_zero d7
  obtain ⟨f1, f2, f3⟩ := fits_snoc_chunks cfg.log lvl ops bufs
  obtain ⟨p, k1, k2, k3, k4, -⟩ := parts_of d3 d4
  rw [f1] at k1
  rw [z1] at k2
  rw [z2, d9] at k3
  refine ⟨p, k1, by simpa using k2, by simpa using k3, fun i hi => ?_⟩
  have := k4 i
  rw [z4 i (by rw [d4.sources, f3]; exact hi), List.append_nil, f2] at this
  exact this

/-- **C94, the log arrives.** If, after that, the log is collected and the sending task goes on, then after finitely
many calls the server has every saved log line, once and in order. Missing: as there. -/
theorem C94_delivers_logs_partial {cfg : Config} {mem : Bytes} {evSize logSize : Nat}
    (h : SysOk cfg mem evSize logSize)
    (lvl : Nat) (ops : List Op) (hops : ∀ op ∈ ops, op.Ok cfg.cdr.maxMetadata false) (hen : Enabled ops)
    (hfits : Fits logSize (saved cfg.log lvl ops)) (now : Option Nat) :
    ∃ head : Recording → Bytes,
      (∀ r, Spec.Cdr.Ok cfg.cdr.maxMetadata r →
        Spec.Cbor.decode (head r ++ r.data) = some (Spec.Cdr.event cfg.cdr.dev r)) ∧
      ((∀ i, ∀ r ∈ recorded i ops, (head r).length ≤ cfg.cdr.maxMetadata) →
      ∃ s0 n, boot cfg mem evSize lvl logSize = some s0 ∧
        ∀ bufs : List Bytes, (∀ b ∈ bufs, 9 ≤ b.length) → n ≤ bufs.length →
        ∃ n', ∀ bufs' : List Bytes, (∀ b ∈ bufs', 9 ≤ b.length) → n' ≤ bufs'.length →
        ∃ s' v', play cfg s0 View.init (ops ++ bufs.map .getChunk ++ [.logTrigger now] ++ bufs'.map .getChunk) =
            some (s', v') ∧
          ∃ p, Carry cfg head True v'.receiver.messages p ∧ p.lines = saved cfg.log lvl ops) := by
  refine ⟨Cdr.head cfg.cdr.dev, fun r hr => Cdr.decode_head h.cdrDev hr, fun hfit => ?_⟩
  obtain ⟨s0, b1, b2⟩ := boot_good h false lvl
  obtain ⟨s, v, p1, g, S, h1, h2, h3, h4⟩ := play_good h.config h.dev ops [] b2 hops
  rw [List.nil_append] at h3 h4
  refine ⟨s0, potential g S, b1, fun bufs hb hn => ?_⟩
  obtain ⟨s1, v1, g1, S1, d1, d2, d3, d4, d5, d6, d7, -, -⟩ :=
    Sys.drain h.config h.dev bufs ops hb hfit h1 h2 h3 (h4.1 hen) h4.2 hn
  obtain ⟨-, -, z3, -⟩ := items_zero d7
  obtain ⟨f1, f2, f3⟩ := fits_snoc_chunks cfg.log lvl ops bufs
  have hlen : ∀ es : List Spec.Log.Entry, (unsentLines es).length = Spec.Log.unsent es := by
    intro es; unfold unsentLines Spec.Log.unsent; rw [List.length_map, List.countP_eq_length_filter]
  have key : ∃ s2 g2, step cfg s1 (.logTrigger now) = some (.unit, s2) ∧ SRel cfg s2 g2 S1 ∧
      Data cfg (stored mem) lvl logSize (ops ++ bufs.map .getChunk) v1.writer S1.delivered g2 ∧ Flush g2 := by
    have hk : ∀ S', Spec.Log.step cfg.log g1.S (.trigger now) = some (.unit, S') → S'.cap = g1.S.cap →
        S'.minLevel = g1.S.minLevel → S'.entries = g1.S.entries →
        Spec.Log.unsent S'.entries ≤ (S'.frozen.map Prod.fst).getD 0 →
        ∃ s2 g2, step cfg s1 (.logTrigger now) = some (.unit, s2) ∧ SRel cfg s2 g2 S1 ∧
          Data cfg (stored mem) lvl logSize (ops ++ bufs.map .getChunk) v1.writer S1.delivered g2 ∧ Flush g2 := by
      intro S' hs k1 k2 k3 k4
      obtain ⟨l', e1, e2⟩ := log_ok h.config d2.w (op := .trigger now) (by simp) hs
      simp only [Log.step, Option.map_eq_some_iff, Prod.mk.injEq, true_and] at e1
      obtain ⟨l'', e1, rfl⟩ := e1
      refine ⟨_, _, by simp only [step, e1]; rfl, client_ok d2 e2, data_log d4 k1 k2 k3 ?_, ?_⟩
      · rw [← d2.w.logRo]
        unfold Log.triggerCollection at e1
        split at e1
        · cases e1; rfl
        · obtain ⟨n, -, e1⟩ := Option.map_eq_some_iff.1 e1
          split at e1 <;> cases e1 <;> rfl
      · unfold Flush; rw [hlen]; exact k4
    by_cases hx : Spec.Log.unsent g1.S.entries = 0
    · exact hk g1.S (by simp only [Spec.Log.step, h.config.ds]; rw [if_neg (by simp), if_pos (Or.inr hx)]) rfl rfl rfl
        (by omega)
    · refine hk { g1.S with frozen := some (Spec.Log.unsent g1.S.entries, now) }
        (by simp only [Spec.Log.step, h.config.ds]; rw [if_neg (by simp), if_neg (by rw [z3]; simpa using hx)]) rfl rfl rfl
        (Nat.le_refl _)
  obtain ⟨s2, g2, t1, t2, t3, t4⟩ := key
  refine ⟨potential g2 S1, fun bufs' hb' hn' => ?_⟩
  have hneutral := data_past (op := .logTrigger now) t3 trivial
  obtain ⟨s', v', g', S', u1, u2, u3, u4, -, -, u7, u8, -⟩ :=
    Sys.drain h.config h.dev bufs' (ops ++ bufs.map .getChunk ++ [.logTrigger now]) (v := v1.sees (.logTrigger now) .unit) hb'
      (fun i => by rw [recorded_append, f2]; simpa [recorded] using hfit i) t2 d3 hneutral d5 d6 hn'
  refine ⟨s', v', ?_, ?_⟩
  · rw [List.append_assoc, play_append, play_append, p1, Option.bind_some, d1, Option.bind_some, List.singleton_append]
    unfold play
    rw [if_pos (show v1.writer.may (.logTrigger now) = true from rfl), t1, Option.bind_some]
    exact u1
  · obtain ⟨-, -, y3, -⟩ := items_zero u7
    obtain ⟨f1', -, -⟩ := fits_snoc_chunks cfg.log lvl (ops ++ bufs.map .getChunk ++ [.logTrigger now]) bufs'
    have hsv : saved cfg.log lvl (ops ++ bufs.map .getChunk ++ [.logTrigger now] ++ bufs'.map .getChunk) =
        saved cfg.log lvl ops := by
      rw [f1', saved_append, f1]; simp [saved]
    obtain ⟨p, k1, -, -, -, k5⟩ := parts_of u3 u4
    rw [hsv] at k1 k5
    have hfl := u8 t4
    unfold Flush at hfl
    rw [y3] at hfl
    have h0 : unsentLines g'.S.entries = [] := List.length_eq_zero_iff.1 (by simpa using hfl)
    have hk5 := k5 hfits
    rw [h0, List.append_nil] at hk5
    refine ⟨p, ?_, hk5⟩
    obtain ⟨l, a1, a2, a3, a4, a5, a6, a7⟩ := k1
    exact ⟨l, a1, a2, a3, a4, a5, a6, fun _ => a7 hfits⟩

/-! ## A device -/

private def exSysDev : SerializerHelper.Device := ⟨none, [65], [66], [67], none⟩

private def exSys : Config := ⟨⟨true, none⟩, ⟨none⟩, ⟨8, false, true⟩, exSysDev, ⟨2, 64, exSysDev⟩⟩

private def exSysMem : Bytes := [0x43, 0x4F, 0x52, 0x45, 2, 0, 0, 0, 16, 0, 0, 0, 9, 9, 9, 9, 0, 0]

private def exSysRec : Recording := ⟨none, [[97]], 5, [98], [7, 8, 9]⟩

private def exSysOps : List Op :=
  [.cdrRegister 4, .evBegin, .evAppend [1, 2, 3], .evFinish false, .logSave 1 0 [97, 97] none,
   .getChunk (List.replicate 9 0), .cdrRecord 4 exSysRec, .dataAvailable, .evBegin, .evAppend [4, 5, 6],
   .evFinish false]

private theorem exSys_ok {mem : Bytes} (h0 : mem.length < 2 ^ 31)
    (h : ∀ n, storedSize mem = some n → n ≤ mem.length ∧ n < 2 ^ 30) : SysOk exSys mem 64 32 :=
  ⟨⟨rfl, by constructor <;> decide, by decide, by decide, by decide⟩, by constructor <;> simp [exSys, exSysDev],
    by constructor <;> simp [exSys, exSysDev], h0, h, by decide, by decide⟩

/-- The hypotheses are met by a device with a coredump, two events, a recording and a log line. -/
example : SysOk exSys exSysMem 64 32 := exSys_ok (by decide) fun n hn => by
  have : storedSize exSysMem = some 16 := by decide
  rw [this] at hn; cases hn; decide

example : (∀ op ∈ exSysOps, op.Ok exSys.cdr.maxMetadata false) ∧ Enabled exSysOps ∧
    Fits 32 (saved exSys.log 0 exSysOps) ∧ (stored exSysMem).isSome = true ∧ recorded 4 exSysOps = [exSysRec] := by
  refine ⟨?_, ?_, ?_, by decide, by decide⟩
  · intro op hop
    fin_cases hop <;> first | trivial | (refine ⟨?_, by decide⟩; exact ⟨by decide, by decide, by decide, by decide, by decide⟩) | decide
  · intro mask hm; simp [exSysOps] at hm
  · exact ⟨by decide, by decide⟩

/-- All of it arrives (the coredump is sent in runs). -/
example : ((boot exSys exSysMem 64 0 32).bind fun s => (play exSys s View.init (exSysOps ++
      (List.replicate 12 (List.replicate 9 0)).map .getChunk ++ [.logTrigger none] ++
      (List.replicate 5 (List.replicate 9 0)).map .getChunk)).map fun r => r.2.receiver.messages) =
    some [[129, 9, 67, 79, 82, 69, 2, 6, 0, 1, 16, 6, 0, 8, 9], [2, 1, 2, 3], [2, 4, 5, 6],
      [4, 166, 2, 5, 3, 1, 10, 97, 65, 9, 97, 66, 6, 97, 67, 4, 164, 1, 5, 2, 129, 97, 97, 3, 97, 98, 4, 67, 7, 8, 9],
      [3, 166, 2, 4, 3, 1, 10, 97, 65, 9, 97, 66, 6, 97, 67, 4, 130, 1, 98, 97, 97]] := by
  decide +kernel

/-- **C94 is false for mixed calls.** If `memfault_packetizer_get_chunk` is called while a message is being taken in
pieces, it takes a piece of it, says that there is nothing, and the piece is lost: the server rejects the message, the
event is deleted on the device and there is no more data. -/
theorem C94_false_mixed : SysOk exSys [] 64 32 ∧
    ((boot exSys [] 64 0 32).bind fun s => (play exSys s View.init
      [.evBegin, .evAppend [1, 2, 3, 4, 5, 6, 7, 8, 9, 10, 11, 12, 13, 14, 15, 16], .evFinish false, .begin true,
       .getNext (List.replicate 9 0), .getChunk (List.replicate 9 0), .getNext (List.replicate 40 0)]).bind fun r =>
      (dataAvailable exSys r.1).map fun o => (o.1, r.2.writer.done, r.2.receiver.messages)) =
    some (false, [[1, 2, 3, 4, 5, 6, 7, 8, 9, 10, 11, 12, 13, 14, 15, 16]], []) := by
  refine ⟨exSys_ok (by decide) fun n hn => ?_, by decide +kernel⟩
  cases hn

end Mflt.Props
