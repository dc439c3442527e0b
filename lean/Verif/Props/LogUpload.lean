import Verif.Lemmas.LogFrozen
import Verif.Props.Log

/-!
# C25, C26, C27: uploading the log

`hasLogs` and `logsRead` model the data source the log offers to the packetizer. A read returns
whether it succeeded and the caller's buffer. `Spec/LogUpload.lean` says what an upload should hold.
-/

namespace Mflt.Props

open Log
open Spec.Log (Op Out Line Entry lines unsent upload total)
open SerializerHelper (Device)

/-- The bytes at an offset of a message. -/
def slice (msg : Bytes) (off len : Nat) : Bytes := (msg.drop off).take len

/-- C27. After any history, while an upload is in progress, there is one message such that its size
is announced, and any read returns the bytes of the message in its window and leaves the rest of
the caller's buffer alone; it succeeds if and only if the window lies inside of the message (or is
empty). -/
theorem C27_window_reads {cfg : Config} (hmin : 4 ≤ cfg.maxLine) (hmax : cfg.maxLine ≤ 255)
    {minLevel cap : Nat} (h0 : 0 < cap) (hcap : cap < 2 ^ 31 - 8) {ops : List Op} {outs : List Out}
    {S : Spec.Log.State} (h : Spec.Log.run cfg (Spec.Log.init minLevel cap) ops = some (outs, S))
    (hf : S.frozen.isSome) (dev : Device) :
    ∃ s s', boot minLevel cap = some s ∧ run cfg s ops = some (outs, s') ∧
      ∃ msg : Bytes, hasLogs cfg dev s' = some (some msg.length) ∧
        (msg.length < 2 ^ 32 → ∀ off buf, logsRead cfg dev s' off buf =
          some (decide (off + buf.length ≤ msg.length ∨ buf.length = 0),
            slice msg off buf.length ++ buf.drop (slice msg off buf.length).length)) := by
  obtain ⟨s, b1, b2⟩ := boot_rel cfg minLevel h0 hcap
  obtain ⟨s', r1, r2⟩ := run_rel ⟨hmin, hmax⟩ ops b2 h
  obtain ⟨ro, hr⟩ := r2.core.ring
  obtain ⟨⟨n, now⟩, hf'⟩ := Option.isSome_iff_exists.mp hf
  have ht := r2.trig
  rw [hf'] at ht
  obtain ⟨-, t2, t3, t4⟩ := ht
  have hn : 0 < s'.trigger.numLogs := by rw [t2]; exact t3
  refine ⟨s, s', b1, r1, _, hasLogs_eq ⟨hmin, hmax⟩ dev r2.cap hr r2.core.ok hn (by rw [t2]), ?_⟩
  intro hlen off buf
  have := logsRead_eq ⟨hmin, hmax⟩ dev r2.cap hr r2.core.ok hn hlen off buf
  generalize Cbor.emitAll _ = msg at this hlen ⊢
  rw [this]
  congr 3
  unfold window
  rw [eq_iff_iff, List.length_take, List.length_drop]
  omega

/-- C25. While an upload is in progress (until it is finished, `.markSent`), whatever else is called:
no line is evicted, and the announced size and the result of every read stay the same. -/
theorem C25_upload_is_frozen {cfg : Config} (hmin : 4 ≤ cfg.maxLine) (hmax : cfg.maxLine ≤ 255)
    {minLevel cap : Nat} (h0 : 0 < cap) (hcap : cap < 2 ^ 31 - 8) {ops ops' : List Op}
    {outs outs' : List Out} {S S' : Spec.Log.State}
    (h : Spec.Log.run cfg (Spec.Log.init minLevel cap) ops = some (outs, S))
    (hf : S.frozen.isSome) (h' : Spec.Log.run cfg S ops' = some (outs', S'))
    (hm : Op.markSent ∉ ops') :
    lines S.entries <+: lines S'.entries ∧
    ∃ s t t', boot minLevel cap = some s ∧ run cfg s ops = some (outs, t) ∧
      run cfg t ops' = some (outs', t') ∧
      t.cb.contents = encAll S.entries ∧ t'.cb.contents = encAll S'.entries ∧
      (∀ dev, ∃ size, hasLogs cfg dev t = some (some size) ∧ hasLogs cfg dev t' = some (some size) ∧
        (size < 2 ^ 32 → ∀ off buf, logsRead cfg dev t' off buf = logsRead cfg dev t off buf)) := by
  obtain ⟨s, b1, b2⟩ := boot_rel cfg minLevel h0 hcap
  obtain ⟨t, r1, r2⟩ := run_rel ⟨hmin, hmax⟩ ops b2 h
  obtain ⟨⟨n, now⟩, hf'⟩ := Option.isSome_iff_exists.mp hf
  obtain ⟨f1, ⟨a, b, g1, g2, g3⟩, t', c1, c2, c3⟩ := frozen_run ⟨hmin, hmax⟩ ops' r2 hf' hm h'
  obtain ⟨ro, hr⟩ := r2.core.ring
  obtain ⟨ro', hr'⟩ := c2.core.ring
  have hro : ro' = ro := by rw [← hr.ro, ← hr'.ro, c3]
  subst hro
  have ht := r2.trig
  rw [hf'] at ht
  obtain ⟨-, t2, t3, t4⟩ := ht
  have ht' := c2.trig
  rw [f1] at ht'
  obtain ⟨-, u2, u3, u4⟩ := ht'
  have hcc : S'.cap = S.cap := Spec.Log.run_cap' h'
  have hup : ∀ dev, uploadCalls cfg dev t'.trigger ro' S'.cap S'.entries =
      uploadCalls cfg dev t.trigger ro' S.cap S.entries := by
    intro dev
    unfold uploadCalls
    rw [t2, u2, hcc, g1, collect_append, collect_congr _ _ _ _ _ _ _ g2]
    rw [unsent_congr g2]; exact t4
  refine ⟨?_, s, t, t', b1, r1, c1, hr.contents, hr'.contents, ?_⟩
  · have : lines S.entries = lines a := by
      have := congrArg (List.map Prod.fst) g2
      simpa [key, lines, Function.comp_def] using this.symm
    rw [g1, this]
    exact ⟨lines b, by simp [lines]⟩
  · intro dev
    have hn : 0 < t.trigger.numLogs := by rw [t2]; exact t3
    have hn' : 0 < t'.trigger.numLogs := by rw [u2]; exact t3
    have e1 := hasLogs_eq ⟨hmin, hmax⟩ dev r2.cap hr r2.core.ok hn (by rw [t2])
    have e2 := hasLogs_eq ⟨hmin, hmax⟩ dev c2.cap hr' c2.core.ok hn' (by rw [u2])
    rw [hup] at e2
    refine ⟨_, e1, e2, fun hlen off buf => ?_⟩
    have l1 := logsRead_eq ⟨hmin, hmax⟩ dev r2.cap hr r2.core.ok hn hlen off buf
    have l2 := logsRead_eq ⟨hmin, hmax⟩ dev c2.cap hr' c2.core.ok hn' (by rw [hup]; exact hlen) off buf
    rw [hup] at l2
    exact l2.trans l1.symm

/-- C25. Finishing an upload marks exactly the lines as sent that were held when it was started,
whatever was called in between; lines saved since then are to be sent. -/
theorem C25_marks_exactly_the_collected {cfg : Config} (hmin : 4 ≤ cfg.maxLine)
    (hmax : cfg.maxLine ≤ 255) {minLevel cap : Nat} (h0 : 0 < cap) (hcap : cap < 2 ^ 31 - 8)
    {ops ops' : List Op} {outs outs' : List Out} {S S' : Spec.Log.State} (now : Option Nat)
    (h : Spec.Log.run cfg (Spec.Log.init minLevel cap) ops = some (outs, S)) (hf : S.frozen = none)
    (hu : 0 < unsent S.entries) (hm : Op.markSent ∉ ops')
    (h' : Spec.Log.run cfg S (.trigger now :: ops' ++ [.markSent]) = some (outs', S')) :
    (∃ s t t', boot minLevel cap = some s ∧ run cfg s ops = some (outs, t) ∧
      run cfg t (.trigger now :: ops' ++ [.markSent]) = some (outs', t') ∧
      t'.cb.contents = encAll S'.entries) ∧
    ∃ old new, S'.entries = old ++ new ∧ lines old = lines S.entries ∧
      (∀ e ∈ old, e.sent = true) ∧ (∀ e ∈ new, e.sent = false) := by
  obtain ⟨s, b1, b2⟩ := boot_rel cfg minLevel h0 hcap
  obtain ⟨t, r1, r2⟩ := run_rel ⟨hmin, hmax⟩ ops b2 h
  obtain ⟨t', c1, c2⟩ := run_rel ⟨hmin, hmax⟩ _ r2 h'
  obtain ⟨ro', hr'⟩ := c2.core.ring
  refine ⟨⟨s, t, t', b1, r1, c1, hr'.contents⟩, ?_⟩
  simp only [List.cons_append, Spec.Log.run, Option.bind_eq_some_iff, Option.map_eq_some_iff] at h'
  obtain ⟨⟨o, S1⟩, a1, ⟨os, S2⟩, a2, a3⟩ := h'
  obtain ⟨t1, -, q2, -⟩ := step_rel ⟨hmin, hmax⟩ r2 a1
  simp only [Spec.Log.step] at a1
  split at a1
  · cases a1
  · rw [if_neg (by rw [hf]; simp; omega)] at a1
    simp only [Option.some.injEq, Prod.mk.injEq] at a1 a3
    obtain ⟨-, rfl⟩ := a1
    obtain ⟨-, rfl⟩ := a3
    obtain ⟨os1, S3, os2, d1, d2⟩ := Spec.Log.run_append a2
    obtain ⟨f1, ⟨a, b, g1, g2, g3⟩, -⟩ := frozen_run ⟨hmin, hmax⟩ ops' q2 rfl hm d1
    simp only [Spec.Log.run, Spec.Log.step, f1, Option.map_some, Option.bind_some, Option.some.injEq,
      Prod.mk.injEq] at d2
    obtain ⟨-, rfl⟩ := d2
    refine ⟨a.map fun e => { e with sent := true }, b, ?_, ?_, by simp, g3⟩
    · simp only
      rw [g1, ← unsent_congr g2, markSent_all]
    · have := congrArg (List.map Prod.fst) g2
      simpa [key, lines, Function.comp_def] using this

/-- C26, for uploads in which every collected line is not empty and lies in the ring buffer without
wrapping around its end: the message decodes to the event that lists exactly the collected
lines. Missing: empty lines and lines that wrap (`C26_empty_line_breaks_upload`,
`C26_wrapped_line_breaks_upload`). -/
theorem C26_upload_decodes_partial {cfg : Config} (hmin : 4 ≤ cfg.maxLine) (hmax : cfg.maxLine ≤ 255)
    {minLevel cap : Nat} (h0 : 0 < cap) (hcap : cap < 2 ^ 31 - 8) {ops : List Op} {outs : List Out}
    {S : Spec.Log.State} (h : Spec.Log.run cfg (Spec.Log.init minLevel cap) ops = some (outs, S))
    {n : Nat} {now : Option Nat} (hf : S.frozen = some (n, now)) {dev : Device}
    (hd : Spec.Event.DeviceOk dev) :
    ∃ s s', boot minLevel cap = some s ∧ run cfg s ops = some (outs, s') ∧
      ((∀ pre e post, S.entries = pre ++ e :: post → e.sent = false → body e.line ≠ [] ∧
          (s'.cb.readOffset + total pre + 2) % cap + (body e.line).length ≤ cap) →
        ∃ msg : Bytes, hasLogs cfg dev s' = some (some msg.length) ∧
          (msg.length < 2 ^ 32 → ∀ buf : Bytes, buf.length = msg.length →
            logsRead cfg dev s' 0 buf = some (true, msg)) ∧
          Spec.Cbor.decode msg = some (upload cfg dev n now S.entries)) := by
  obtain ⟨s, b1, b2⟩ := boot_rel cfg minLevel h0 hcap
  obtain ⟨s', r1, r2⟩ := run_rel ⟨hmin, hmax⟩ ops b2 h
  obtain ⟨ro, hr⟩ := r2.core.ring
  have hi := Spec.Log.run_inv ops (Spec.Log.init_inv minLevel cap) h
  have ht := r2.trig
  rw [hf] at ht
  obtain ⟨-, t2, t3, t4⟩ := ht
  have hn : 0 < s'.trigger.numLogs := by rw [t2]; exact t3
  have hcc : S.cap = cap := Spec.Log.run_cap h
  refine ⟨s, s', b1, r1, fun hst => ?_⟩
  refine ⟨_, hasLogs_eq ⟨hmin, hmax⟩ dev r2.cap hr r2.core.ok hn (by rw [t2]), ?_, ?_⟩
  · intro hlen buf hb
    have := logsRead_eq ⟨hmin, hmax⟩ dev r2.cap hr r2.core.ok hn hlen 0 buf
    generalize Cbor.emitAll _ = msg at this hlen hb ⊢
    have hw : window msg 0 buf.length = msg := by
      unfold window; rw [List.drop_zero, hb, List.take_length]
    rw [this, hw, hb]
    simp [hb]
  · rw [t2]
    refine decode_upload ⟨hmin, hmax⟩ hd r2.cap r2.core.ok t4 hi.fits ?_
    intro pre e post he hse
    have := hst pre e post he hse
    rw [← hr.ro, hcc]
    simpa [Nat.add_assoc] using this

/-- What the device announces and uploads after a history, for the witnesses below. -/
def uploadAfter (cfg : Config) (cap : Nat) (ops : List Op) : Option Bytes :=
  (boot 0 cap).bind fun s => (run cfg s ops).bind fun r =>
    (hasLogs cfg ⟨none, [65], [66], [67], none⟩ r.2).bind fun size =>
      (logsRead cfg ⟨none, [65], [66], [67], none⟩ r.2 0 (List.replicate (size.getD 0) 0)).map Prod.snd

/-- C26 is false of the code in general: with a line that wraps around the end of the ring buffer
the message lists three lines for an announced two, and is not CBOR. -/
theorem C26_wrapped_line_breaks_upload :
    let a : Bytes := [97, 97, 97, 97]
    uploadAfter ⟨8, false, true⟩ 16
      [.save 1 0 a none, .save 1 0 [98, 98, 98, 98] none, .save 1 0 [99, 99, 99, 99] none, .trigger none] =
      some [166, 2, 4, 3, 1, 10, 97, 65, 9, 97, 66, 6, 97, 67, 4, 132, 1, 100, 98, 98, 98, 98,
        1, 98, 99, 99, 1, 98, 99, 99] ∧
    (Spec.Cbor.decode [166, 2, 4, 3, 1, 10, 97, 65, 9, 97, 66, 6, 97, 67, 4, 132, 1, 100, 98, 98, 98, 98,
        1, 98, 99, 99, 1, 98, 99, 99]).isNone = true := by
  decide +kernel

/-- C26: an empty line is counted in the announced list, but nothing is written for it. -/
theorem C26_empty_line_breaks_upload :
    uploadAfter ⟨8, false, true⟩ 16
      [.save 1 0 [] none, .save 1 0 [98, 98, 98, 98] none, .trigger none] =
      some [166, 2, 4, 3, 1, 10, 97, 65, 9, 97, 66, 6, 97, 67, 4, 132, 1, 100, 98, 98, 98, 98] ∧
    (Spec.Cbor.decode [166, 2, 4, 3, 1, 10, 97, 65, 9, 97, 66, 6, 97, 67, 4, 132, 1, 100, 98, 98,
      98, 98]).isNone = true := by
  decide +kernel

/-- An upload that meets the hypotheses, with a line saved while it is in progress. -/
example :
    uploadAfter ⟨8, false, true⟩ 32
      [.save 1 0 [97, 97] none, .save 2 1 [98, 99] none, .trigger none, .save 1 0 [100] none] =
      some [166, 2, 4, 3, 1, 10, 97, 65, 9, 97, 66, 6, 97, 67, 4, 132, 1, 98, 97, 97, 2, 66, 98, 99] ∧
    ((Spec.Log.run ⟨8, false, true⟩ (Spec.Log.init 0 32)
      [.save 1 0 [97, 97] none, .save 2 1 [98, 99] none, .trigger none, .save 1 0 [100] none]).map
      fun r => r.2.frozen) = some (some (2, none)) := by
  decide +kernel

example : Spec.Event.DeviceOk ⟨none, [65], [66], [67], none⟩ := by
  constructor <;> simp

end Mflt.Props
