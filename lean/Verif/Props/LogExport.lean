import Verif.Spec.LogExport
import Verif.Props.DataExport
import Verif.Props.Log
import Verif.Props.CompactLog
import Verif.Props.TraceEvent

/-! # C96: exported logs; events with a compact log -/

namespace Mflt.Props

open LogExport Spec.LogExport

/-! ## Export -/

private def mlLine (piece : Bytes) : Bytes := [77, 76, 58] ++ Spec.Base64.encode piece ++ [58]

private theorem exportPiece_eq (max : Nat) (line piece : Bytes) (hc : piece.length ≤ max)
    (hl : line.length = 3 + 4 * ((max + 2) / 3) + 1 + 1) : exportPiece line piece = some (mlLine piece) := by
  have hmono : Base64.encodeLen piece.length ≤ 4 * ((max + 2) / 3) := by
    unfold Base64.encodeLen; omega
  obtain ⟨h1, h2⟩ := C07_base64_encode piece (line.drop 3) (by rw [List.length_drop]; omega)
  have ha : memcpyIn line 0 [77, 76, 58] = some ([77, 76, 58] ++ line.drop 3) := by
    unfold memcpyIn
    rw [if_pos (by simp; omega)]
    simp
  unfold exportPiece
  rw [ha]
  dsimp only
  have hd : ([77, 76, 58] ++ line.drop 3 : Bytes).drop 3 = line.drop 3 := rfl
  have ht : ([77, 76, 58] ++ line.drop 3 : Bytes).take 3 = [77, 76, 58] := rfl
  rw [hd, ht, h1]
  dsimp only
  generalize hr : (line.drop 3).drop (Base64.encodeLen piece.length) = rest
  have hrl : 2 ≤ rest.length := by
    rw [← hr, List.length_drop, List.length_drop]; omega
  obtain ⟨x, y, r, rfl⟩ : ∃ x y r, rest = x :: y :: r := by
    match rest, hrl with
    | x :: y :: r, _ => exact ⟨x, y, r, rfl⟩
  have hp : ([77, 76, 58] ++ Spec.Base64.encode piece : Bytes).length =
      3 + Base64.encodeLen piece.length := by
    rw [List.length_append, h2]; rfl
  have hb : memcpyIn ([77, 76, 58] ++ (Spec.Base64.encode piece ++ x :: y :: r))
      (3 + Base64.encodeLen piece.length) [58] =
      some (([77, 76, 58] ++ Spec.Base64.encode piece) ++ [58] ++ (y :: r)) := by
    rw [← List.append_assoc, ← hp]
    unfold memcpyIn
    rw [if_pos (by simp), List.take_left]
    rw [← List.drop_drop, List.drop_left]
    simp
  rw [hb]
  dsimp only
  have hp2 : ([77, 76, 58] ++ Spec.Base64.encode piece ++ [58] : Bytes).length =
      3 + Base64.encodeLen piece.length + 1 := by
    rw [List.length_append, hp]; rfl
  have he : memcpyIn (([77, 76, 58] ++ Spec.Base64.encode piece) ++ [58] ++ (y :: r))
      (3 + Base64.encodeLen piece.length + 1) [0] =
      some (mlLine piece ++ 0 :: r) := by
    rw [← hp2]
    unfold memcpyIn
    rw [if_pos (by simp; omega), List.take_left]
    rw [← List.drop_drop, List.drop_left]
    simp [mlLine]
  rw [he]
  dsimp only
  unfold DataExport.stringOf
  rw [if_pos (by simp)]
  congr 1
  have hno : (0 : UInt8) ∉ mlLine piece := by
    unfold mlLine
    simp only [List.mem_append, not_or]
    exact ⟨⟨by decide, encode_no_nul piece⟩, by decide⟩
  generalize mlLine piece = l at hno
  induction l with
  | nil => simp
  | cons a l ih =>
    simp only [List.mem_cons, not_or] at hno
    rw [List.cons_append, List.takeWhile_cons, ih hno.2]
    simp [Ne.symm hno.1]

private theorem parse_ml (piece : Bytes) : parseLine (mlLine piece) = some piece := by
  unfold parseLine
  have h1 : (mlLine piece).take 3 = "ML:".toUTF8.toList := by
    have : "ML:".toUTF8.toList = ([77, 76, 58] : Bytes) := by decide +kernel
    rw [this]
    unfold mlLine
    rw [List.append_assoc]
    rfl
  have h2 : (mlLine piece).getLast? = some 58 := by
    unfold mlLine; rw [List.getLast?_append]; rfl
  have h3 : 4 ≤ (mlLine piece).length := by
    unfold mlLine; simp
  rw [if_pos ⟨h1, h2, h3⟩]
  have h4 : ((mlLine piece).drop 3).dropLast = Spec.Base64.encode piece := by
    unfold mlLine
    rw [List.append_assoc]
    show (Spec.Base64.encode piece ++ [58]).dropLast = _
    simp
  rw [h4, C07_base64_roundtrip]

private theorem pieces_ok (max : Nat) (hm : 0 < max) (line : Bytes) (hl : line.length = 3 + 4 * ((max + 2) / 3) + 1 + 1)
    (level : Nat) (fuel : Nat) : ∀ left : Bytes, left.length < fuel →
    ∃ texts pieces : List Bytes, exportPieces max line level fuel left = some (texts.map (.msg level)) ∧
      texts.map parseLine = pieces.map some ∧ pieces.flatten = left ∧ ∀ p ∈ pieces, 0 < p.length ∧ p.length ≤ max := by
  induction fuel with
  | zero => intro left h; omega
  | succ fuel ih =>
    intro left h
    by_cases h0 : left.length = 0
    · refine ⟨[], [], by simp [exportPieces, h0], rfl, ?_, by simp⟩
      rw [List.length_eq_zero_iff] at h0
      rw [h0]; rfl
    · have hmin : 0 < min left.length max := by omega
      obtain ⟨texts, pieces, e1, e2, e3, e4⟩ := ih (left.drop (min left.length max)) (by rw [List.length_drop]; omega)
      have hp := exportPiece_eq max line (left.take (min left.length max)) (by rw [List.length_take]; omega) hl
      refine ⟨mlLine (left.take (min left.length max)) :: texts, left.take (min left.length max) :: pieces, ?_, ?_, ?_, ?_⟩
      · simp only [exportPieces, h0, if_false, hp, Option.bind_some, e1, Option.map_some, List.map_cons]
      · rw [List.map_cons, List.map_cons, parse_ml, e2]
      · rw [List.flatten_cons, e3, List.take_append_drop]
      · intro p hp
        rcases List.mem_cons.1 hp with rfl | hp
        · rw [List.length_take]; omega
        · exact e4 p hp

private theorem export_line (max : Nat) (hm : 0 < max) (line : Bytes) (hl : line.length = 3 + 4 * ((max + 2) / 3) + 1 + 1)
    (l : Spec.Log.Line) (ht : l.type < 2) (fuel : Nat) (hf : l.text.length < fuel) (ls : List Spec.Log.Line)
    (ps : List Printed) (hps : Prints max ls ps) :
    ∃ out, exportLog max line fuel (Spec.Log.record l) = some out ∧ Prints max (l :: ls) (out ++ ps) := by
  by_cases h1 : l.type = 1
  · obtain ⟨texts, pieces, e1, e2, e3, e4⟩ := pieces_ok max hm line hl l.level fuel l.text hf
    refine ⟨_, ?_, .compact l ls ps texts pieces h1 e2 e3 e4 hps⟩
    simp only [exportLog, Spec.Log.record, h1, if_true]
    exact e1
  · have h0 : l.type = 0 := by omega
    refine ⟨[.msg l.level l.text], ?_, .text l ls ps h0 hps⟩
    simp [exportLog, Spec.Log.record, h0]

private theorem take_none (es : List Spec.Log.Entry) (h : Spec.Log.takeUnread es = none) :
    unread es = [] ∧ es.map (fun e => { e with read := true }) = es := by
  induction es with
  | nil => exact ⟨rfl, rfl⟩
  | cons e es ih =>
    unfold Spec.Log.takeUnread at h
    by_cases hr : e.read = true
    · rw [if_pos hr] at h
      rw [Option.map_eq_none_iff] at h
      obtain ⟨h1, h2⟩ := ih h
      refine ⟨?_, ?_⟩
      · unfold unread at h1 ⊢
        rw [List.filter_cons_of_neg (by simp [hr])]
        exact h1
      · rw [List.map_cons, h2, ← hr]
    · rw [if_neg hr] at h
      simp at h

private theorem take_some (es : List Spec.Log.Entry) : ∀ (l : Spec.Log.Line) (es' : List Spec.Log.Entry),
    Spec.Log.takeUnread es = some (l, es') →
    unread es = l :: unread es' ∧ es'.map (fun e => { e with read := true }) = es.map (fun e => { e with read := true }) ∧
      (∃ e ∈ es, e.line = l) ∧ ∀ e' ∈ es', ∃ e ∈ es, e.line = e'.line := by
  induction es with
  | nil => intro l es' h; simp [Spec.Log.takeUnread] at h
  | cons e es ih =>
    intro l es' h
    unfold Spec.Log.takeUnread at h
    by_cases hr : e.read = true
    · rw [if_pos hr, Option.map_eq_some_iff] at h
      obtain ⟨⟨l2, es2⟩, h1, h2⟩ := h
      simp only [Prod.mk.injEq] at h2
      obtain ⟨rfl, rfl⟩ := h2
      obtain ⟨a, b, ⟨c, c1, c2⟩, d⟩ := ih _ _ h1
      refine ⟨?_, ?_, ⟨c, List.mem_cons_of_mem _ c1, c2⟩, ?_⟩
      · unfold unread at a ⊢
        rw [List.filter_cons_of_neg (by simp [hr]), List.filter_cons_of_neg (by simp [hr])]
        exact a
      · rw [List.map_cons, List.map_cons, b]
      · intro e' he'
        rcases List.mem_cons.1 he' with rfl | he'
        · exact ⟨_, List.mem_cons_self, rfl⟩
        · obtain ⟨x, x1, x2⟩ := d e' he'
          exact ⟨x, List.mem_cons_of_mem _ x1, x2⟩
    · rw [if_neg hr] at h
      simp only [Option.some.injEq, Prod.mk.injEq] at h
      obtain ⟨rfl, rfl⟩ := h
      refine ⟨?_, rfl, ⟨e, List.mem_cons_self, rfl⟩, ?_⟩
      · unfold unread
        rw [List.filter_cons_of_pos (by simp [hr]), List.filter_cons_of_neg (by simp)]
        rfl
      · intro e' he'
        rcases List.mem_cons.1 he' with rfl | he'
        · exact ⟨e, List.mem_cons_self, rfl⟩
        · exact ⟨e', List.mem_cons_of_mem _ he', rfl⟩

private theorem export_rel {cfg : Log.Config} (hc : Log.ConfigOk cfg) (max : Nat) (hm : 0 < max) (line : Bytes)
    (hl : line.length = 3 + 4 * ((max + 2) / 3) + 1 + 1) (T : Nat) (n : Nat) :
    ∀ (s : Log.State) (S : Spec.Log.State), Log.Rel cfg s S → S.lost = false → (unread S.entries).length = n →
      (∀ e ∈ S.entries, e.line.type < 2 ∧ e.line.text.length ≤ T) → notice S = [] → ∀ fuel, n + T + 2 ≤ fuel →
      ∃ out s', exportLogs cfg max line fuel s = some (out, s') ∧ Prints max (unread S.entries) out ∧
        Log.Rel cfg s' (allRead S) := by
  induction n with
  | zero =>
    intro s S hrel hlost hn hty hno fuel hf
    obtain ⟨f, rfl⟩ : ∃ f, fuel = f + 1 := ⟨fuel - 1, by omega⟩
    have hno' : ¬ (Spec.Log.dropped S % 2 ^ 32 ≠ S.reported % 2 ^ 32 ∧ Spec.Log.dropped S % 2 ^ 32 ≠ 0) := by
      intro h; unfold notice at hno; rw [if_pos h] at hno; simp at hno
    have hu := List.length_eq_zero_iff.1 hn
    have ht : Spec.Log.takeUnread S.entries = none := by
      cases h : Spec.Log.takeUnread S.entries with
      | none => rfl
      | some r => have := (take_some _ _ _ h).1; rw [hu] at this; simp at this
    have hs : Spec.Log.step cfg S .read = some (.nothing, { S with reported := Spec.Log.dropped S }) := by
      simp only [Spec.Log.step, hlost, Bool.false_eq_true, if_false, if_neg hno', Spec.Log.readLine, ht]
    obtain ⟨s', h1, h2, -⟩ := Log.step_rel hc hrel hs
    simp only [Log.step, Option.map_eq_some_iff] at h1
    obtain ⟨⟨o, s2⟩, h1, h3⟩ := h1
    simp only [Prod.mk.injEq] at h3
    obtain ⟨h3, rfl⟩ := h3
    have ho : o = .nothing := by cases o <;> simp [Log.ReadOut.out] at h3 ⊢
    subst ho
    refine ⟨[], s2, ?_, ?_, ?_⟩
    · simp only [exportLogs, h1, Option.bind_some]
    · rw [hu]; exact .done
    · have : allRead S = { S with reported := Spec.Log.dropped S } := by
        unfold allRead
        rw [(take_none _ ht).2, hu, List.append_nil]
      rw [this]; exact h2
  | succ n ih =>
    intro s S hrel hlost hn hty hno fuel hf
    obtain ⟨f, rfl⟩ : ∃ f, fuel = f + 1 := ⟨fuel - 1, by omega⟩
    have hno' : ¬ (Spec.Log.dropped S % 2 ^ 32 ≠ S.reported % 2 ^ 32 ∧ Spec.Log.dropped S % 2 ^ 32 ≠ 0) := by
      intro h; unfold notice at hno; rw [if_pos h] at hno; simp at hno
    cases ht : Spec.Log.takeUnread S.entries with
    | none => have := (take_none _ ht).1; rw [this] at hn; simp at hn
    | some r =>
      obtain ⟨l, es⟩ := r
      obtain ⟨a, b, ⟨c, c1, c2⟩, d⟩ := take_some _ _ _ ht
      have hs : Spec.Log.step cfg S .read = some (.log (Spec.Log.record l),
          { S with reported := Spec.Log.dropped S, entries := es, returned := S.returned ++ [l] }) := by
        simp only [Spec.Log.step, hlost, Bool.false_eq_true, if_false, if_neg hno', Spec.Log.readLine, ht]
      obtain ⟨s', h1, h2, -⟩ := Log.step_rel hc hrel hs
      simp only [Log.step, Option.map_eq_some_iff] at h1
      obtain ⟨⟨o, s2⟩, h1, h3⟩ := h1
      simp only [Prod.mk.injEq] at h3
      obtain ⟨h3, rfl⟩ := h3
      have ho : o = .log (Spec.Log.record l) := by
        cases o <;> simp [Log.ReadOut.out] at h3 ⊢
        exact h3
      subst ho
      rw [a] at hn
      obtain ⟨out, s3, e1, e2, e3⟩ := ih s2 _ h2 hlost (by simpa using hn)
        (by intro e he; obtain ⟨x, x1, x2⟩ := d e he; rw [← x2]; exact hty x x1)
        (by unfold notice; rw [if_neg]; intro h; exact h.1 rfl) f (by omega)
      have hl2 := hty c c1
      rw [c2] at hl2
      obtain ⟨o1, g1, g2⟩ := export_line max hm line hl l hl2.1 f (by omega) _ _ e2
      refine ⟨o1 ++ out, s3, ?_, ?_, ?_⟩
      · simp only [exportLogs, h1, Option.bind_some, g1, e1, Option.map_some]
      · rw [a]; exact g2
      · have : allRead S = allRead { S with reported := Spec.Log.dropped S, entries := es, returned := S.returned ++ [l] } := by
          unfold allRead
          simp only [a, b, List.append_assoc, List.singleton_append]
          rfl
        rw [this]; exact e3

/-- **C96 (export).** After any history of calls, exporting the logs prints first that lines were dropped, if some
were since the last time; then each line that was not read yet, exactly once and in order: text as it is, compact lines in
pieces from which they can be read back. Nothing is written outside of the buffer; the call ends, and afterwards all
lines are read. Histories in which an unread line that was sent is forgotten are left out (see C24). Missing:
these histories, and compact logs in the text export (`C96_false_compact_log`). -/
theorem C96_export_partial {cfg : Log.Config} (hmin : 4 ≤ cfg.maxLine) (hmax : cfg.maxLine ≤ 255)
    {minLevel cap : Nat} (h0 : 0 < cap) (hcap : cap < 2 ^ 31 - 8) (max : Nat) (hm : 0 < max) (line : Bytes)
    (hl : line.length = 3 + 4 * ((max + 2) / 3) + 1 + 1) {ops : List Spec.Log.Op}
    {outs : List Spec.Log.Out} {S : Spec.Log.State}
    (h : Spec.Log.run cfg (Spec.Log.init minLevel cap) ops = some (outs, S)) (hlost : S.lost = false) :
    ∃ s s', Log.boot minLevel cap = some s ∧ Log.run cfg s ops = some (outs, s') ∧
      ∃ enough, ∀ fuel, enough ≤ fuel → ∃ printed s'', exportLogs cfg max line fuel s' = some (notice S ++ printed, s'') ∧
        Prints max (unread S.entries) printed ∧
        ∀ ops2 outs2 S2, Spec.Log.run cfg (allRead S) ops2 = some (outs2, S2) → ∃ s2, Log.run cfg s'' ops2 = some (outs2, s2) := by
  have hc : Log.ConfigOk cfg := ⟨hmin, hmax⟩
  obtain ⟨s, b1, b2⟩ := Log.boot_rel cfg minLevel h0 hcap
  obtain ⟨s', r1, r2⟩ := Log.run_rel hc ops b2 h
  have hty : ∀ e ∈ S.entries, e.line.type < 2 ∧ e.line.text.length ≤ (S.entries.map fun e => e.line.text.length).sum := by
    have hT : ∀ es : List Spec.Log.Entry, ∀ e ∈ es, e.line.text.length ≤ (es.map fun e => e.line.text.length).sum := by
      intro es
      induction es with
      | nil => simp
      | cons x es ih =>
        intro e he
        rw [List.map_cons, List.sum_cons]
        rcases List.mem_cons.1 he with rfl | he
        · omega
        · have := ih e he; omega
    have hinv : ∀ e ∈ S.entries, e.line.type < 2 := by
      refine Spec.Log.run_induct (cfg := cfg) (P := fun T => ∀ e ∈ T.entries, e.line.type < 2) ?_ ops (by simp [Spec.Log.init]) h
      intro T op o T' hT hs
      have hroom : ∀ cap need (es : List Spec.Log.Entry), ∀ e ∈ Spec.Log.makeRoom cap need es, e ∈ es := by
        intro cap need es
        induction es with
        | nil => intro e he; exact he
        | cons x es ih =>
          intro e he
          unfold Spec.Log.makeRoom at he
          split at he
          · exact he
          · exact List.mem_cons_of_mem _ (ih e he)
      have hline : ∀ level type text now, (Spec.Log.lineOf cfg level type text now).type = type := by
        intro level type text now; unfold Spec.Log.lineOf; split <;> rfl
      have hmark : ∀ n (es : List Spec.Log.Entry), ∀ e ∈ Spec.Log.markSent n es, ∃ x ∈ es, x.line = e.line := by
        intro n es
        induction es generalizing n with
        | nil => intro e he; cases n <;> simp [Spec.Log.markSent] at he
        | cons x es ih =>
          intro e he
          cases n with
          | zero => exact ⟨e, he, rfl⟩
          | succ n =>
            unfold Spec.Log.markSent at he
            split at he
            · rcases List.mem_cons.1 he with rfl | he
              · exact ⟨_, List.mem_cons_self, rfl⟩
              · obtain ⟨y, y1, y2⟩ := ih _ e he; exact ⟨y, List.mem_cons_of_mem _ y1, y2⟩
            · rcases List.mem_cons.1 he with rfl | he
              · exact ⟨x, List.mem_cons_self, rfl⟩
              · obtain ⟨y, y1, y2⟩ := ih _ e he; exact ⟨y, List.mem_cons_of_mem _ y1, y2⟩
      cases op with
      | save level type text now =>
        unfold Spec.Log.step at hs
        dsimp only at hs
        by_cases hlt : level < 8 ∧ type < 2
        · simp only [hlt, and_self, if_true, Option.some.injEq, Prod.mk.injEq] at hs
          obtain ⟨-, rfl⟩ := hs
          unfold Spec.Log.save
          split
          · exact hT
          · dsimp only
            split
            · intro e he
              rcases List.mem_append.1 he with he | he
              · exact hT e he
              · rw [List.mem_singleton] at he; subst he; rw [hline]; exact hlt.2
            · split
              · exact hT
              · intro e he
                rcases List.mem_append.1 he with he | he
                · exact hT e (hroom _ _ _ e he)
                · rw [List.mem_singleton] at he; subst he; rw [hline]; exact hlt.2
        · rw [if_neg hlt] at hs; simp at hs
      | setMinLevel level =>
        simp only [Spec.Log.step, Option.some.injEq, Prod.mk.injEq] at hs
        obtain ⟨-, rfl⟩ := hs
        exact hT
      | read =>
        unfold Spec.Log.step at hs
        dsimp only at hs
        split at hs
        · simp at hs
        · split at hs
          · simp only [Option.some.injEq, Prod.mk.injEq] at hs
            obtain ⟨-, rfl⟩ := hs
            exact hT
          · unfold Spec.Log.readLine at hs
            cases ht : Spec.Log.takeUnread T.entries with
            | none =>
              simp only [ht, Option.some.injEq, Prod.mk.injEq] at hs
              obtain ⟨-, rfl⟩ := hs
              exact hT
            | some r =>
              obtain ⟨l, es⟩ := r
              simp only [ht, Option.some.injEq, Prod.mk.injEq] at hs
              obtain ⟨-, rfl⟩ := hs
              intro e he
              obtain ⟨-, -, -, d⟩ := take_some _ _ _ ht
              obtain ⟨x, x1, x2⟩ := d e he
              rw [← x2]; exact hT x x1
      | trigger now =>
        unfold Spec.Log.step at hs
        dsimp only at hs
        (repeat' split at hs) <;> simp only [Option.some.injEq, Prod.mk.injEq, reduceCtorEq] at hs <;>
          (obtain ⟨-, rfl⟩ := hs; exact hT)
      | markSent =>
        simp only [Spec.Log.step, Option.map_eq_some_iff, Prod.mk.injEq] at hs
        obtain ⟨f, -, -, rfl⟩ := hs
        intro e he
        obtain ⟨x, x1, x2⟩ := hmark _ _ e he
        rw [← x2]; exact hT x x1
      | unsentCount => simp only [Spec.Log.step, Option.some.injEq, Prod.mk.injEq] at hs; obtain ⟨-, rfl⟩ := hs; exact hT
      | droppedCount => simp only [Spec.Log.step, Option.some.injEq, Prod.mk.injEq] at hs; obtain ⟨-, rfl⟩ := hs; exact hT
      | recordedCount => simp only [Spec.Log.step, Option.some.injEq, Prod.mk.injEq] at hs; obtain ⟨-, rfl⟩ := hs; exact hT
    exact fun e he => ⟨hinv e he, hT _ e he⟩
  refine ⟨s, s', b1, r1, (unread S.entries).length + (S.entries.map fun e => e.line.text.length).sum + 3, fun fuel hf => ?_⟩
  have fin : ∀ (out : List Printed) (s'' : Log.State), Log.Rel cfg s'' (allRead S) →
      ∀ ops2 outs2 S2, Spec.Log.run cfg (allRead S) ops2 = some (outs2, S2) → ∃ s2, Log.run cfg s'' ops2 = some (outs2, s2) := by
    intro out s'' hr ops2 outs2 S2 h2
    obtain ⟨s2, g1, -⟩ := Log.run_rel hc ops2 hr h2
    exact ⟨s2, g1⟩
  by_cases hd : Spec.Log.dropped S % 2 ^ 32 ≠ S.reported % 2 ^ 32 ∧ Spec.Log.dropped S % 2 ^ 32 ≠ 0
  · obtain ⟨f, rfl⟩ : ∃ f, fuel = f + 1 := ⟨fuel - 1, by omega⟩
    have hs : Spec.Log.step cfg S .read =
        some (.droppedLine (Spec.Log.dropped S % 2 ^ 32), { S with reported := Spec.Log.dropped S }) := by
      simp only [Spec.Log.step, hlost, Bool.false_eq_true, if_false, if_pos hd]
    obtain ⟨s2, h1, h2, -⟩ := Log.step_rel hc r2 hs
    simp only [Log.step, Option.map_eq_some_iff] at h1
    obtain ⟨⟨o, s3⟩, h1, h3⟩ := h1
    simp only [Prod.mk.injEq] at h3
    obtain ⟨h3, rfl⟩ := h3
    have ho : o = .droppedLine (Spec.Log.dropped S % 2 ^ 32) := by
      cases o <;> simp [Log.ReadOut.out] at h3 ⊢
      exact h3
    subst ho
    obtain ⟨out, s4, e1, e2, e3⟩ := export_rel hc max hm line hl _ _ s3 _ h2 hlost rfl hty
      (by unfold notice; rw [if_neg]; intro h; exact h.1 rfl) f (by simp only; omega)
    refine ⟨out, s4, ?_, e2, fin out s4 e3⟩
    unfold notice
    rw [if_pos hd]
    simp only [exportLogs, h1, Option.bind_some, e1, Option.map_some, List.singleton_append]
  · have hno : notice S = [] := by unfold notice; rw [if_neg hd]
    obtain ⟨out, s4, e1, e2, e3⟩ := export_rel hc max hm line hl _ _ s' S r2 hlost rfl hty hno fuel (by omega)
    refine ⟨out, s4, ?_, e2, fin out s4 e3⟩
    rw [hno]; exact e1

/-- Two lines: one of text and a compact one of 5 bytes, exported in pieces of 3. -/
example : (((Log.boot 0 64).bind fun s =>
      (Log.save ⟨128, false, true⟩ s 1 0 [104, 105] none).bind fun s =>
      (Log.save ⟨128, false, true⟩ s 2 1 [77, 97, 110, 77, 97] none).bind fun s =>
        exportLogs ⟨128, false, true⟩ 3 (List.replicate 9 255) 10 s).map Prod.fst) =
    some [.msg 1 [104, 105], .msg 2 "ML:TWFu:".toUTF8.toList, .msg 2 "ML:TWE=:".toUTF8.toList] := by decide +kernel

/-! ## Events with a compact log -/

open SerializerHelper (Device computeSize Drops encodeToStorage callback andThen u32 encodeTraceEvent traceCalls)
open Cbor (emitAll callAll Call Encoder)

/-- Calls of the encoder for the information of an event with a compact log. -/
private def infoCalls (reason lr : Nat) (log : Option (List Call)) : List Call :=
  .dictionaryBegin (1 + (if lr = 0 then 0 else 1) + (if log.isSome then 1 else 0)) :: u32 6 :: u32 reason ::
    ((if lr = 0 then [] else [u32 3, u32 lr]) ++ (log.map fun l => u32 9 :: l).getD [])

private theorem encode_calls {σ : Type} (dev : Device) (time : Option Nat) (reason lr : Nat) (l : Option Bytes) (e : Encoder σ) :
    LogExport.encode dev time ⟨reason, 0, lr, none, l⟩ e =
      callAll e (SerializerHelper.eventCalls dev 2 time (infoCalls reason lr (l.map fun l => [.join l]))) := by
  rw [← SerializerHelper.encodeEvent_eq]
  have hassoc : ∀ (a b c : Encoder σ → Bool × Encoder σ) (e : Encoder σ),
      andThen (fun e => andThen a b e) c e = andThen a (fun e => andThen b c e) e := by
    intro a b c e
    unfold andThen
    cases hr : a e with
    | mk ok e' => cases ok <;> simp [hr]
  have hcalls : (u32 4 :: infoCalls reason lr (l.map fun l => [.join l]) : List Call) =
      traceCalls ⟨6, reason, 0, lr, TraceEvent.extraPairs ⟨reason, 0, lr, none, l⟩⟩ ++
        LogExport.optionalCalls ⟨reason, 0, lr, none, l⟩ := by
    by_cases h : lr = 0 <;> cases l <;> simp [infoCalls, h, traceCalls, LogExport.optionalCalls, TraceEvent.extraPairs]
  rw [hcalls]
  unfold LogExport.encode encodeTraceEvent
  simp only [SerializerHelper.callAll_append]
  exact hassoc _ _ _ e

open SerializerHelper (val)

private def infoV (reason lr : Nat) (log : Option CborVal) : CborVal :=
  .map ([val 6, val reason] ++ (if lr = 0 then [] else [val 3, val lr]) ++ (log.map fun l => [val 9, l]).getD [])

private theorem infoV_calls (reason lr : Nat) (log : Option CborVal) :
    (infoV reason lr log).calls = infoCalls reason lr (log.map CborVal.calls) := by
  by_cases h : lr = 0 <;> cases log <;> simp [infoV, infoCalls, h, CborVal.calls, CborVal.callsList, val, u32]

private theorem infoV_item {reason lr : Nat} (hr : reason < 2 ^ 32) (hl : lr < 2 ^ 32) (log : Option CborVal) :
    (infoV reason lr log).item = .map ([.uint 6, .uint reason] ++ (if lr = 0 then [] else [.uint 3, .uint lr]) ++
      (log.map fun l => [.uint 9, l.item]).getD []) := by
  by_cases h : lr = 0 <;> cases log <;>
    simp [infoV, h, CborVal.item, CborVal.items, val, Nat.mod_eq_of_lt hr, Nat.mod_eq_of_lt hl]

private theorem infoV_ok (reason lr : Nat) (log : Option CborVal) (h : ∀ l, log = some l → l.ok) : (infoV reason lr log).ok := by
  by_cases hl : lr = 0 <;> cases log <;> simp_all [infoV, CborVal.ok, CborVal.okList, val]

/-- Joining an encoded value is the same as encoding it. -/
private theorem emit_join (dev : Device) (time : Option Nat) (reason lr : Nat) (log : Option CborVal) :
    emitAll (SerializerHelper.eventCalls dev 2 time (infoCalls reason lr ((log.map fun v => emitAll v.calls).map fun l => [.join l]))) =
      emitAll (SerializerHelper.eventCalls dev 2 time (infoV reason lr log).calls) := by
  rw [infoV_calls]
  cases log with
  | none => rfl
  | some v =>
    have hj : emitAll [Call.join (emitAll v.calls)] = emitAll v.calls := by
      have := emitAll_joins [emitAll v.calls]
      simpa using this
    simp only [SerializerHelper.eventCalls, infoCalls, Option.map_some, Option.isSome_some, if_true, Option.getD_some,
      emitAll_append, emitAll_cons, List.cons_append, hj]

private theorem event_pos (dev : Device) (time : Option Nat) (info : List Call) :
    1 ≤ (emitAll (SerializerHelper.eventCalls dev 2 time info)).length := by
  unfold SerializerHelper.eventCalls
  rw [List.cons_append, emitAll_cons, List.length_append]
  have : (Cbor.emit (.dictionaryBegin (SerializerHelper.topLevelPairs dev time))).length =
      Metrics.headLen (BitVec.ofNat 32 (SerializerHelper.topLevelPairs dev time)).toNat := by
    simp [Cbor.emit, Cbor.pieces, Metrics.headBytes_length]
  have := (Metrics.headLen_le (BitVec.ofNat 32 (SerializerHelper.topLevelPairs dev time)).toNat).1
  omega

private theorem captured (start logId : BitVec 32) (isr : Bool) (reason lr : Nat) (args : List CompactLog.Arg) (hn : args.length ≤ 15)
    (hs : (emitAll (logVal (logId - start) args).calls).length ≤ 80) :
    withCompactLog start isr reason lr logId (CompactLog.compressedFmt args) args = some ⟨reason, 0, lr, none,
      (if isr then none else some (logVal (logId - start) args)).map fun v => emitAll v.calls⟩ := by
  unfold withCompactLog
  cases isr with
  | true => rfl
  | false =>
    obtain ⟨out, -, h2, h3⟩ := callAll_memcpy (logVal (logId - start) args).calls
      (List.replicate 80 0) 80 List.length_replicate
    rw [serialize_calls start _ logId args hn, h2, h3 hs]
    simp [Encoder.init, List.take_left]

/-- **C96 (events with a compact log).** A trace event is captured with a log of up to 15 arguments, whose encoding has
no more than 80 bytes, after any history of the storage. The storage then holds, behind everything else, an event
which decodes to the device, the reason, the return address and the log: the position of the format string and the
arguments. If it has no room the event is dropped and counted. In an interrupt, without support for logs
there, the event has no log. Longer logs: `C96_false_compact_log`. -/
theorem C96_compact_log_event_partial {dev : Device} (hd : Spec.Event.DeviceOk dev) (start logId : BitVec 32)
    (args : List CompactLog.Arg) (hn : args.length ≤ 15) (hok : ∀ a ∈ args, Spec.CompactLog.ArgOk a)
    {reason lr : Nat} (hr : reason < 2 ^ 32) (hlr : lr < 2 ^ 32) :
    ∃ (bytes : Bytes) (item : Spec.Cbor.Item), Spec.Cbor.decode bytes = some item ∧
      readItem item = some ((logId - start).toNat, args.map Spec.CompactLog.value) ∧
      ∀ isr, bytes.length ≤ 80 → ∃ info, withCompactLog start isr reason lr logId (CompactLog.compressedFmt args) args = some info ∧
        ∀ (time : Option Nat), computeSize (LogExport.encode dev time info) ≤ 65532 →
        ∀ {batch : Option Nat} {bufLen : Nat}, 0 < bufLen → bufLen < 2 ^ 31 →
        ∀ (before : List Spec.EventQueue.Op) {os : List Spec.EventQueue.Out} {q : Spec.EventQueue.State},
          Spec.EventQueue.run batch (Spec.EventQueue.empty bufLen) before = some (os, q) → q.pending = none →
        ∀ drops : Drops, ∃ s0 s1 s2 d2 stored, EventStorage.boot bufLen = some s0 ∧
          EventStorage.run ⟨batch⟩ s0 before = some (os, s1) ∧
          Spec.Cbor.decode stored = some (Spec.Event.event dev 2 time (.map ([.uint 6, .uint reason] ++
            (if lr = 0 then [] else [.uint 3, .uint lr]) ++ (if isr then [] else [.uint 9, item])))) ∧
          encodeToStorage (LogExport.encode dev time info) s1 drops =
            some (decide (Spec.EventQueue.used q + 2 + stored.length ≤ q.cap), s2, d2) ∧
          (q.cap < Spec.EventQueue.used q + 2 + stored.length → d2.numStorageDrops = (drops.numStorageDrops + 1) % 2 ^ 32) ∧
          ∀ after os2 q2, Spec.EventQueue.run batch (if Spec.EventQueue.used q + 2 + stored.length ≤ q.cap then
              { q with committed := q.committed ++ [stored] } else q) after = some (os2, q2) →
            ∃ s3, EventStorage.run ⟨batch⟩ s2 after = some (os2, s3) := by
  have hv := logVal_ok (logId - start) args hn hok
  refine ⟨emitAll (logVal (logId - start) args).calls, (logVal (logId - start) args).item,
    SerializerHelper.decode_emit _ hv, ?_, ?_⟩
  · simp only [logVal, CborVal.item, CborVal.items, readItem, readValues_args, Option.map_some]
  · intro isr hs
    refine ⟨_, captured start logId isr reason lr args hn hs, ?_⟩
    generalize hw : (if isr then none else some (logVal (logId - start) args)) = w
    have hwok : ∀ l, w = some l → l.ok := by
      intro l hl; rw [← hw] at hl
      cases isr
      · simp at hl; rw [← hl]; exact hv
      · simp at hl
    intro time hsize batch bufLen h0 h1 before os q hq hp drops
    have hcb : (LogExport.encode dev time ⟨reason, 0, lr, none, w.map fun v => emitAll v.calls⟩ : Encoder SerializerHelper.Ctx → _) =
        callback (SerializerHelper.eventCalls dev 2 time (infoCalls reason lr ((w.map fun v => emitAll v.calls).map fun l => [.join l]))) false := by
      funext e; rw [encode_calls]; simp [callback]
    obtain ⟨s0, e0, H0⟩ := boot_holds (b := batch) h0 h1
    obtain ⟨s1, e1, H1⟩ := run_refines before H0 hq
    have hlen : (emitAll (SerializerHelper.eventCalls dev 2 time (infoCalls reason lr ((w.map fun v => emitAll v.calls).map fun l => [.join l])))).length ≤ 65532 := by
      unfold computeSize at hsize
      rw [encode_calls, Cbor.callAll_eq_addAll, Cbor.addAll_sizeOnly _ rfl, ← Cbor.emitAll_eq] at hsize
      simpa [Encoder.initSizeOnly] using hsize
    have hdec : Spec.Cbor.decode (emitAll (SerializerHelper.eventCalls dev 2 time (infoCalls reason lr ((w.map fun v => emitAll v.calls).map fun l => [.join l])))) =
        some (Spec.Event.event dev 2 time (.map ([.uint 6, .uint reason] ++ (if lr = 0 then [] else [.uint 3, .uint lr]) ++
          (if isr then [] else [.uint 9, (logVal (logId - start) args).item])))) := by
      rw [emit_join, SerializerHelper.decode_event hd (by decide) time _ (infoV_ok reason lr w hwok), infoV_item hr hlr]
      rw [← hw]; cases isr <;> simp
    have hpos := event_pos dev time (infoCalls reason lr ((w.map fun v => emitAll v.calls).map fun l => [.join l]))
    rw [hcb]
    generalize SerializerHelper.eventCalls dev 2 time (infoCalls reason lr ((w.map fun v => emitAll v.calls).map fun l => [.join l])) = C at *
    obtain ⟨s2, f1, f2⟩ := encodeToStorage_eq H1 hp C false drops hpos hlen
    by_cases hc : Spec.EventQueue.used q + 2 + (emitAll C).length ≤ q.cap
    · obtain ⟨g1, g2⟩ := f1 ⟨rfl, hc⟩
      refine ⟨s0, s1, s2, if drops.numStorageDrops ≠ 0 then
            ⟨0, add32 drops.lastDropCount drops.numStorageDrops⟩ else drops, emitAll C, e0, e1, hdec, ?_, ?_, ?_⟩
      · rw [decide_eq_true hc]; exact g1
      · intro h; omega
      · intro after os2 q2 ha
        rw [if_pos hc] at ha
        obtain ⟨s3, e3, -⟩ := run_refines after g2 ha
        exact ⟨s3, e3⟩
    · obtain ⟨g1, g2⟩ := f2 (fun h => hc h.2)
      refine ⟨s0, s1, s2, { drops with numStorageDrops := add32 drops.numStorageDrops 1 }, emitAll C, e0, e1, hdec, ?_, ?_, ?_⟩
      · rw [decide_eq_false hc]; exact g1
      · intro _; simp only [add32]
      · intro after os2 q2 ha
        rw [if_neg hc] at ha
        obtain ⟨s3, e3, -⟩ := run_refines after g2 ha
        exact ⟨s3, e3⟩

/-- An event with reason 9 and a log with two arguments, of 7 bytes. -/
example : (withCompactLog 0x1000#32 false 9 0x2000 0x1010#32 (CompactLog.compressedFmt [.int32 5#32, .str (some [104, 105])])
      [.int32 5#32, .str (some [104, 105])]) = some ⟨9, 0, 0x2000, none, some [0x83, 0x10, 0x05, 0x62, 104, 105]⟩ ∧
    (computeSize (LogExport.encode exDev none ⟨9, 0, 0x2000, none, some [0x83, 0x10, 0x05, 0x62, 104, 105]⟩) ≤ 65532) ∧
    readItem (.array [.uint 16, .uint 5, .text [104, 105]]) = some (16, [.int32 5, .str [104, 105]]) := by decide +kernel

/-- C96 is false of logs longer than 80 bytes. The result of the serializer is not looked at: what fits is put into
the event as if it was all. Of a string of 90 characters only the head is in the event; the array announced in the log takes
what follows, so that the event, which is stored, cannot be decoded. -/
theorem C96_false_compact_log : ∃ (text : Bytes) (info : TraceEvent.Info) (stored : Bytes), text.length = 90 ∧
    withCompactLog 0x1000#32 false 9 0x2000 0x1010#32 (CompactLog.compressedFmt [.str (some text)]) [.str (some text)] = some info ∧
    ((EventStorage.boot 200).bind fun s => (encodeToStorage (LogExport.encode exDev none info) s ⟨0, 0⟩).bind fun r =>
      (EventStorage.run ⟨none⟩ r.2.1 [.hasData, .read 0 stored.length]).map fun o => (r.1, o.1)) =
      some (true, [.avail true stored.length, .data (some stored)]) ∧
    Spec.Cbor.decode stored = none := by
  refine ⟨List.replicate 90 97, ⟨9, 0, 0x2000, none, some [0x82, 0x10, 0x78, 90]⟩, [167, 2, 2, 3, 1, 7, 97, 65, 10, 97, 66, 9, 97, 49, 6, 97,
    67, 4, 163, 6, 9, 3, 25, 32, 0, 9, 130, 16, 120, 90], List.length_replicate, ?_, ?_, ?_⟩
  · decide +kernel
  · decide +kernel
  · decide +kernel

end Mflt.Props
