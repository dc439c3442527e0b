import Verif.Props.Base64
import Verif.Props.Packetizer
import Verif.Model.DataExport
import Verif.Spec.DataExport

/-! # Property C52: exported chunk lines -/

namespace Mflt.Props

open DataExport Packetizer
open Spec.Packetizer (deliveredFrom Op Out Trace Transfer IsMessage pick received)
open Spec.DataExport (parseLine Exported delivered)

theorem letter_ne (n : Nat) (h : n < 64) :
    Spec.Base64.letter n ≠ 0 := by
  have : ∀ n < 64, Spec.Base64.letter n ≠ 0 := by decide +kernel
  exact this n h

theorem encode_no_nul (b : Bytes) : (0 : UInt8) ∉ Spec.Base64.encode b := by
  intro h
  rcases C07_base64_alphabet b 0 h with h | h
  · exact absurd h (by decide)
  · exact absurd h (by decide)

/-- The line of a chunk. -/
def exportLine (chunk : Bytes) : Bytes := [77, 67, 58] ++ Spec.Base64.encode chunk ++ [58]

theorem exportChunk_eq (max : Nat) (line chunk : Bytes) (hc : chunk.length ≤ max)
    (hl : line.length = lineMaxLen max) : exportChunk max line chunk = some (exportLine chunk) := by
  have hmono : Base64.encodeLen chunk.length ≤ Base64.encodeLen max := by
    unfold Base64.encodeLen; omega
  unfold lineMaxLen at hl
  obtain ⟨h1, h2⟩ := C07_base64_encode chunk (line.drop 3) (by rw [List.length_drop]; omega)
  have ha : memcpyIn line 0 [77, 67, 58] = some ([77, 67, 58] ++ line.drop 3) := by
    unfold memcpyIn
    rw [if_pos (by simp; omega)]
    simp
  unfold exportChunk
  rw [if_neg (by omega), ha]
  dsimp only
  have hd : ([77, 67, 58] ++ line.drop 3 : Bytes).drop 3 = line.drop 3 := rfl
  have ht : ([77, 67, 58] ++ line.drop 3 : Bytes).take 3 = [77, 67, 58] := rfl
  rw [hd, ht, h1]
  dsimp only
  generalize hr : (line.drop 3).drop (Base64.encodeLen chunk.length) = rest
  have hrl : 2 ≤ rest.length := by
    rw [← hr, List.length_drop, List.length_drop]; omega
  obtain ⟨x, y, r, rfl⟩ : ∃ x y r, rest = x :: y :: r := by
    match rest, hrl with
    | x :: y :: r, _ => exact ⟨x, y, r, rfl⟩
  have hp : ([77, 67, 58] ++ Spec.Base64.encode chunk : Bytes).length =
      3 + Base64.encodeLen chunk.length := by
    rw [List.length_append, h2]; rfl
  have hb : memcpyIn ([77, 67, 58] ++ (Spec.Base64.encode chunk ++ x :: y :: r))
      (3 + Base64.encodeLen chunk.length) [58] =
      some (([77, 67, 58] ++ Spec.Base64.encode chunk) ++ [58] ++ (y :: r)) := by
    rw [← List.append_assoc, ← hp]
    unfold memcpyIn
    rw [if_pos (by simp), List.take_left]
    rw [← List.drop_drop, List.drop_left]
    simp
  rw [hb]
  dsimp only
  have hp2 : ([77, 67, 58] ++ Spec.Base64.encode chunk ++ [58] : Bytes).length =
      3 + Base64.encodeLen chunk.length + 1 := by
    rw [List.length_append, hp]; rfl
  have he : memcpyIn (([77, 67, 58] ++ Spec.Base64.encode chunk) ++ [58] ++ (y :: r))
      (3 + Base64.encodeLen chunk.length + 1) [0] =
      some (exportLine chunk ++ 0 :: r) := by
    rw [← hp2]
    unfold memcpyIn
    rw [if_pos (by simp; omega), List.take_left]
    rw [← List.drop_drop, List.drop_left]
    simp [exportLine]
  rw [he]
  dsimp only
  unfold stringOf
  rw [if_pos (by simp)]
  congr 1
  have hno : (0 : UInt8) ∉ exportLine chunk := by
    unfold exportLine
    simp only [List.mem_append, not_or]
    exact ⟨⟨by decide, encode_no_nul chunk⟩, by decide⟩
  generalize exportLine chunk = l at hno
  induction l with
  | nil => simp
  | cons a l ih =>
    simp only [List.mem_cons, not_or] at hno
    rw [List.cons_append, List.takeWhile_cons, ih hno.2]
    simp [Ne.symm hno.1]

theorem parseLine_eq (chunk : Bytes) : parseLine (exportLine chunk) = some chunk := by
  unfold parseLine
  have h1 : (exportLine chunk).take 3 = "MC:".toUTF8.toList := by
    have : "MC:".toUTF8.toList = ([77, 67, 58] : Bytes) := by decide +kernel
    rw [this]
    unfold exportLine
    rw [List.append_assoc]
    rfl
  have h2 : (exportLine chunk).getLast? = some 58 := by
    unfold exportLine; rw [List.getLast?_append]; rfl
  have h3 : 4 ≤ (exportLine chunk).length := by
    unfold exportLine; simp
  rw [if_pos ⟨h1, h2, h3⟩]
  have h4 : ((exportLine chunk).drop 3).dropLast = Spec.Base64.encode chunk := by
    unfold exportLine
    rw [List.append_assoc]
    show (Spec.Base64.encode chunk ++ [58]).dropLast = _
    simp
  rw [h4, C07_base64_roundtrip]

/-- **C52 (one line).** For every chunk up to the configured size and whatever the stack buffer held
before: nothing is written outside of it, and the string handed on is "MC:", the base64 of the chunk
and ":", from which the chunk can be read back. -/
theorem C52_line (max : Nat) (line chunk : Bytes) (hc : chunk.length ≤ max)
    (hl : line.length = lineMaxLen max) :
    ∃ l, exportChunk max line chunk = some l ∧
      l = "MC:".toUTF8.toList ++ Spec.Base64.encode chunk ++ ":".toUTF8.toList ∧
      parseLine l = some chunk := by
  refine ⟨exportLine chunk, exportChunk_eq max line chunk hc hl, ?_, parseLine_eq chunk⟩
  have h1 : "MC:".toUTF8.toList = ([77, 67, 58] : Bytes) := by decide +kernel
  have h2 : ":".toUTF8.toList = ([58] : Bytes) := by decide +kernel
  rw [h1, h2]; rfl

example : exportChunk 80 (List.replicate (lineMaxLen 80) 255) [77, 97, 110, 77] =
    some [77, 67, 58, 84, 87, 70, 117, 84, 81, 61, 61, 58] := by decide +kernel

/-- One round while a transfer is in progress. -/
theorem trySend_more {cfg : Config} (hkey : (cfg.key.getD []).length < 2 ^ 30) {max : Nat}
    {buf line : Bytes} (hb : buf.length = max) (h9 : 9 ≤ max) (hl : line.length = lineMaxLen max)
    {s : Packetizer.State} {S : Spec.Packetizer.State} (h : Rel cfg s S) {t : Transfer}
    (hc : S.cur = some t) (hm : t.multi = false) :
    ∃ chunk s' S', trySend cfg max buf line s = some (some (exportLine chunk), s') ∧
      Rel cfg s' S' ∧
      ((t.pieces.length < t.message.length / 3 + 2 ∧
        S' = { S with cur := some { t with pieces := t.pieces ++ [chunk] } }) ∨
       ∃ m rest, S.queue t.src = m :: rest ∧
        Spec.Chunk.reassemble (t.pieces ++ [chunk]) = some t.message ∧
        S' = delivered S t.src m rest) := by
  obtain ⟨b, s1, S1, h1, h2, h3, -⟩ := begin_refines hkey h false
  obtain ⟨hS, hok⟩ : S1 = S ∧ b.ok = true := by
    cases h2 with
    | nothing h4 => rw [hc] at h4; cases h4
    | start _ _ _ _ h4 => rw [hc] at h4; cases h4
    | resume t' h4 => exact ⟨rfl, rfl⟩
  subst hS
  obtain ⟨o, s2, S2, h4, h5, h6⟩ := next_refines h3 buf
  have hg : getChunk cfg s buf = some (decide (o.status = .endOfChunk), o.buf, o.len, s2) := by
    unfold getChunk
    rw [h1, Option.bind_some]
    simp only [hok, Bool.not_true, Bool.false_eq_true, if_false]
    rw [h4, Option.map_some]
  unfold trySend
  rw [hg]
  cases h5 with
  | idle _ h7 => rw [hc] at h7; cases h7
  | small _ _ h7 h8 => omega
  | more t' _ buf' len h7 h8 h9' h10 h11 h12 =>
    obtain rfl : t = t' := by rw [hc] at h7; injection h7
    simp only [hm, Bool.false_eq_true, if_false, decide_true]
    rw [exportChunk_eq max line _ (by simp; omega) hl]
    exact ⟨buf'.take len, s2, _, rfl, h6, Or.inl ⟨h12, by rw [hm]⟩⟩
  | last t' _ buf' len m rest h7 h8 h9' h10 h11 h12 h13 =>
    obtain rfl : t = t' := by rw [hc] at h7; injection h7
    simp only [decide_true]
    rw [exportChunk_eq max line _ (by simp; omega) hl]
    unfold received at h12
    rw [hm] at h12
    exact ⟨buf'.take len, s2, _, rfl, h6, Or.inr ⟨m, rest, h13, h12, rfl⟩⟩

/-- Completing a transfer. -/
theorem dump_transfer {cfg : Config} (hkey : (cfg.key.getD []).length < 2 ^ 30) {max : Nat}
    {buf line : Bytes} (hb : buf.length = max) (h9 : 9 ≤ max) (hl : line.length = lineMaxLen max)
    (bound : Nat) : ∀ {s : Packetizer.State} {S : Spec.Packetizer.State} {t : Transfer}, Rel cfg s S →
    S.cur = some t → t.multi = false → t.message.length / 3 + 2 - t.pieces.length < bound →
    ∃ group s' m rest k, S.queue t.src = m :: rest ∧
      Spec.Chunk.reassemble (t.pieces ++ group) = some t.message ∧
      Rel cfg s' (delivered S t.src m rest) ∧
      ∀ n, dump cfg max buf line (k + n) s =
        match dump cfg max buf line n s' with
        | none => none
        | some (ls, s) => some (group.map exportLine ++ ls, s) := by
  induction bound with
  | zero => intro s S t _ _ _ h; omega
  | succ bound ih =>
    intro s S t h hc hm hlt
    obtain ⟨chunk, s1, S1, h1, h2, h3⟩ := trySend_more hkey hb h9 hl h hc hm
    rcases h3 with ⟨h4, rfl⟩ | ⟨m, rest, h4, h5, rfl⟩
    · obtain ⟨group, s', m, rest, k, h5, h6, h7, h8⟩ := ih h2 rfl hm (by
        simp only [List.length_append, List.length_singleton]; omega)
      refine ⟨chunk :: group, s', m, rest, k + 1, h5, ?_, ?_, ?_⟩
      · rw [← h6]; simp
      · exact h7
      · intro n
        rw [show k + 1 + n = (k + n) + 1 by omega, dump, h1]
        dsimp only
        rw [h8]
        cases dump cfg max buf line n s' with
        | none => rfl
        | some p => rfl
    · refine ⟨[chunk], s1, m, rest, 1, h4, h5, h2, ?_⟩
      intro n
      rw [Nat.add_comm, dump, h1]
      dsimp only
      cases dump cfg max buf line n s1 with
      | none => rfl
      | some p => rfl

/-- The number of stored messages. -/
def stored (S : Spec.Packetizer.State) : Nat :=
  (S.queue .coredump).length + (S.queue .event).length + (S.queue .log).length + (S.queue .cdr).length

theorem stored_delivered {S : Spec.Packetizer.State} {src : Src} {m : Bytes} {rest : List Bytes}
    (h : S.queue src = m :: rest) : stored (delivered S src m rest) < stored S := by
  have hl := congrArg List.length h
  rw [List.length_cons] at hl
  unfold stored delivered
  cases src <;> simp <;> omega

theorem dump_all {cfg : Config} (hkey : (cfg.key.getD []).length < 2 ^ 30) {max : Nat}
    {buf line : Bytes} (hb : buf.length = max) (h9 : 9 ≤ max) (hl : line.length = lineMaxLen max)
    (bound : Nat) : ∀ {s : Packetizer.State} {S : Spec.Packetizer.State}, Rel cfg s S →
    (∀ t, S.cur = some t → t.multi = false) → stored S < bound →
    ∃ chunks s' S' k, Exported cfg S chunks S' ∧ Rel cfg s' S' ∧
      dump cfg max buf line k s = some (chunks.map exportLine, s') := by
  induction bound with
  | zero => intro s S _ _ h; omega
  | succ bound ih =>
    intro s S h hm hlt
    cases hc : S.cur with
    | some t =>
      obtain ⟨group, s1, m, rest, k, h1, h2, h3, h4⟩ :=
        dump_transfer hkey hb h9 hl _ h hc (hm t hc) (Nat.lt_succ_self _)
      obtain ⟨chunks, s', S', k', h5, h6, h7⟩ := ih h3 (by intro t ht; cases ht)
        (by have := stored_delivered h1; omega)
      refine ⟨group ++ chunks, s', S', k + k', .continued S S' t m rest group chunks hc h1 h2 h5, h6, ?_⟩
      rw [h4, h7, List.map_append]
    | none =>
      obtain ⟨b, s1, S1, h1, h2, h3, -⟩ := begin_refines hkey h false
      cases h2 with
      | nothing h4 h5 =>
        refine ⟨[], s1, S, 1, .nothing S hc h5, h3, ?_⟩
        rw [dump]
        unfold trySend getChunk
        rw [h1]
        rfl
      | resume t h4 => rw [hc] at h4; cases h4
      | start src m rest message h4 h5 h6 h7 =>
        obtain ⟨group, s2, m', rest', k, h8, h10, h11, h12⟩ :=
          dump_transfer hkey hb h9 hl _ h3 rfl rfl (Nat.lt_succ_self _)
        obtain ⟨rfl, rfl⟩ : m = m' ∧ rest = rest' := by
          rw [h6] at h8
          injection h8 with h13 h14
          exact ⟨h13, h14⟩
        have hd : stored (delivered S src m rest) < stored S := stored_delivered h6
        obtain ⟨chunks, s', S', k', h13, h14, h15⟩ := ih h11 (by intro t ht; cases ht)
          (Nat.lt_of_lt_of_le hd (by omega))
        refine ⟨group ++ chunks, s', S', k + k',
          .message S S' src m message rest group chunks hc h5 h6 h7 h10 h13, h14, ?_⟩
        have hmsg : s1.msg.isNone = false := by
          have h16 : Sending cfg s1 _ := h3.cur
          rw [h16.msg]; rfl
        have hbegin : ∃ b', begin' cfg false s1 = some (b', s1) ∧ b'.ok = true := by
          unfold begin'
          rw [hmsg]
          exact ⟨_, rfl, rfl⟩
        obtain ⟨b', hb1, hb2⟩ := hbegin
        have hget : trySend cfg max buf line s = trySend cfg max buf line s1 := by
          unfold trySend getChunk
          rw [h1, hb1, Option.bind_some, Option.bind_some]
          simp [hb2]
        have hsame : dump cfg max buf line (k + k') s = dump cfg max buf line (k + k') s1 := by
          cases k + k' with
          | zero => rfl
          | succ n => rw [dump, dump, hget]
        rw [hsame, h12, h15, List.map_append]

theorem held_delivered {S : Spec.Packetizer.State} {src : Src} {m : Bytes} {rest : List Bytes}
    (h : S.queue src = m :: rest) (x : Src) : held (delivered S src m rest) x = held S x := by
  unfold held delivered
  by_cases hx : x = src
  · subst hx; simp [deliveredFrom, h]
  · have : ¬ src = x := fun h => hx h.symm
    simp [deliveredFrom, hx, this]

theorem exported_end {cfg : Config} {S S' : Spec.Packetizer.State} {chunks : List Bytes}
    (h : Exported cfg S chunks S') : S'.cur = none ∧ pick S' = none ∧ S'.mask = S.mask ∧
      ∀ src, held S' src = held S src := by
  induction h with
  | nothing S h1 h2 => exact ⟨h1, h2, rfl, fun _ => rfl⟩
  | message S S' src m message rest group chunks h1 h2 h3 h4 h5 h6 ih =>
    refine ⟨ih.1, ih.2.1, ih.2.2.1, fun x => ?_⟩
    rw [ih.2.2.2 x]
    exact held_delivered h3 x
  | continued S S' t m rest group chunks h1 h3 h5 h6 ih =>
    refine ⟨ih.1, ih.2.1, ih.2.2.1, fun x => ?_⟩
    rw [ih.2.2.2 x]
    exact held_delivered h3 x

theorem dump_more {cfg : Config} {max : Nat} {buf line : Bytes} (n : Nat) :
    ∀ {k : Nat} {s : Packetizer.State} {r}, dump cfg max buf line k s = some r →
      dump cfg max buf line (k + n) s = some r := by
  intro k
  induction k with
  | zero => intro s r h; cases h
  | succ k ih =>
    intro s r h
    rw [show k + 1 + n = (k + n) + 1 by omega, dump]
    rw [dump] at h
    cases ht : trySend cfg max buf line s with
    | none => rw [ht] at h; cases h
    | some p =>
      obtain ⟨l, s'⟩ := p
      rw [ht] at h
      cases l with
      | none => exact h
      | some l =>
        dsimp only at h ⊢
        cases hd : dump cfg max buf line k s' with
        | none => rw [hd] at h; cases h
        | some q => rw [hd] at h; rw [ih hd]; exact h

theorem dump_short {cfg : Config} {max : Nat} {buf line : Bytes} (hl : line.length = lineMaxLen max) :
    ∀ {k : Nat} {s : Packetizer.State} {ls s'}, dump cfg max buf line k s = some (ls, s') →
      ∀ l ∈ ls, l.length < lineMaxLen max := by
  intro k
  induction k with
  | zero => intro s ls s' h; cases h
  | succ k ih =>
    intro s ls s' h l hm
    rw [dump] at h
    cases ht : trySend cfg max buf line s with
    | none => rw [ht] at h; cases h
    | some p =>
      obtain ⟨o, s1⟩ := p
      rw [ht] at h
      cases o with
      | none => cases h; cases hm
      | some l1 =>
        dsimp only at h
        cases hd : dump cfg max buf line k s1 with
        | none => rw [hd] at h; cases h
        | some q =>
          obtain ⟨ls1, s2⟩ := q
          rw [hd] at h
          cases h
          rcases List.mem_cons.mp hm with rfl | hm
          · unfold trySend at ht
            split at ht
            · cases ht
            · cases ht
            · rename_i b len s3 hg
              cases he : exportChunk max line (List.take len b) with
              | none => rw [he] at ht; cases ht
              | some l3 =>
                rw [he] at ht
                cases ht
                by_cases hc : (List.take len b).length ≤ max
                · rw [exportChunk_eq max line _ hc hl] at he
                  cases he
                  unfold exportLine lineMaxLen
                  obtain ⟨-, h2⟩ := C07_base64_encode (List.take len b)
                    (List.replicate (Base64.encodeLen (List.take len b).length) 0) (by simp)
                  have hmono : Base64.encodeLen (List.take len b).length ≤ Base64.encodeLen max := by
                    unfold Base64.encodeLen; omega
                  rw [List.length_append, List.length_append, h2]
                  simp only [List.length_cons, List.length_nil]
                  omega
                · unfold exportChunk at he
                  rw [if_pos hc] at he
                  cases he
          · exact ih hd l hm

/-- **C52 (dumping everything), for all histories in which no multi-call transfer is in progress.**
The dump ends, for every chunk size of at least nine bytes and whatever the stack buffers held. Each
printed line fits its buffer and parses to a chunk; the chunks are complete transfers of the messages
the enabled sources hold, in order of priority, starting with the rest of a transfer in progress. All
enabled sources are empty then, and nothing was dropped: the messages delivered and those still
stored are exactly the messages stored in the history.

Missing from the full property: a multi-call transfer in progress, see
`C52_false_transfer_in_progress`. -/
theorem C52_dump_partial (cfg : Config) (hkey : (cfg.key.getD []).length < 2 ^ 30)
    (max : Nat) (h9 : 9 ≤ max) (buf line : Bytes) (hb : buf.length = max)
    (hl : line.length = lineMaxLen max)
    (ops : List Op) (hops : ∀ src m, Op.enqueue src m ∈ ops → m.length < 2 ^ 30) :
    ∃ os s S, Packetizer.run cfg boot ops = some (os, s) ∧
      Trace cfg Spec.Packetizer.init ops os S ∧
      ((∀ t, S.cur = some t → t.multi = false) →
        ∃ lines chunks s' S' k, (∀ n, k ≤ n → dump cfg max buf line n s = some (lines, s')) ∧
          (∀ l ∈ lines, l.length < lineMaxLen max) ∧
          lines.map parseLine = chunks.map some ∧
          Exported cfg S chunks S' ∧ S'.queue = s'.queue ∧
          (∀ src, S.mask.testBit (Spec.Packetizer.code src) = true → s'.queue src = []) ∧
          ∀ src, deliveredFrom src S'.delivered ++ s'.queue src =
            Spec.Packetizer.enqueued src ops) := by
  obtain ⟨os, s, S, h1, h2, h3⟩ := run_refines' hkey ops (boot_rel cfg) hops
  refine ⟨os, s, S, h1, h2, fun hm => ?_⟩
  obtain ⟨chunks, s', S', k, h4, h5, h6⟩ := dump_all hkey hb h9 hl _ h3 hm (Nat.lt_succ_self _)
  obtain ⟨h7, h8, h10, h11⟩ := exported_end h4
  refine ⟨chunks.map exportLine, chunks, s', S', k, ?_, dump_short hl h6, ?_, h4, h5.queue, ?_, ?_⟩
  · intro n hn
    have := dump_more (n - k) h6
    rwa [show k + (n - k) = n by omega] at this
  · rw [List.map_map]
    exact List.map_congr_left fun c _ => parseLine_eq c
  · intro src hs
    rw [← h5.queue]
    unfold pick at h8
    rw [List.find?_eq_none] at h8
    have := h8 src (by cases src <;> decide)
    unfold Spec.Packetizer.sendable at this
    rw [h10, hs] at this
    simpa using this
  · intro src
    have h12 := held_trace h2 src
    rw [← h11 src] at h12
    unfold held at h12
    rw [h5.queue] at h12
    simpa [Spec.Packetizer.init, deliveredFrom] using h12

/-- Non-vacuous: two events and a run-length encoded coredump, nine bytes per chunk. -/
example : ((Packetizer.run ⟨true, none⟩ boot [.enqueue .event [5, 6], .enqueue .coredump [7, 7, 7, 7],
    .enqueue .event [1, 2, 3, 4, 5, 6, 7]]).bind fun r =>
      dump ⟨true, none⟩ 9 (List.replicate 9 7) (List.replicate (lineMaxLen 9) 255) 10 r.2).map (·.1) =
    some ["MC:CIEIByT1:".toUTF8.toList, "MC:CAIFBlPx:".toUTF8.toList,
      "MC:SAgCAQIDBAUG:".toUTF8.toList, "MC:gAcHFak=:".toUTF8.toList] := by decide +kernel

/-- **C52 is false when a multi-call transfer is in progress**: the first dump prints nothing, the
second one prints a line whose bytes are no chunk of anything, and the event is gone. -/
theorem C52_false_transfer_in_progress :
    ∃ s r1 r2 l, (Packetizer.run ⟨true, none⟩ boot
        [.enqueue .event [1, 2, 3, 4, 5, 6, 7, 8], .begin true]).map (·.2) = some s ∧
      dump ⟨true, none⟩ 9 (List.replicate 9 7) (List.replicate (lineMaxLen 9) 255) 10 s = some r1 ∧
      r1.1 = [] ∧
      dump ⟨true, none⟩ 9 (List.replicate 9 7) (List.replicate (lineMaxLen 9) 255) 10 r1.2 = some r2 ∧
      r2.1 = [l] ∧ parseLine l = some [8, 203, 176] ∧
      Spec.Chunk.reassemble [[8, 203, 176]] = none ∧ r2.2.queue .event = [] := by
  have h : ((Packetizer.run ⟨true, none⟩ boot
      [.enqueue .event [1, 2, 3, 4, 5, 6, 7, 8], .begin true]).bind fun s =>
    (dump ⟨true, none⟩ 9 (List.replicate 9 7) (List.replicate (lineMaxLen 9) 255) 10 s.2).bind fun r1 =>
    (dump ⟨true, none⟩ 9 (List.replicate 9 7) (List.replicate (lineMaxLen 9) 255) 10 r1.2).map fun r2 =>
      (r1.1, r2.1, r2.2.queue .event)) =
    some ([], ["MC:CMuw:".toUTF8.toList], []) := by decide +kernel
  rw [Option.bind_eq_some_iff] at h
  obtain ⟨s, h1, h⟩ := h
  rw [Option.bind_eq_some_iff] at h
  obtain ⟨r1, h2, h⟩ := h
  rw [Option.map_eq_some_iff] at h
  obtain ⟨r2, h3, h⟩ := h
  injection h with h4 h
  injection h with h5 h6
  exact ⟨s.2, r1, r2, _, by rw [h1]; rfl, h2, h4, h3, h5, by decide +kernel, by decide +kernel, h6⟩

end Mflt.Props
