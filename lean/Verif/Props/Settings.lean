import Verif.Model.Settings

/-!
# C118: the settings of the ESP32 demo application
-/

namespace Mflt.Props

open Spec.Settings Mflt.Settings

namespace SettingsAux

def nameOf : Nat → Option (List Char)
  | 0 => some "wifi_ssid".toList
  | 1 => some "wifi_password".toList
  | 2 => some "project_key".toList
  | 3 => some "led_brightness".toList
  | 4 => some "led_blink_ms".toList
  | 5 => some "chunks_url".toList
  | 6 => some "device_url".toList
  | _ => none

theorem nameOf_inj {a b : Nat} {n : List Char} (ha : nameOf a = some n) (hb : nameOf b = some n) : a = b := by
  have h : ∀ a b : Fin 7, nameOf a = nameOf b → a = b := by decide +kernel
  have la : ∀ a n, nameOf a = some n → a < 7 := by
    intro a n h
    match a, h with
    | 0, _ => omega
    | 1, _ => omega
    | 2, _ => omega
    | 3, _ => omega
    | 4, _ => omega
    | 5, _ => omega
    | 6, _ => omega
    | _ + 7, h => simp [nameOf] at h
  have := h ⟨a, la a n ha⟩ ⟨b, la b n hb⟩ (by simp [ha, hb])
  simpa using this

theorem table_eq (d : Build) (k : Nat) :
    table d k = (nameOf k).bind fun n => (initial d k).map fun v => (n, v) := by
  match k with
  | 0 => rfl
  | 1 => rfl
  | 2 => rfl
  | 3 => rfl
  | 4 => rfl
  | 5 => rfl
  | 6 => rfl
  | _ + 7 => simp [table, nameOf]

theorem table_some {d : Build} {k : Nat} {n : List Char} {v : Value} (h : table d k = some (n, v)) :
    nameOf k = some n ∧ initial d k = some v := by
  rw [table_eq] at h
  obtain ⟨m, hm, h⟩ := Option.bind_eq_some_iff.1 h
  obtain ⟨w, hw, h⟩ := Option.map_eq_some_iff.1 h
  cases h
  exact ⟨hm, hw⟩

/-- A store agrees with a history. -/
def Agrees (d : Build) (st : Store) (log : List Ev) : Prop :=
  ∀ k n v, table d k = some (n, v) → (st.lookup n).getD v ∈ possible d k log

/-- All values in a store are valid. -/
def AllValid (d : Build) (st : Store) : Prop :=
  ∀ k n w v, table d k = some (n, w) → st.lookup n = some v → Valid d k v

theorem valid_empty (d : Build) : AllValid d [] := by
  intro k n w v _ h; simp at h

structure Good (d : Build) (s : St) : Prop where
  cur : Agrees d s.cur s.log
  saved : Agrees d s.saved s.log
  plainC : AllValid d s.cur
  plainS : AllValid d s.saved

theorem agrees_empty (d : Build) (log : List Ev) : Agrees d [] (.erased :: log) := by
  intro k n v h
  simp [possible, (table_some h).2]

theorem good_fresh (d : Build) : Good d fresh := by
  constructor
  · intro k n v h; simp [fresh, possible, (table_some h).2]
  · intro k n v h; simp [fresh, possible, (table_some h).2]
  · exact valid_empty d
  · exact valid_empty d

theorem good_open {d : Build} {e : Open} {s : St} (h : Good d s) : Good d (openNvs e s).2 := by
  unfold openNvs
  split
  · exact h
  · exact h
  · split
    · have g : Good d ⟨[], [], .erased :: s.log⟩ := ⟨agrees_empty d _, agrees_empty d _, valid_empty d, valid_empty d⟩
      dsimp only
      split <;> exact g
    · exact h

theorem good_restart {d : Build} {s : St} (kept : Bool) (h : Good d s) : Good d (restart kept s) := by
  cases kept
  · exact ⟨h.saved, h.saved, h.plainS, h.plainS⟩
  · exact ⟨h.cur, h.saved, h.plainC, h.plainS⟩

theorem agrees_other {d : Build} {st : Store} {log : List Ev} {k : Nat} {v : Value} {r : Int} (hr : r ≠ 0)
    (h : Agrees d st log) : Agrees d st (.set k v r :: log) := by
  intro k' n w ht
  have := h k' n w ht
  simp only [possible]
  by_cases hk : k = k'
  · rw [if_pos hk, if_neg hr]; exact List.mem_cons_of_mem _ this
  · rw [if_neg hk]; exact this

theorem agrees_set {d : Build} {st : Store} {log : List Ev} {k : Nat} {n : List Char} {v w : Value} {r : Int}
    (ht : table d k = some (n, w)) (h : Agrees d st log) : Agrees d ((n, v) :: st) (.set k v r :: log) := by
  intro k' n' w' ht'
  have := h k' n' w' ht'
  simp only [possible, List.lookup_cons]
  by_cases hk : k = k'
  · subst hk
    rw [ht] at ht'
    cases ht'
    simp
    split <;> simp
  · have hn : (n' == n) = false := by
      refine beq_eq_false_iff_ne.2 fun e => hk ?_
      subst e
      exact nameOf_inj (table_some ht).1 (table_some ht').1
    rw [if_neg hk, hn]
    exact this

theorem agrees_invalid {d : Build} {st : Store} {log : List Ev} {k : Nat} {v : Value} {r : Int}
    (ht : table d k = none) (h : Agrees d st log) : Agrees d st (.set k v r :: log) := by
  intro k' n w ht'
  have := h k' n w ht'
  simp only [possible]
  by_cases hk : k = k'
  · subst hk; rw [ht] at ht'; cases ht'
  · rw [if_neg hk]; exact this

/-- NVS never fails to take a value and then commits: the assumption under which a result of 0 means success. -/
def Sound (d : Build) : Op → Prop
  | .set _ w c k v => (c = 0 → w = 0) ∧ Valid d k v
  | _ => True

theorem plain_cons {d : Build} {st : Store} {k : Nat} {n : List Char} {w v : Value} (ht : table d k = some (n, w))
    (hv : Valid d k v) (h : AllValid d st) : AllValid d ((n, v) :: st) := by
  intro k' n' w' v' ht' hl
  rw [List.lookup_cons] at hl
  split at hl
  · rename_i hn
    cases hl
    have hn := eq_of_beq hn
    subst hn
    rw [nameOf_inj (table_some ht').1 (table_some ht).1]
    exact hv
  · exact h _ _ _ _ ht' hl

theorem good_step {d : Build} {s t : St} {o : Op} (h : Good d s) (ho : Sound d o) (hs : step d s o = some t) :
    Good d t := by
  cases o with
  | restart kept => cases hs; exact good_restart kept h
  | get e rd key buf len =>
    obtain ⟨⟨r, b, n, u⟩, hg, rfl⟩ := Option.map_eq_some_iff.1 hs
    have hu : Good d u := by
      unfold settingsGet at hg
      split at hg
      · cases hg; exact h
      · have := good_open (e := e) h
        split at hg
        · rename_i heq; rw [heq] at this; cases hg; exact this
        · rename_i heq
          rw [heq] at this
          split at hg
          · cases hg; exact this
          · split at hg
            · cases hg; exact this
            · obtain ⟨⟨r', b', n'⟩, _, hg⟩ := Option.map_eq_some_iff.1 hg
              cases hg; exact this
    cases r
    · exact good_restart true hu
    · exact hu
  | set e w c key v =>
    obtain ⟨hwc, hv⟩ := ho
    simp only [step, settingsSet] at hs
    cases ht : table d key with
    | none =>
      rw [ht] at hs
      cases hs
      exact ⟨agrees_invalid ht h.cur, agrees_invalid ht h.saved, h.plainC, h.plainS⟩
    | some nw =>
      obtain ⟨name, w'⟩ := nw
      rw [ht] at hs
      have g := good_open (e := e) h
      rcases hq : openNvs e s with ⟨r, u⟩
      rw [hq] at g hs
      simp only at g
      cases r with
      | none => cases hs; exact good_restart true g
      | some r =>
        by_cases hr : r ≠ 0
        · simp only [if_pos hr] at hs
          cases hs
          exact ⟨agrees_other hr g.cur, agrees_other hr g.saved, g.plainC, g.plainS⟩
        · simp only [if_neg hr] at hs
          by_cases hc : c = 0
          · have hw := hwc hc
            rw [if_pos hw, if_pos hc] at hs
            cases hs
            exact ⟨agrees_set ht g.cur, agrees_set ht g.cur, plain_cons ht hv g.plainC, plain_cons ht hv g.plainC⟩
          · rw [if_neg hc] at hs
            cases hs
            by_cases hw : w = 0
            · rw [if_pos hw]
              exact ⟨agrees_set ht g.cur, agrees_other hc g.saved, plain_cons ht hv g.plainC, g.plainS⟩
            · rw [if_neg hw]
              exact ⟨agrees_other hc g.cur, agrees_other hc g.saved, g.plainC, g.plainS⟩

theorem good_run {d : Build} : ∀ (ops : List Op) {s t : St}, Good d s → (∀ o ∈ ops, Sound d o) → run d s ops = some t →
    Good d t
  | [], _, _, h, _, hr => by cases hr; exact h
  | o :: os, s, t, h, ho, hr => by
    obtain ⟨u, hu, hr⟩ := Option.bind_eq_some_iff.1 hr
    exact good_run os (good_step h (ho o (by simp)) hu) (fun o h => ho o (by simp [h])) hr

theorem text_append {s : Bytes} (hs : 0 ∉ s) (l : Bytes) : text (s ++ 0 :: l) = some s := by
  induction s with
  | nil => simp [text]
  | cons b s ih =>
    simp only [List.mem_cons, not_or] at hs
    rw [List.cons_append, text, if_neg (Ne.symm hs.1), ih hs.2]
    rfl

theorem number_bytes (v : BitVec 32) (l : Bytes) : number (bytes v ++ l) = some v := by
  simp only [bytes, List.cons_append, number, Option.some.injEq]
  apply BitVec.eq_of_toNat_eq
  have := v.isLt
  simp only [BitVec.toNat_ofNat]
  omega

theorem copy_some {src buf b : Bytes} (h : copy src buf = some b) :
    src.length ≤ buf.length ∧ b = src ++ buf.drop src.length := by
  unfold copy at h
  split at h
  · cases h; exact ⟨by assumption, rfl⟩
  · cases h

theorem strncpy_some {src buf b : Bytes} {n : Nat} (h : strncpy src n buf = some b) :
    n ≤ buf.length ∧ b = src.take n ++ List.replicate (n - src.length) 0 ++ buf.drop n := by
  unfold strncpy at h
  split at h
  · cases h; exact ⟨by assumption, rfl⟩
  · cases h

theorem nvsGet_holds {v : Value} {buf b : Bytes} {len n : Nat} (hv : Plain v)
    (h : nvsGet v buf len = some (0, b, n)) : Holds b v := by
  cases v with
  | text s =>
    simp only [nvsGet] at h
    split at h
    · cases h
    · obtain ⟨b', hb, h⟩ := Option.map_eq_some_iff.1 h
      cases h
      obtain ⟨_, rfl⟩ := copy_some hb
      simp only [Holds, List.append_assoc, List.cons_append, List.nil_append]
      exact text_append hv _
  | number w =>
    simp only [nvsGet] at h
    obtain ⟨b', hb, h⟩ := Option.map_eq_some_iff.1 h
    cases h
    obtain ⟨_, rfl⟩ := copy_some hb
    exact number_bytes w _

theorem default_holds {v : Value} {buf b : Bytes} {len n : Nat} (hv : Plain v) (hl : 0 < len) (hl' : len < 2 ^ 32)
    (hfit : ∀ s, v = .text s → s.length + 1 < len ∨ (s.length + 1 = len ∧ buf[s.length]? = some 0))
    (h : loadDefault v buf len = some (0, b, n)) : Holds b v := by
  cases v with
  | text s =>
    simp only [loadDefault] at h
    obtain ⟨b', hb, h⟩ := Option.map_eq_some_iff.1 h
    cases h
    rw [show (len + (2 ^ 32 - 1)) % 2 ^ 32 = len - 1 by omega] at hb
    obtain ⟨hle, rfl⟩ := strncpy_some hb
    simp only [Holds]
    rcases hfit s rfl with hf | ⟨hf, h0⟩
    · rw [List.take_of_length_le (by omega), show len - 1 - s.length = (len - 2 - s.length) + 1 by omega,
        List.replicate_succ]
      simp only [List.append_assoc, List.cons_append]
      exact text_append hv _
    · rw [List.take_of_length_le (by omega), show len - 1 - s.length = 0 by omega, List.replicate_zero,
        List.append_nil, show len - 1 = s.length by omega]
      obtain ⟨hlt, h0⟩ := List.getElem?_eq_some_iff.1 h0
      rw [List.drop_eq_getElem_cons hlt, h0]
      exact text_append hv _
  | number w =>
    simp only [loadDefault] at h
    obtain ⟨b', hb, h⟩ := Option.map_eq_some_iff.1 h
    cases h
    obtain ⟨_, rfl⟩ := copy_some hb
    exact number_bytes w _

end SettingsAux

open SettingsAux

/-- C118 (reading): after every history of setting, reading, restarts and failures, reading a setting with success gives
the value that was last set with success or one that was tried since then, or the default. Missing (false of the code):
setting fails and committing succeeds (`C118_false_set`); a default that fills the buffer (`C118_false_terminator`,
`C118_false_truncated`). -/
theorem C118_read_partial (d : Build) (ops : List Op) (s t : St) (e : Open) (rd : Int) (key : Nat) (buf b : Bytes)
    (len n : Nat)
    (hd : ∀ k v, initial d k = some v → Plain v)
    (hops : ∀ o ∈ ops, match o with
      | .set _ w c k v => (c = 0 → w = 0) ∧ Valid d k v
      | _ => True)
    (hrun : run d fresh ops = some s)
    (hl : 0 < len) (hl' : len < 2 ^ 32)
    (hfit : ∀ x, initial d key = some (.text x) → x.length + 1 < len ∨ (x.length + 1 = len ∧ buf[x.length]? = some 0))
    (hget : settingsGet d e rd key buf len s = some (some 0, b, n, t)) :
    ∃ v ∈ possible d key t.log, Holds b v := by
  have hs : Good d s := by
    refine good_run ops (good_fresh d) (fun o ho => ?_) hrun
    have := hops o ho
    cases o <;> exact this
  unfold settingsGet at hget
  split at hget
  · cases hget
  · rename_i name dflt ht
    have g := good_open (e := e) hs
    split at hget
    · cases hget
    · rename_i r u heq
      rw [heq] at g
      simp only at g
      split at hget
      · rename_i hr; cases hget; exact absurd rfl hr
      · split at hget
        · rename_i hr; cases hget; exact absurd rfl hr
        · obtain ⟨⟨r', b', n'⟩, hm, hget⟩ := Option.map_eq_some_iff.1 hget
          cases hget
          refine ⟨_, g.cur key name dflt ht, ?_⟩
          cases hlk : t.cur.lookup name with
          | some v =>
            rw [hlk] at hm
            exact nvsGet_holds (g.plainC _ _ _ _ ht hlk).1 hm
          | none =>
            rw [hlk] at hm
            have hi := (table_some ht).2
            refine default_holds (hd _ _ hi) hl hl' (fun x hx => hfit x ?_) hm
            rw [hi]; exact congrArg some hx

/-- Beside `C118_read_partial`: the brightness is set, committing another value fails, the device restarts: either is
read. -/
example :
    let d : Build := ⟨[1, 2], [3], [4]⟩
    let o : Open := ⟨.ok, true, .ok, 0⟩
    ∃ s, run d fresh [.set o 0 0 3 (.number 9), .set o 0 7 3 (.number 11), .restart false] = some s ∧
      possible d 3 s.log = [.number 11, .number 9] ∧
      (settingsGet d o 0 3 [7, 7, 7, 7] 4 s).map (·.1) = some (some 0) ∧
      (settingsGet d o 0 3 [7, 7, 7, 7] 4 s).map (·.2.1) = some [9, 0, 0, 0] ∧
      (settingsGet d o 0 2 [7, 7, 7, 7] 4 s).map (·.2.1) = some [1, 2, 0, 7] :=
  ⟨_, rfl, by decide, by decide, by decide, by decide⟩

namespace SettingsAux

theorem run_log {d : Build} {s : St} {ops : List Op} (hops : ∀ o ∈ ops, match o with
      | .set _ w c k v => (c = 0 → w = 0) ∧ Valid d k v
      | _ => True)
    (hrun : run d fresh ops = some s) : Good d s := by
  refine good_run ops (good_fresh d) (fun o ho => ?_) hrun
  have := hops o ho
  cases o <;> exact this

theorem nvsGet_mem {v : Value} {buf : Bytes} {len : Nat} (hl : len ≤ buf.length)
    (hn : isText v = false → 4 ≤ buf.length) :
    ∃ r b n, nvsGet v buf len = some (r, b, n) ∧ b.length = buf.length ∧ (r ≠ 0 → b = buf) ∧
      b.drop (if isText v then len else 4) = buf.drop (if isText v then len else 4) ∧
      (r = 0 ↔ ∀ s, v = .text s → s.length < len) := by
  cases v with
  | text s =>
    simp only [nvsGet]
    by_cases h : len < s.length + 1
    · rw [if_pos h]
      refine ⟨_, _, _, rfl, rfl, fun _ => rfl, rfl, ?_⟩
      simp; omega
    · rw [if_neg h, copy, if_pos (by simp; omega)]
      refine ⟨_, _, _, rfl, by simp; omega, by simp, ?_, ?_⟩
      · simp only [isText, if_true]
        rw [List.drop_append, List.drop_eq_nil_of_le (by simp; omega), List.nil_append, List.drop_drop]
        congr 1
        simp; omega
      · simp; omega
  | number w =>
    have h4 := hn rfl
    have hb : (bytes w).length = 4 := rfl
    simp only [nvsGet, copy]
    rw [if_pos (by rw [hb]; exact h4)]
    refine ⟨_, _, _, rfl, by simp [hb]; omega, by simp, ?_, by simp⟩
    simp only [isText]
    rfl

theorem default_mem {v : Value} {buf : Bytes} {len : Nat} (h0 : 0 < len) (h32 : len < 2 ^ 32) (hl : len ≤ buf.length)
    (hn : isText v = false → 4 ≤ buf.length) :
    ∃ b n, loadDefault v buf len = some (0, b, n) ∧ b.length = buf.length ∧
      b.drop (if isText v then len else 4) = buf.drop (if isText v then len else 4) := by
  cases v with
  | text s =>
    simp only [loadDefault]
    rw [show (len + (2 ^ 32 - 1)) % 2 ^ 32 = len - 1 by omega, strncpy, if_pos (by omega)]
    have hlen : (List.take (len - 1) s ++ List.replicate (len - 1 - s.length) 0).length = len - 1 := by
      simp; omega
    refine ⟨_, _, rfl, ?_, ?_⟩
    · rw [List.length_append, hlen, List.length_drop]; omega
    · simp only [isText, if_true]
      rw [List.drop_append, hlen, List.drop_eq_nil_of_le (by rw [hlen]; omega), List.nil_append, List.drop_drop]
      congr 1; omega
  | number w =>
    have h4 := hn rfl
    have hb : (bytes w).length = 4 := rfl
    simp only [loadDefault, copy]
    rw [if_pos (by rw [hb]; exact h4)]
    refine ⟨_, _, rfl, by simp [hb]; omega, ?_⟩
    simp only [isText]
    rfl

end SettingsAux

/-- C118 (memory): after every history, reading into a buffer of the given length (for numbers: of at least four bytes)
writes only to this buffer, and nothing if it fails. Missing (false of the code): a length of 0 (`C118_false_zero`). -/
theorem C118_memory_partial (d : Build) (ops : List Op) (s : St) (e : Open) (rd : Int) (key : Nat) (buf : Bytes)
    (len : Nat)
    (hops : ∀ o ∈ ops, match o with
      | .set _ w c k v => (c = 0 → w = 0) ∧ Valid d k v
      | _ => True)
    (hrun : run d fresh ops = some s)
    (h0 : 0 < len) (h32 : len < 2 ^ 32) (hl : len ≤ buf.length)
    (hn : ∀ v, initial d key = some (.number v) → 4 ≤ len) :
    ∃ r b n t, settingsGet d e rd key buf len s = some (r, b, n, t) ∧ b.length = buf.length ∧
      (r ≠ some 0 → b = buf) ∧ b.drop len = buf.drop len := by
  have hs := run_log hops hrun
  unfold settingsGet
  cases ht : table d key with
  | none => exact ⟨_, _, _, _, rfl, rfl, fun _ => rfl, rfl⟩
  | some nv =>
    obtain ⟨name, dflt⟩ := nv
    have g := good_open (e := e) hs
    have hi := (table_some ht).2
    dsimp only
    rcases hq : openNvs e s with ⟨r, u⟩
    rw [hq] at g
    simp only at g
    cases r with
    | none => exact ⟨_, _, _, _, rfl, rfl, fun _ => rfl, rfl⟩
    | some r =>
      dsimp only
      by_cases hr : r ≠ 0
      · rw [if_pos hr]; exact ⟨_, _, _, _, rfl, rfl, fun _ => rfl, rfl⟩
      · rw [if_neg hr]
        by_cases hrd : rd ≠ 0
        · rw [if_pos hrd]; exact ⟨_, _, _, _, rfl, rfl, fun _ => rfl, rfl⟩
        · rw [if_neg hrd]
          have h4 : isText dflt = false → 4 ≤ len := by
            cases dflt with
            | text x => intro h; cases h
            | number x => intro _; exact hn x hi
          have key : ∀ {b : Bytes} {v : Value}, (isText v = false → 4 ≤ len) →
              b.drop (if isText v then len else 4) = buf.drop (if isText v then len else 4) →
              b.drop len = buf.drop len := by
            intro b v h4 hb
            cases hv : isText v
            · rw [hv] at hb
              have h5 := congrArg (List.drop (len - 4)) hb
              have h6 := h4 hv
              simp only [List.drop_drop, Bool.false_eq_true, if_false, show 4 + (len - 4) = len by omega] at h5
              exact h5
            · simpa [hv] using hb
          cases hlk : u.cur.lookup name with
          | some v =>
            have hk := (g.plainC _ _ _ _ ht hlk).2 _ hi
            have h4' : isText v = false → 4 ≤ len := fun h => h4 (by rw [← hk]; exact h)
            obtain ⟨r', b, n, hg, h1, h2, h3, _⟩ := nvsGet_mem (v := v) hl (fun h => Nat.le_trans (h4' h) hl)
            refine ⟨some r', b, n, u, by simp only [hg]; rfl, h1, fun h => h2 (fun e => h (by rw [e])), key h4' h3⟩
          | none =>
            obtain ⟨b, n, hg, h1, h3⟩ := default_mem (v := dflt) h0 h32 hl (fun h => Nat.le_trans (h4 h) hl)
            refine ⟨some 0, b, n, u, by simp only [hg]; rfl, h1, fun h => absurd rfl h, key h4 h3⟩

/-- C118 (no false alarm): after every history, reading succeeds if the storage works and every value the setting can
have fits. -/
theorem C118_succeeds (d : Build) (ops : List Op) (s : St) (key : Nat) (buf : Bytes) (len : Nat) (v0 : Value)
    (hops : ∀ o ∈ ops, match o with
      | .set _ w c k v => (c = 0 → w = 0) ∧ Valid d k v
      | _ => True)
    (hrun : run d fresh ops = some s)
    (h0 : 0 < len) (h32 : len < 2 ^ 32) (hl : len ≤ buf.length)
    (hi : initial d key = some v0) (hn : ∀ v, v0 = .number v → 4 ≤ len)
    (hfit : ∀ x, .text x ∈ possible d key s.log → x.length < len) :
    ∃ b n, settingsGet d ⟨.ok, true, .ok, 0⟩ 0 key buf len s = some (some 0, b, n, s) := by
  have g := run_log hops hrun
  unfold settingsGet
  cases ht : table d key with
  | none =>
    exfalso
    rw [table_eq, hi] at ht
    match key with
    | 0 | 1 | 2 | 3 | 4 | 5 | 6 => simp [nameOf] at ht
    | _ + 7 => simp [initial] at hi
  | some nv =>
    obtain ⟨name, dflt⟩ := nv
    have hi' := (table_some ht).2
    rw [hi] at hi'
    cases hi'
    simp only [openNvs, ne_eq, not_true_eq_false, if_false]
    have h4 : isText v0 = false → 4 ≤ len := by
      cases v0 with
      | text x => intro h; cases h
      | number x => intro _; exact hn x rfl
    have hp := g.cur key name v0 ht
    cases hlk : s.cur.lookup name with
    | some v =>
      rw [hlk] at hp
      have hk := (g.plainC _ _ _ _ ht hlk).2 _ hi
      obtain ⟨r', b, n, hg, _, _, _, hr⟩ := nvsGet_mem (v := v) hl
        (fun h => Nat.le_trans (h4 (by rw [← hk]; exact h)) hl)
      have : r' = 0 := hr.2 fun x hx => hfit x (hx ▸ hp)
      subst this
      exact ⟨b, n, by simp only [hg]; rfl⟩
    | none =>
      obtain ⟨b, n, hg, _, _⟩ := default_mem (v := v0) h0 h32 hl (fun h => Nat.le_trans (h4 h) hl)
      exact ⟨b, n, by simp only [hg]; rfl⟩

/-- C118 (unknown settings): they are refused, without any effect. -/
theorem C118_unknown (d : Build) (e : Open) (rd w c : Int) (key : Nat) (buf : Bytes) (len : Nat) (v : Value) (s : St)
    (hk : initial d key = none) :
    settingsGet d e rd key buf len s = some (some 258, buf, len, s) ∧
      settingsSet d e w c key v s = (some 258, s) := by
  have : table d key = none := by rw [table_eq, hk]; cases nameOf key <;> rfl
  constructor
  · unfold settingsGet; rw [this]
  · unfold settingsSet; rw [this]

example (d : Build) : initial d 7 = none := rfl

/-- C118 (a result of 0 is not a success): NVS has no space for a value, there is nothing to commit, 0 is returned and
the old value is read. -/
theorem C118_false_set :
    ¬ ∀ (d : Build) (ops : List Op) (s t : St) (b : Bytes) (n : Nat),
      (∀ o ∈ ops, match o with
        | .set _ _ _ k v => Valid d k v
        | _ => True) →
      run d fresh ops = some s →
      settingsGet d ⟨.ok, true, .ok, 0⟩ 0 3 [0, 0, 0, 0] 4 s = some (some 0, b, n, t) →
      ∃ v ∈ possible d 3 t.log, Holds b v := by
  intro h
  let o : Open := ⟨.ok, true, .ok, 0⟩
  obtain ⟨v, hv, hh⟩ := h ⟨[], [], []⟩ [.set o 0x1105 0 3 (.number 9)] ⟨[], [], [.set 3 (.number 9) 0]⟩ _ [5, 0, 0, 0] 4
    (by
      intro o ho
      rw [List.mem_singleton] at ho
      subst ho
      exact ⟨trivial, fun w hw => by cases hw; rfl⟩) rfl rfl
  have hv : v ∈ [Value.number 9] := hv
  rw [List.mem_singleton] at hv
  subst hv
  exact absurd hh (by simp only [Holds]; decide)

/-- C118 (defaults need not be terminated): a project key of 2 bytes is read into a buffer of 3. -/
theorem C118_false_terminator :
    ∃ (d : Build) (b : Bytes) (n : Nat) (t : St),
      settingsGet d ⟨.ok, true, .ok, 0⟩ 0 2 [7, 7, 7] 3 fresh = some (some 0, b, n, t) ∧
      d.projectKey.length < 3 ∧ text b = none :=
  ⟨⟨[65, 66], [], []⟩, [65, 66, 7], 2, fresh, by decide, by decide, by decide⟩

/-- C118 (defaults are cut without an error, stored values are not). -/
theorem C118_false_truncated :
    ∃ (d : Build) (b : Bytes) (n : Nat) (t : St),
      settingsGet d ⟨.ok, true, .ok, 0⟩ 0 2 [0, 0, 0] 3 fresh = some (some 0, b, n, t) ∧
      text b ≠ some d.projectKey ∧
      ∃ s b' n' t', run d fresh [.set ⟨.ok, true, .ok, 0⟩ 0 0 2 (.text d.projectKey)] = some s ∧
        settingsGet d ⟨.ok, true, .ok, 0⟩ 0 2 [0, 0, 0] 3 s = some (some 0x110c, b', n', t') :=
  ⟨⟨[65, 66, 67], [], []⟩, [65, 66, 0], 3, fresh, by decide, by decide, _, _, _, _, rfl, rfl⟩

/-- C118 (the length of a default is that of the text, the length of a stored text counts the terminator). -/
theorem C118_false_length :
    ∃ (d : Build) (b b' : Bytes) (n n' : Nat) (s t t' : St),
      settingsGet d ⟨.ok, true, .ok, 0⟩ 0 2 [0, 0, 0] 3 fresh = some (some 0, b, n, t) ∧
      run d fresh [.set ⟨.ok, true, .ok, 0⟩ 0 0 2 (.text d.projectKey)] = some s ∧
      settingsGet d ⟨.ok, true, .ok, 0⟩ 0 2 [0, 0, 0] 3 s = some (some 0, b', n', t') ∧ b = b' ∧ n ≠ n' :=
  ⟨⟨[65, 66], [], []⟩, [65, 66, 0], [65, 66, 0], 2, 3, _, _, _, rfl, rfl, rfl, rfl, by decide⟩

/-- C118 (a length of 0): for a stored text it is too short, for a default everything behind the buffer is cleared. -/
theorem C118_false_zero (d : Build) (buf : Bytes) (h : buf.length < 2 ^ 32 - 1) :
    settingsGet d ⟨.ok, true, .ok, 0⟩ 0 2 buf 0 fresh = none := by
  have : strncpy d.projectKey (2 ^ 32 - 1) buf = none := by
    rw [strncpy, if_neg (by omega)]
  have h1 : settingsGet d ⟨.ok, true, .ok, 0⟩ 0 2 buf 0 fresh =
      ((strncpy d.projectKey ((0 + (2 ^ 32 - 1)) % 2 ^ 32) buf).map fun b =>
        ((0 : Int), b, d.projectKey.length)).map fun (r, b, n) => (some r, b, n, fresh) := rfl
  rw [h1, show (0 + (2 ^ 32 - 1)) % 2 ^ 32 = 2 ^ 32 - 1 from by decide, this]
  rfl

end Mflt.Props
