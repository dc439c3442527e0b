import Verif.Spec.BuildId

/-! # C64: build id and unique version strings -/

namespace Mflt.Props

open Mflt.BuildId Mflt.Spec.BuildId

theorem nib_digit : ∀ n : Fin 16, nibToHex (UInt8.ofNat n.val) = digit n.val := by decide

theorem undigit_digit : ∀ n : Fin 16, undigit (digit n.val) = some n.val := by decide

theorem digit_ne_zero : ∀ n : Fin 16, digit n.val ≠ 0 := by decide

theorem high_nibble (c : UInt8) : (c >>> 4) &&& 0xf = UInt8.ofNat (c.toNat / 16) := by
  apply UInt8.toNat_inj.mp
  have := c.toNat_lt
  rw [UInt8.toNat_and, UInt8.toNat_shiftRight, UInt8.toNat_ofNat']
  show (c.toNat >>> 4) &&& (2 ^ 4 - 1) = _
  rw [Nat.and_two_pow_sub_one_eq_mod, Nat.shiftRight_eq_div_pow]
  omega

theorem low_nibble (c : UInt8) : c &&& 0xf = UInt8.ofNat (c.toNat % 16) := by
  apply UInt8.toNat_inj.mp
  have := c.toNat_lt
  rw [UInt8.toNat_and, UInt8.toNat_ofNat']
  show c.toNat &&& (2 ^ 4 - 1) = _
  rw [Nat.and_two_pow_sub_one_eq_mod]
  omega

theorem hex_length (bs : Bytes) : (hex bs).length = 2 * bs.length := by
  induction bs with
  | nil => rfl
  | cons b bs ih =>
    rw [hex, List.flatMap_cons, List.length_append, ← hex, ih]
    simp only [List.length_cons, List.length_nil]; omega

theorem hex_cons (b : UInt8) (bs : Bytes) :
    hex (b :: bs) = digit (b.toNat / 16) :: digit (b.toNat % 16) :: hex bs := by
  rw [hex, List.flatMap_cons]; rfl

theorem hex_getElem? (bs : Bytes) (i : Nat) :
    (hex bs)[i]? = (bs[i / 2]?).map fun (c : UInt8) =>
      nibToHex (if i % 2 = 0 then (c >>> 4) &&& 0xf else c &&& 0xf) := by
  induction bs generalizing i with
  | nil => simp [hex]
  | cons b bs ih =>
    have := b.toNat_lt
    rw [hex_cons]
    match i with
    | 0 =>
      simp only [List.getElem?_cons_zero, Nat.zero_div, Option.map_some, Nat.zero_mod, if_pos]
      rw [high_nibble, ← nib_digit ⟨b.toNat / 16, by omega⟩]
    | 1 =>
      simp only [List.getElem?_cons_succ, List.getElem?_cons_zero, Option.map_some,
        show 1 / 2 = 0 from rfl, show ¬ (1 % 2 = 0) by decide, if_false]
      rw [low_nibble, ← nib_digit ⟨b.toNat % 16, by omega⟩]
    | i + 2 =>
      rw [List.getElem?_cons_succ, List.getElem?_cons_succ, ih, show (i + 2) / 2 = i / 2 + 1 by omega,
        List.getElem?_cons_succ, show (i + 2) % 2 = i % 2 by omega]

theorem hex_no_nul (bs : Bytes) : (0 : UInt8) ∉ hex bs := by
  induction bs with
  | nil => simp [hex]
  | cons b bs ih =>
    have := b.toNat_lt
    rw [hex_cons]
    simp only [List.mem_cons, not_or]
    exact ⟨fun h => digit_ne_zero ⟨b.toNat / 16, by omega⟩ h.symm,
      fun h => digit_ne_zero ⟨b.toNat % 16, by omega⟩ h.symm, ih⟩

theorem unhex_hex (bs : Bytes) : unhex (hex bs) = some bs := by
  induction bs with
  | nil => rfl
  | cons b bs ih =>
    have := b.toNat_lt
    rw [hex_cons, unhex, undigit_digit ⟨b.toNat / 16, by omega⟩, undigit_digit ⟨b.toNat % 16, by omega⟩,
      ih]
    simp only [Option.bind_some, Option.map_some]
    rw [show b.toNat / 16 * 16 + b.toNat % 16 = b.toNat by omega]
    simp

/-- What the loop leaves in the buffer. -/
theorem stringLoop_eq (id : Bytes) (start left i : Nat) (buf : Bytes) (h1 : i + left ≤ 2 * id.length)
    (h2 : start + i + left ≤ buf.length) :
    stringLoop id start left i buf =
      some (buf.take (start + i) ++ ((hex id).drop i).take left ++ buf.drop (start + i + left)) := by
  induction left generalizing i buf with
  | zero => simp [stringLoop]
  | succ left ih =>
    have hi : i / 2 < id.length := by omega
    have hg := hex_getElem? id i
    rw [List.getElem?_eq_getElem hi, Option.map_some] at hg
    have hl := hex_length id
    rw [stringLoop, List.getElem?_eq_getElem hi]
    simp only
    generalize hc : nibToHex _ = c at hg ⊢
    have hm : memcpyIn buf (start + i) [c] =
        some (buf.take (start + i) ++ [c] ++ buf.drop (start + i + 1)) := by
      rw [memcpyIn, if_pos (by simp; omega)]; rfl
    have hlen : (buf.take (start + i) ++ [c]).length = start + (i + 1) := by
      simp only [List.length_append, List.length_take, List.length_singleton]; omega
    rw [hm, Option.bind_some, ih (i + 1) _ (by omega) (by
      simp only [List.length_append, List.length_take, List.length_singleton, List.length_drop]; omega)]
    have hd : (hex id).drop i = c :: (hex id).drop (i + 1) := by
      have hlt : i < (hex id).length := by omega
      rw [List.drop_eq_getElem_cons hlt]
      rw [List.getElem?_eq_getElem hlt] at hg
      simp only [Option.some.injEq] at hg
      rw [hg]
    rw [hd, List.take_succ_cons]
    have t1 : (buf.take (start + i) ++ [c] ++ buf.drop (start + i + 1)).take (start + (i + 1)) =
        buf.take (start + i) ++ [c] := by
      rw [← hlen, List.take_left]
    have t2 : (buf.take (start + i) ++ [c] ++ buf.drop (start + i + 1)).drop (start + (i + 1) + left) =
        buf.drop (start + i + (left + 1)) := by
      rw [← hlen, List.drop_append, List.drop_eq_nil_of_le (by omega), List.nil_append, List.drop_drop]
      congr 1
      omega
    rw [t1, t2]
    simp

theorem infoRead_hasId {g : Id} {id : Bytes} (h : HasId g id) : infoRead g = some (some id) := by
  cases h with
  | memfault _ rest h =>
    simp only [infoRead, startPointer, if_pos, memcpyOut, List.length_append, h]
    rw [if_pos (by omega)]
    simp only [List.drop_zero, Option.map_some]
    rw [← h, List.take_left]
  | gnu n0 n1 n2 n3 sizes name _ rest hs hn h =>
    have e : startPointer ⟨2, [n0, n1, n2, n3] ++ sizes ++ name ++ id ++ rest⟩ =
        some ([n0, n1, n2, n3] ++ sizes ++ name).length := by
      simp only [startPointer, List.length_append, hs, hn, List.length_cons, List.length_nil]
      rfl
    simp only [infoRead, e, memcpyOut]
    rw [if_pos (by simp only [List.length_append, h]; omega)]
    simp only [Option.map_some, Option.some.injEq]
    rw [List.append_assoc _ id rest, List.drop_left, ← h, List.take_left]

theorem hasId_length {g : Id} {id : Bytes} (h : HasId g id) : id.length = 20 := by
  cases h <;> assumption

theorem infoRead_noId {g : Id} (h : NoId g) : infoRead g = some none := by
  simp only [infoRead, startPointer, if_neg h.1, if_neg h.2]

/-- What `memfault_build_id_get_string` leaves in the middle of a buffer. -/
theorem getString_at {g : Id} {id : Bytes} (h : HasId g id) (buf : Bytes) (start bufLen : Nat)
    (h2 : 2 ≤ bufLen) (hb : start + bufLen ≤ buf.length) :
    getString g buf start bufLen = some (true, buf.take start ++ (hex id).take (bufLen - 1) ++ [0] ++
      buf.drop (start + ((hex id).take (bufLen - 1)).length + 1)) := by
  have hid := hasId_length h
  have hl := hex_length id
  rw [getString, infoRead_hasId h, Option.bind_some]
  simp only
  rw [if_neg (by omega), stringLoop_eq id start _ 0 buf (by omega) (by omega), Option.bind_some]
  have e : ((hex id).drop 0).take (min (20 * 2) (bufLen - 1)) = (hex id).take (bufLen - 1) := by
    rw [List.drop_zero]
    rcases Nat.le_total (20 * 2) (bufLen - 1) with hc | hc
    · rw [Nat.min_eq_left hc, List.take_of_length_le (by omega), List.take_of_length_le (by omega)]
    · rw [Nat.min_eq_right hc]
  have el : ((hex id).take (bufLen - 1)).length = min (20 * 2) (bufLen - 1) := by
    rw [List.length_take]; omega
  rw [e, Nat.add_zero]
  generalize (hex id).take (bufLen - 1) = t at *
  rw [← el]
  have hx : (buf.take start ++ t).length = start + t.length := by
    rw [List.length_append, List.length_take]; omega
  rw [memcpyIn, if_pos (by
    simp only [List.length_append, List.length_take, List.length_drop, List.length_singleton]; omega)]
  rw [← hx, List.take_left, List.length_singleton]
  have hd : (buf.take start ++ t ++ buf.drop (start + t.length)).drop ((buf.take start ++ t).length + 1) =
      buf.drop (start + t.length + 1) := by
    rw [List.drop_append, List.drop_eq_nil_of_le (by omega), List.nil_append, List.drop_drop]
    congr 1
    omega
  rw [hx] at hd ⊢
  rw [hd]
  rfl

/-- **C64.** When the binary has a build id, a buffer of at least two bytes receives its hexadecimal
text, cut to the length that fits, and a terminator; the bytes behind it are not touched. A shorter
buffer, or a binary without build id, gives `false` and leaves the buffer alone. -/
theorem C64_build_id_string (g : Id) (buf : Bytes) :
    (∀ id, HasId g id → 2 ≤ buf.length →
      getString g buf 0 buf.length = some (true, (hex id).take (buf.length - 1) ++ [0] ++
        buf.drop (((hex id).take (buf.length - 1)).length + 1))) ∧
    (∀ id, HasId g id → buf.length < 2 → getString g buf 0 buf.length = some (false, buf)) ∧
    (NoId g → getString g buf 0 buf.length = some (false, buf)) := by
  refine ⟨?_, ?_, ?_⟩
  · intro id h h2
    rw [getString_at h buf 0 buf.length h2 (by omega)]
    simp only [List.take_zero, List.nil_append, Nat.zero_add]
  · intro id h h2
    rw [getString, infoRead_hasId h, Option.bind_some]
    simp only
    rw [if_pos h2]
  · intro h
    rw [getString, infoRead_noId h, Option.bind_some]

/-- The text identifies the build: a buffer of 41 bytes holds all of it, and it can be read back. -/
theorem C64_build_id_identifies (g : Id) (id buf : Bytes) (h : HasId g id) (hb : 41 ≤ buf.length) :
    ∃ buf', getString g buf 0 buf.length = some (true, buf') ∧
      ∃ text, cstring buf' = some text ∧ unhex text = some id := by
  refine ⟨_, (C64_build_id_string g buf).1 id h (by omega), hex id, ?_, unhex_hex id⟩
  rw [List.take_of_length_le (by rw [hex_length, hasId_length h]; omega), cstring, if_pos (by simp),
    List.append_assoc, List.takeWhile_append_of_pos (by
      intro x hx
      have := hex_no_nul id
      simp only [ne_eq, decide_eq_true_eq]
      rintro rfl
      exact this hx)]
  simp

/-- An ELF note with the name "GNU". -/
example : HasId ⟨2, [4, 0, 0, 0] ++ [20, 0, 0, 0, 3, 0, 0, 0] ++ [0x47, 0x4e, 0x55, 0] ++
      (List.range 20).map (fun i => UInt8.ofNat (i * 13)) ++ []⟩
      ((List.range 20).map (fun i => UInt8.ofNat (i * 13))) ∧
    getString ⟨2, [4, 0, 0, 0] ++ [20, 0, 0, 0, 3, 0, 0, 0] ++ [0x47, 0x4e, 0x55, 0] ++
      (List.range 20).map (fun i => UInt8.ofNat (i * 13))⟩ [9, 9, 9, 9, 9, 9] 0 6 =
      some (true, [0x30, 0x30, 0x30, 0x64, 0x31, 0]) :=
  ⟨.gnu 4 0 0 0 _ _ _ [] rfl rfl rfl, by decide +kernel⟩

/-! ## The unique version -/

/-- The answers of the module to a list of calls, starting with the static buffer `buf`. A returned
buffer is observed as a C string; `none` is undefined behaviour. -/
def versionCalls (g : Id) : Bytes → List (Option Bytes) → Option (List (Option Bytes))
  | _, [] => some []
  | buf, v :: vs =>
    (createVersion g buf v).bind fun r =>
      (if r.1 then (cstring r.2).map some else some none).bind fun a =>
        (versionCalls g r.2 vs).map fun as => a :: as

/-- The static buffer represents what was chosen. -/
def VersionRel (cap : Nat) (chosen : Option Bytes) (buf : Bytes) : Prop :=
  buf.length = cap ∧ match chosen with
    | none => ∀ c ∈ buf, c = 0
    | some s => s ≠ [] ∧ 0 ∉ s ∧ ∃ junk, buf = s ++ 0 :: junk

theorem cstring_rel {s junk : Bytes} (h : (0 : UInt8) ∉ s) : cstring (s ++ 0 :: junk) = some s := by
  rw [cstring, if_pos (by simp), List.takeWhile_append_of_pos (by
      intro x hx
      simp only [ne_eq, decide_eq_true_eq]
      rintro rfl
      exact h hx)]
  simp

/-- The version with its plus sign in the buffer, before the build id is added. -/
theorem version_prefix (v buf : Bytes) (h : v.length + 1 ≤ buf.length) :
    ((memcpyIn buf 0 v).bind fun b => memcpyIn b (v.length + 1 - 1) [43]) =
      some (v ++ [43] ++ buf.drop (v.length + 1)) := by
  rw [memcpyIn, if_pos (by omega), Option.bind_some]
  simp only [List.take_zero, List.nil_append, Nat.zero_add, Nat.add_sub_cancel]
  rw [memcpyIn, if_pos (by simp only [List.length_append, List.length_drop, List.length_singleton]; omega),
    List.take_left]
  congr 2
  rw [List.drop_append, List.drop_eq_nil_of_le (by omega), List.nil_append, List.drop_drop,
    List.length_singleton]
  congr 1
  omega

theorem createVersion_refines {g : Id} {id : Option Bytes} {cap : Nat} {chosen : Option Bytes}
    {buf : Bytes} {v : Option Bytes}
    (hid : match id with | some id => HasId g id | none => NoId g)
    (hv : ∀ s, v = some s → 0 ∉ s ∧ s.length + 8 ≠ cap) (hr : VersionRel cap chosen buf) :
    ∃ buf', createVersion g buf v = some ((create cap id chosen v).isSome, buf') ∧
      VersionRel cap (create cap id chosen v) buf' := by
  obtain ⟨hlen, hr⟩ := hr
  cases chosen with
  | some s =>
    obtain ⟨h1, h2, junk, rfl⟩ := hr
    refine ⟨s ++ 0 :: junk, ?_, hlen, h1, h2, junk, rfl⟩
    obtain ⟨a, t, rfl⟩ := List.exists_cons_of_ne_nil h1
    have ha : a ≠ 0 := fun h => h2 (by simp [h])
    unfold createVersion
    rw [if_pos (by simpa using ha)]
    rfl
  | none =>
    have h0 : buf.getD 0 0 = 0 := by
      cases buf with
      | nil => rfl
      | cons a t => exact hr a (List.mem_cons_self ..)
    unfold createVersion
    rw [if_neg (fun h => h h0)]
    cases v with
    | none => exact ⟨buf, rfl, hlen, hr⟩
    | some v =>
      obtain ⟨hz, hne⟩ := hv v rfl
      simp only [create]
      by_cases hc : v.length + 1 + 6 + 1 ≤ cap
      · rw [if_pos (by omega), if_pos hc]
        have hp := version_prefix v buf (by omega)
        rw [Option.bind_eq_some_iff] at hp
        obtain ⟨b1, hb1, hb2⟩ := hp
        rw [hb1, Option.bind_some, hb2, Option.bind_some]
        have hl : (v ++ [43] ++ buf.drop (v.length + 1)).length = cap := by
          simp only [List.length_append, List.length_drop, List.length_singleton]; omega
        have hmin : min (6 + 1) ((v ++ [43] ++ buf.drop (v.length + 1)).length - (v.length + 1) - 1) = 7 := by
          rw [hl]; omega
        have hv1 : (v ++ [43]).length = v.length + 1 := by simp
        rw [hmin]
        cases id with
        | some id =>
          have hid20 := hasId_length hid
          rw [getString_at hid _ _ 7 (by omega) (by rw [hl]; omega), Option.bind_some]
          have hn : (0 : UInt8) ∉ unique (some id) v := by
            have := hex_no_nul id
            simp only [unique, List.mem_append, List.mem_singleton, not_or]
            exact ⟨⟨hz, by decide⟩, fun h => this (List.mem_of_mem_take h)⟩
          refine ⟨_, rfl, ?_, ?_, hn, (v ++ [43] ++ buf.drop (v.length + 1)).drop
            (v.length + 1 + ((hex id).take 6).length + 1), ?_⟩
          · have := hex_length id
            simp only [List.length_append, List.length_take, List.length_drop, List.length_singleton]
            omega
          · simp [unique]
          · have ht : (v ++ [43] ++ buf.drop (v.length + 1)).take (v.length + 1) = v ++ [43] := by
              rw [← hv1, List.take_left]
            rw [ht]
            simp only [unique, List.append_assoc, List.singleton_append, List.cons_append,
              List.nil_append]
        | none =>
          have hg : getString g (v ++ [43] ++ buf.drop (v.length + 1)) (v.length + 1) 7 =
              some (false, v ++ [43] ++ buf.drop (v.length + 1)) := by
            rw [getString, infoRead_noId hid, Option.bind_some]
          rw [hg, Option.bind_some]
          simp only [Bool.false_eq_true, if_false]
          rw [memcpyIn, if_pos (by rw [hl]; simp only [List.length_cons, List.length_nil]; omega)]
          have hn : (0 : UInt8) ∉ unique none v := by
            simp only [unique, List.mem_append, List.mem_singleton, not_or]
            exact ⟨⟨hz, by decide⟩, by decide⟩
          refine ⟨_, rfl, ?_, ?_, hn, (v ++ [43] ++ buf.drop (v.length + 1)).drop (v.length + 1 + 6), ?_⟩
          · simp only [List.length_append, List.length_take, List.length_drop, List.length_singleton,
              List.length_cons, List.length_nil]
            omega
          · simp [unique]
          · have ht : (v ++ [43] ++ buf.drop (v.length + 1)).take (v.length + 1) = v ++ [43] := by
              rw [← hv1, List.take_left]
            rw [ht]
            simp only [unique, List.append_assoc, List.singleton_append, List.cons_append,
              List.nil_append, List.length_cons, List.length_nil]
      · rw [if_neg (by omega), if_neg hc]
        exact ⟨buf, rfl, hlen, hr⟩

/-- **C64 (unique version).** For every list of calls after start-up: the first version that fits with
its six characters of the build id is chosen, and from then on every call returns that string,
whatever it is given; before, calls return a null pointer. Missing: versions that just fit (eight
bytes shorter than the buffer), see `C64_false_five_characters`. -/
theorem C64_unique_version_partial (g : Id) (id : Option Bytes) (cap : Nat) (calls : List (Option Bytes))
    (hid : match id with | some id => HasId g id | none => NoId g)
    (hv : ∀ v, some v ∈ calls → 0 ∉ v ∧ v.length + 8 ≠ cap) :
    versionCalls g (List.replicate cap 0) calls = some (answers cap id none calls) := by
  have key : ∀ (calls : List (Option Bytes)) (chosen : Option Bytes) (buf : Bytes),
      (∀ v, some v ∈ calls → 0 ∉ v ∧ v.length + 8 ≠ cap) → VersionRel cap chosen buf →
      versionCalls g buf calls = some (answers cap id chosen calls) := by
    intro calls
    induction calls with
    | nil => intros; rfl
    | cons v vs ih =>
      intro chosen buf hv hr
      obtain ⟨buf', h1, h2⟩ := createVersion_refines hid
        (v := v) (fun s hs => hv s (by rw [hs]; exact List.mem_cons_self ..)) hr
      rw [versionCalls, answers, h1, Option.bind_some]
      have h3 := ih (create cap id chosen v) buf' (fun s hs => hv s (List.mem_cons_of_mem _ hs)) h2
      simp only
      rw [h3]
      generalize create cap id chosen v = c at h2
      cases c with
      | none => rfl
      | some s =>
        obtain ⟨-, -, hs, junk, rfl⟩ := h2
        simp only [Option.isSome_some, if_pos, cstring_rel hs, Option.map_some, Option.bind_some]
  exact key calls none _ hv ⟨by simp, fun c hc => List.eq_of_mem_replicate hc⟩

/-- A query, a version that is too long, a version that fits, another one, a query. -/
example : versionCalls ⟨3, (List.range 20).map (fun i => UInt8.ofNat (i * 13))⟩ (List.replicate 32 0)
      [none, some (List.replicate 25 0x31), some [0x31, 0x2e, 0x30], some [0x32], none] =
    some [none, none, some [0x31, 0x2e, 0x30, 0x2b, 0x30, 0x30, 0x30, 0x64, 0x31, 0x61],
      some [0x31, 0x2e, 0x30, 0x2b, 0x30, 0x30, 0x30, 0x64, 0x31, 0x61],
      some [0x31, 0x2e, 0x30, 0x2b, 0x30, 0x30, 0x30, 0x64, 0x31, 0x61]] := by decide +kernel

/-- C64 is false for a version that just fits: with the default of 32 bytes, a version of 24 characters
gets only five characters of the build id although there is room for six. -/
theorem C64_false_five_characters :
    let id : Bytes := (List.range 20).map (fun i => UInt8.ofNat (i * 13))
    let v : Bytes := List.replicate 24 0x31
    HasId ⟨3, id⟩ id ∧ (unique (some id) v).length + 1 ≤ 32 ∧
    versionCalls ⟨3, id⟩ (List.replicate 32 0) [some v] = some [some ((unique (some id) v).dropLast)] ∧
    versionCalls ⟨3, id⟩ (List.replicate 32 0) [some v] ≠ some (answers 32 (some id) none [some v]) := by
  refine ⟨?_, by decide +kernel, by decide +kernel, by decide +kernel⟩
  have := HasId.memfault ((List.range 20).map (fun i => UInt8.ofNat (i * 13))) [] rfl
  simpa using this

end Mflt.Props
