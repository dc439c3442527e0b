import Verif.Spec.NetMetrics

/-!
# C95: metrics of network stacks describe the interval they are reported for
-/

namespace Mflt.Props

open NetMetrics Spec.NetMetrics

/-! ## lwIP -/

private def stream : UInt32 → List UInt32 → List UInt32
  | _, [] => []
  | p, t :: ts => (t - p) :: stream (p + (t - p)) ts

private theorem add_sub (p t : UInt32) : p + (t - p) = t := by
  rw [← UInt32.toBitVec_inj, UInt32.toBitVec_add, UInt32.toBitVec_sub]
  generalize p.toBitVec = a
  generalize t.toBitVec = b
  apply BitVec.eq_of_toNat_eq
  rw [BitVec.toNat_add, BitVec.toNat_sub]
  have ha := a.isLt
  have hb := b.isLt
  omega

private theorem sub_toNat (w p t : Nat) (hw : w ≤ 32) (hp : p ≤ t) (hd : t - p < 2 ^ 32)
    (hq : w < 32 → t / 2 ^ w = p / 2 ^ w) :
    (UInt32.ofNat (t % 2 ^ w) - UInt32.ofNat (p % 2 ^ w)).toNat = t - p := by
  have hpow : (2 : Nat) ^ w ≤ 2 ^ 32 := Nat.pow_le_pow_right (by omega) hw
  have hpos : (0 : Nat) < 2 ^ w := Nat.two_pow_pos w
  have h1 := Nat.mod_lt t hpos
  have h2 := Nat.mod_lt p hpos
  have e1 := Nat.div_add_mod t (2 ^ w)
  have e2 := Nat.div_add_mod p (2 ^ w)
  have h32 : (2 : Nat) ^ 32 = 4294967296 := rfl
  rw [UInt32.toNat_sub, UInt32.toNat_ofNat', UInt32.toNat_ofNat', h32]
  rw [h32] at hpow hd
  by_cases hlt : w < 32
  · have hq := hq hlt
    rw [hq] at e1
    generalize 2 ^ w * (p / 2 ^ w) = c at *
    omega
  · have : w = 32 := by omega
    subst this
    omega

private theorem stream_counts (w : Nat) (hw : w ≤ 32) (ts : List Nat) :
    ∀ p : Nat, Countable w p ts →
      (stream (UInt32.ofNat (p % 2 ^ w)) (ts.map fun t => UInt32.ofNat (t % 2 ^ w))).map (·.toNat) = differences p ts := by
  induction ts with
  | nil => intro p _; rfl
  | cons t ts ih =>
    intro p ⟨h1, h2, h3, h4⟩
    show (_ - _ : UInt32).toNat :: _ = _
    rw [sub_toNat w p t hw h1 h2 h3]
    show _ :: (stream (_ + (_ - _)) _).map _ = _
    rw [add_sub]
    exact congrArg _ (ih t h4)

private theorem beats_stream (f : Proto × Proto → UInt32)
    (hd : ∀ p n, f (lwipCollect p n).1 = f n - f p)
    (hn : ∀ p n, f (lwipCollect p n).2 = f p + (f n - f p)) (xs : List (Proto × Proto)) :
    ∀ p, (lwipBeats p xs).map f = stream (f p) (xs.map f) := by
  induction xs with
  | nil => intro p; rfl
  | cons x xs ih =>
    intro p
    show f (lwipCollect p x).1 :: (lwipBeats (lwipCollect p x).2 xs).map f = _
    rw [ih, hd, hn]
    rfl

private theorem lwip_field (w : Nat) (hw : w ≤ 32) (f : Proto × Proto → UInt32) (g : Totals × Totals → Nat)
    (hd : ∀ p n, f (lwipCollect p n).1 = f n - f p)
    (hn : ∀ p n, f (lwipCollect p n).2 = f p + (f n - f p))
    (hs : ∀ t, f (t.1.shown w, t.2.shown w) = UInt32.ofNat (g t % 2 ^ w))
    (h0 : f (⟨0, 0, 0⟩, ⟨0, 0, 0⟩) = 0)
    (ts : List (Totals × Totals)) (hc : Countable w 0 (ts.map g)) :
    (lwipBeats (⟨0, 0, 0⟩, ⟨0, 0, 0⟩) (ts.map fun t => (t.1.shown w, t.2.shown w))).map (fun r => (f r).toNat) =
      differences 0 (ts.map g) := by
  have h := beats_stream f hd hn (ts.map fun t => (t.1.shown w, t.2.shown w)) (⟨0, 0, 0⟩, ⟨0, 0, 0⟩)
  have hm : (ts.map fun t => (t.1.shown w, t.2.shown w)).map f = (ts.map g).map fun t => UInt32.ofNat (t % 2 ^ w) := by
    rw [List.map_map, List.map_map]
    exact List.map_congr_left fun t _ => hs t
  rw [h0, hm] at h
  have h2 := stream_counts w hw (ts.map g) 0 hc
  rw [Nat.zero_mod] at h2
  rw [← h2, show UInt32.ofNat 0 = 0 from rfl, ← h, List.map_map]
  rfl

/-- Each metric of lwIP, in each heartbeat, is the number of packets since the previous heartbeat, if the counters of
lwIP (of `w` bits) did not wrap in an interval, or have 32 bits. Missing: counters of 16 bits that wrap
(`C95_false_lwip16`). -/
theorem C95_lwip_partial (w : Nat) (hw : w ≤ 32) (ts : List (Totals × Totals))
    (h : ∀ g ∈ [fun t : Totals × Totals => t.1.tx, fun t => t.1.rx, fun t => t.1.drop,
      fun t => t.2.tx, fun t => t.2.rx, fun t => t.2.drop], Countable w 0 (ts.map g)) :
    let r := lwipBeats (⟨0, 0, 0⟩, ⟨0, 0, 0⟩) (ts.map fun t => (t.1.shown w, t.2.shown w))
    r.map (fun x => x.1.tx.toNat) = differences 0 (ts.map fun t => t.1.tx) ∧
    r.map (fun x => x.1.rx.toNat) = differences 0 (ts.map fun t => t.1.rx) ∧
    r.map (fun x => x.1.drop.toNat) = differences 0 (ts.map fun t => t.1.drop) ∧
    r.map (fun x => x.2.tx.toNat) = differences 0 (ts.map fun t => t.2.tx) ∧
    r.map (fun x => x.2.rx.toNat) = differences 0 (ts.map fun t => t.2.rx) ∧
    r.map (fun x => x.2.drop.toNat) = differences 0 (ts.map fun t => t.2.drop) := by
  refine ⟨?_, ?_, ?_, ?_, ?_, ?_⟩
  · exact lwip_field w hw (fun x => x.1.tx) (fun t => t.1.tx) (fun _ _ => rfl) (fun _ _ => rfl) (fun _ => rfl) rfl ts (h _ (by simp))
  · exact lwip_field w hw (fun x => x.1.rx) (fun t => t.1.rx) (fun _ _ => rfl) (fun _ _ => rfl) (fun _ => rfl) rfl ts (h _ (by simp))
  · exact lwip_field w hw (fun x => x.1.drop) (fun t => t.1.drop) (fun _ _ => rfl) (fun _ _ => rfl) (fun _ => rfl) rfl ts (h _ (by simp))
  · exact lwip_field w hw (fun x => x.2.tx) (fun t => t.2.tx) (fun _ _ => rfl) (fun _ _ => rfl) (fun _ => rfl) rfl ts (h _ (by simp))
  · exact lwip_field w hw (fun x => x.2.rx) (fun t => t.2.rx) (fun _ _ => rfl) (fun _ _ => rfl) (fun _ => rfl) rfl ts (h _ (by simp))
  · exact lwip_field w hw (fun x => x.2.drop) (fun t => t.2.drop) (fun _ _ => rfl) (fun _ _ => rfl) (fun _ => rfl) rfl ts (h _ (by simp))

example : Countable 32 0 [5, 4294967290, 4294967300] ∧ Countable 16 0 [5, 65000] := by
  simp [Countable]

/-- False for the counters of 16 bits that lwIP has by default: ten packets, across the wrap, are reported as four
thousand million. -/
theorem C95_false_lwip16 :
    let t : List (Totals × Totals) := [(⟨65530, 0, 0⟩, ⟨0, 0, 0⟩), (⟨65540, 0, 0⟩, ⟨0, 0, 0⟩)]
    (lwipBeats (⟨0, 0, 0⟩, ⟨0, 0, 0⟩) (t.map fun t => (t.1.shown 16, t.2.shown 16))).map (fun x => x.1.tx.toNat) =
      [65530, 4294901770] ∧
    differences 0 (t.map fun t => t.1.tx) = [65530, 10] := by
  decide

/-! ## Mbed TLS -/

private structure TlsInv (k : Nat) (l : Live) (peak : Nat) (s : Tls) : Prop where
  blocks : s.blocks = l.map fun x => ⟨x.1 - k, x.2 + k, x.2⟩
  used : s.used.toNat = l.bytes
  top : s.max.toNat = peak
  small : l.bytes < 2 ^ 31
  below : peak < 2 ^ 31
  nodup : (l.map (·.1)).Nodup
  above : ∀ x ∈ l, k < x.1

private theorem find_live (k p : Nat) (hk : k < p) (l : Live) (hl : ∀ x ∈ l, k < x.1) (hp : p ∈ l.map (·.1)) :
    ∃ m, (p, m) ∈ l ∧
      (l.map fun x : Nat × Nat => (⟨x.1 - k, x.2 + k, x.2⟩ : Block)).find? (fun b => b.addr + k = p) = some ⟨p - k, m + k, m⟩ := by
  induction l with
  | nil => simp at hp
  | cons x l ih =>
    by_cases hx : x.1 = p
    · refine ⟨x.2, by rw [← hx]; exact List.mem_cons_self, ?_⟩
      rw [List.map_cons, List.find?_cons_of_pos (by simp; omega), hx]
    · have hx2 := hl x List.mem_cons_self
      rw [List.map_cons, List.mem_cons] at hp
      obtain ⟨m, hm, hf⟩ := ih (fun y hy => hl y (List.mem_cons_of_mem _ hy)) (hp.resolve_left fun e => hx e.symm)
      refine ⟨m, List.mem_cons_of_mem _ hm, ?_⟩
      rw [List.map_cons, List.find?_cons_of_neg (by simp; omega), hf]

private theorem erase_live (k p m : Nat) (l : Live) (hl : ∀ x ∈ l, k < x.1) (hn : (l.map (·.1)).Nodup)
    (hp : (p, m) ∈ l) :
    (l.map fun x : Nat × Nat => (⟨x.1 - k, x.2 + k, x.2⟩ : Block)).erase ⟨p - k, m + k, m⟩ =
      ((l.filter fun x => x.1 ≠ p).map fun x => ⟨x.1 - k, x.2 + k, x.2⟩) ∧
    (l.bytes = m + Live.bytes (l.filter fun x => x.1 ≠ p)) := by
  induction l with
  | nil => simp at hp
  | cons x l ih =>
    rw [List.map_cons, List.nodup_cons] at hn
    have hxk := hl x List.mem_cons_self
    have hpk := hl _ hp
    rcases List.mem_cons.1 hp with e | e
    · subst e
      have hf : (l.filter fun x => x.1 ≠ p) = l := by
        rw [List.filter_eq_self]
        intro y hy
        have : y.1 ≠ p := fun e => hn.1 (e ▸ List.mem_map_of_mem (f := (·.1)) hy)
        simpa using this
      rw [List.map_cons, List.erase_cons_head, List.filter_cons_of_neg (by simp), hf]
      exact ⟨rfl, by simp [Live.bytes]⟩
    · have hne : x.1 ≠ p := fun h => hn.1 (h ▸ List.mem_map_of_mem (f := (·.1)) e)
      obtain ⟨h1, h2⟩ := ih (fun y hy => hl y (List.mem_cons_of_mem _ hy)) hn.2 e
      rw [List.map_cons, List.erase_cons_tail (by simp; intro h; omega), h1,
        List.filter_cons_of_pos (by simpa using hne)]
      refine ⟨rfl, ?_⟩
      simp only [Live.bytes, List.map_cons, List.sum_cons] at h2 ⊢
      omega

private theorem tls_inv (k : Nat) (hk : 4 ≤ k) (ops : List Op) : ∀ (l : Live) (peak : Nat) (s : Tls),
    TlsInv k l peak s → Legal k l ops → ∃ s', tlsRun k s ops = some ((meant k l peak ops).1, s') ∧
      TlsInv k (meant k l peak ops).2.1 (meant k l peak ops).2.2 s' := by
  induction ops with
  | nil => intro l peak s hi _; exact ⟨s, rfl, hi⟩
  | cons op ops ih =>
    intro l peak s hi hl
    cases op with
    | calloc n size heap =>
      obtain ⟨h1, h2, h3⟩ := hl
      have e1 : n * size % 2 ^ 32 = n * size := Nat.mod_eq_of_lt (by omega)
      have e2 : (n * size + k) % 2 ^ 32 = n * size + k := Nat.mod_eq_of_lt h1
      cases ha : heap (n * size + k) with
      | none =>
        rw [ha] at h3
        obtain ⟨s', hr, hi'⟩ := ih l peak s hi h3
        refine ⟨s', ?_, ?_⟩
        · simp only [tlsRun, wrapCalloc, e1, e2, ha, Option.bind_some, hr, Option.map_some, meant]
        · simp only [meant, ha]; exact hi'
      | some a =>
        rw [ha] at h3
        obtain ⟨hpos, hdis, hrest⟩ := h3
        have hb : Live.bytes (l ++ [(a + k, n * size)]) = l.bytes + n * size := by simp [Live.bytes]
        have hu : (s.used + BitVec.ofNat 32 (n * size)).toNat = l.bytes + n * size := by
          rw [BitVec.toNat_add, BitVec.toNat_ofNat, hi.used]
          omega
        have hmax : (if s.max.toInt < (s.used + BitVec.ofNat 32 (n * size)).toInt then
            s.used + BitVec.ofNat 32 (n * size) else s.max).toNat = max peak (l.bytes + n * size) := by
          have c1 : s.max.toInt = (peak : Int) := by
            rw [BitVec.toInt_eq_toNat_of_lt (by rw [hi.top]; have := hi.below; omega), hi.top]
          have c2 : (s.used + BitVec.ofNat 32 (n * size)).toInt = ((l.bytes + n * size : Nat) : Int) := by
            rw [BitVec.toInt_eq_toNat_of_lt (by rw [hu]; omega), hu]
          rw [c1, c2]
          split
          · rw [hu]; omega
          · rw [hi.top]; omega
        obtain ⟨s', hr, hi'⟩ := ih (l ++ [(a + k, n * size)]) (max peak (l.bytes + n * size))
          ⟨s.used + BitVec.ofNat 32 (n * size),
            if s.max.toInt < (s.used + BitVec.ofNat 32 (n * size)).toInt then s.used + BitVec.ofNat 32 (n * size) else s.max,
            s.blocks ++ [⟨a, n * size + k, n * size⟩]⟩
          ⟨by
              show s.blocks ++ _ = _
              rw [List.map_append, ← hi.blocks]; simp,
            hu.trans hb.symm, hmax, by rw [hb]; exact h2, by have := hi.below; omega, by
              rw [List.map_append, List.nodup_append]
              refine ⟨hi.nodup, by simp, ?_⟩
              intro x hx y hy e
              simp only [List.map_cons, List.map_nil, List.mem_singleton] at hy
              obtain ⟨z, hz, hzx⟩ := List.mem_map.1 hx
              have := hdis z hz
              omega, by
              intro x hx
              rcases List.mem_append.1 hx with h | h
              · exact hi.above x h
              · rw [List.mem_singleton] at h; subst h; show k < a + k; omega⟩ hrest
        refine ⟨s', ?_, ?_⟩
        · have h4 : ¬ (n * size + k < 4) := by omega
          simp only [tlsRun, wrapCalloc, e1, e2, ha, h4, if_false, Option.bind_some, hr, Option.map_some, meant]
        · simp only [meant, ha]; exact hi'
    | free p =>
      unfold Legal at hl
      by_cases hp : p = 0
      · rw [if_pos hp] at hl
        obtain ⟨s', hr, hi'⟩ := ih l peak s hi hl
        refine ⟨s', ?_, ?_⟩
        · simp only [tlsRun, wrapFree, hp, if_true, Option.bind_some, hr, Option.map_some, meant]
        · simp only [meant, hp, if_true]; exact hi'
      · rw [if_neg hp] at hl
        obtain ⟨hin, hrest⟩ := hl
        have hkp : k < p := by
          obtain ⟨z, hz, e⟩ := List.mem_map.1 hin
          rw [← e]; exact hi.above z hz
        obtain ⟨m, hm, hf⟩ := find_live k p hkp l hi.above hin
        obtain ⟨he, hb⟩ := erase_live k p m l hi.above hi.nodup hm
        obtain ⟨s', hr, hi'⟩ := ih (l.filter fun x => x.1 ≠ p) peak
          { s with used := s.used - BitVec.ofNat 32 m, blocks := s.blocks.erase ⟨p - k, m + k, m⟩ }
          ⟨by show s.blocks.erase _ = _; rw [hi.blocks]; exact he, by
              show (s.used - BitVec.ofNat 32 m).toNat = _
              rw [BitVec.toNat_sub, BitVec.toNat_ofNat, hi.used]
              have := hi.small
              omega, hi.top, by have := hi.small; omega, hi.below,
            hi.nodup.sublist (List.filter_sublist.map _), fun x hx => hi.above x (List.mem_filter.1 hx).1⟩ hrest
        refine ⟨s', ?_, ?_⟩
        · simp only [tlsRun, wrapFree, hp, if_false, hi.blocks, hf, Option.map_some, Option.bind_some, meant]
          rw [hi.blocks] at hr
          rw [hr]
          rfl
        · simp only [meant, hp, if_false]; exact hi'

/-- For all calls of Mbed TLS, the application and the heap see exactly the calls they should: a pointer behind the
metadata of a block with room for the metadata and the bytes requested, the same block given back once. The metrics are
the bytes in use and the most there ever were. Missing: requests whose size overflows (`C95_false_calloc`). -/
theorem C95_mbedtls_partial (k : Nat) (hk : 4 ≤ k) (ops : List Op) (h : Legal k [] ops) :
    ∃ s, tlsRun k ⟨0, 0, []⟩ ops = some ((meant k [] 0 ops).1, s) ∧
      s.used.toInt = (meant k [] 0 ops).2.1.bytes ∧ s.max.toInt = (meant k [] 0 ops).2.2 ∧
      ∀ x ∈ (meant k [] 0 ops).2.1, ∃ b ∈ s.blocks, b.addr + k = x.1 ∧ b.size = k + x.2 := by
  obtain ⟨s, hr, hi⟩ := tls_inv k hk ops [] 0 ⟨0, 0, []⟩
    ⟨rfl, rfl, rfl, by simp [Live.bytes], by omega, List.nodup_nil, by simp⟩ h
  refine ⟨s, hr, ?_, ?_, ?_⟩
  · rw [BitVec.toInt_eq_toNat_of_lt (by rw [hi.used]; have := hi.small; omega), hi.used]
  · rw [BitVec.toInt_eq_toNat_of_lt (by rw [hi.top]; have := hi.below; omega), hi.top]
  · intro x hx
    refine ⟨⟨x.1 - k, x.2 + k, x.2⟩, by rw [hi.blocks]; exact List.mem_map_of_mem hx, ?_, ?_⟩
    · have := hi.above x hx
      show x.1 - k + k = x.1
      omega
    · show x.2 + k = k + x.2
      omega

/-- Two blocks, one of which is freed; a third one that there is no memory for. -/
example : let ops : List Op := [.calloc 2 50 (fun _ => some 1000), .calloc 1 40 (fun _ => some 2000), .free 1008,
      .calloc 1 1000 (fun _ => none), .free 0]
    Legal 8 [] ops ∧ meant 8 [] 0 ops = ([.ptr 1008, .ptr 2008, .freed (some 1000), .ptr 0, .freed none], [(2008, 40)], 140) := by
  refine ⟨?_, by decide⟩
  simp [Legal, Live.bytes]

/-- False for requests whose size overflows, which `calloc` must refuse: the application gets a pointer to 65536 bytes
for 4 GiB. -/
theorem C95_false_calloc :
    wrapCalloc 8 ⟨0, 0, []⟩ 65536 65537 (fun t => if t ≤ 100000 then some 1000 else none) =
      some (1008, ⟨65536, 65536, [⟨1000, 65544, 65536⟩]⟩) := by
  decide +kernel

/-! ## Statistics of Zephyr's network stack -/

/-- Everything that is counted before a heartbeat, or while the statistics cannot be read, is in exactly one report, or
still to be reported. Missing: packets counted while a heartbeat reads and clears the statistics
(`C95_false_ip`). -/
theorem C95_ip_partial (beats : List (Nat × Bool × Nat)) (hs : (beats.map fun b => b.1 + b.2.2).sum < 2 ^ 32) :
    ((ipBeats 0 beats).1.map (·.getD 0)).sum + (ipBeats 0 beats).2 =
      (beats.map fun b => b.1 + if b.2.1 then b.2.2 else 0).sum ∧
    (ipBeats 0 beats).1.map (·.isSome) = beats.map fun b => !b.2.1 := by
  have key : ∀ (beats : List (Nat × Bool × Nat)) (c : Nat), c + (beats.map fun b => b.1 + b.2.2).sum < 2 ^ 32 →
      ((ipBeats c beats).1.map (·.getD 0)).sum + (ipBeats c beats).2 =
        c + (beats.map fun b => b.1 + if b.2.1 then b.2.2 else 0).sum ∧
      (ipBeats c beats).1.map (·.isSome) = beats.map fun b => !b.2.1 := by
    intro beats
    induction beats with
    | nil => intro c _; simp [ipBeats]
    | cons b beats ih =>
      obtain ⟨before, fails, during⟩ := b
      intro c hc
      rw [List.map_cons, List.sum_cons] at hc
      cases fails with
      | true =>
        obtain ⟨h1, h2⟩ := ih (c + before + during) (by simp only at hc; omega)
        constructor
        · simp only [ipBeats, ipStatistics, if_true, List.map_cons, List.sum_cons, Option.getD_none] at h1 ⊢
          omega
        · simp only [ipBeats, ipStatistics, if_true, List.map_cons, h2]
          rfl
      | false =>
        obtain ⟨h1, h2⟩ := ih 0 (by simp only at hc; omega)
        constructor
        · have : (c + before) % 2 ^ 32 = c + before := Nat.mod_eq_of_lt (by simp only at hc; omega)
          simp only [ipBeats, ipStatistics, Bool.false_eq_true, if_false, List.map_cons, List.sum_cons, Option.getD_some,
            this] at h1 ⊢
          omega
        · simp only [ipBeats, ipStatistics, Bool.false_eq_true, if_false, List.map_cons, h2]
          rfl
  have := key beats 0 (by omega)
  rwa [Nat.zero_add] at this

example : ipBeats 0 [(10, false, 0), (5, true, 2), (1, false, 0), (4, true, 0)] = ([some 10, none, some 8, none], 4) := by
  decide

/-- What is counted between reading and resetting the statistics is in no report. -/
theorem C95_false_ip : ipBeats 0 [(10, false, 3), (5, false, 0)] = ([some 10, some 5], 0) := by decide

/-- The temperature of the CPU is reported in tenths of degrees, without the rest. -/
theorem C95_temperature (t : Int) : cpuTemp (t.tdiv 1000000) (t.tmod 1000000) = t.tdiv 100000 := by
  unfold cpuTemp
  rcases Int.le_total 0 t with h | h
  · rw [Int.tdiv_eq_ediv_of_nonneg h, Int.tmod_eq_emod_of_nonneg h, Int.tdiv_eq_ediv_of_nonneg h,
      Int.tdiv_eq_ediv_of_nonneg (by omega)]
    omega
  · obtain ⟨u, rfl⟩ : ∃ u, t = -u := ⟨-t, by omega⟩
    have h : 0 ≤ u := by omega
    rw [Int.neg_tdiv, Int.neg_tmod, Int.neg_tdiv, Int.neg_tdiv, Int.tdiv_eq_ediv_of_nonneg h,
      Int.tmod_eq_emod_of_nonneg h, Int.tdiv_eq_ediv_of_nonneg h, Int.tdiv_eq_ediv_of_nonneg (by omega)]
    omega

example : cpuTemp (-3) (-250000) = -32 ∧ cpuTemp 25 987654 = 259 := by decide

/-! ## Signal strength -/

private theorem weakest_snoc (rs : List Int) (r : Int) :
    weakest (rs ++ [r]) = if r < -10 then some (match weakest rs with | some m => if r < m then r else m | none => r)
      else weakest rs := by
  unfold weakest
  rw [List.filter_append]
  by_cases h : r < -10
  · rw [if_pos h, List.filter_cons_of_pos (by simpa using h), List.filter_nil]
    cases rs.filter fun r => r < -10 with
    | nil => rfl
    | cons a as =>
      show some (List.foldl min a (as ++ [r])) = some (if r < List.foldl min a as then r else List.foldl min a as)
      rw [List.foldl_append]
      show some (min (List.foldl min a as) r) = _
      congr 1
      rw [Int.min_def]
      split <;> split <;> omega
  · rw [if_neg h, List.filter_cons_of_neg (by simpa using h), List.filter_nil, List.append_nil]

/-- What the driver and the variable hold after measurements. -/
private def Tracks (rs : List Int) (s : Wifi) : Prop :=
  ∃ t, s.threshold = some t ∧ t ≤ -10 ∧
    match weakest rs with
    | none => s.min = 0 ∧ t = -10
    | some m => s.min = m ∧ m ≤ t

private theorem weakest_low (rs : List Int) (m : Int) (h : weakest rs = some m) : m < -10 := by
  have := List.mem_filter.1 (List.min?_mem h)
  simpa using this.2

private theorem tracks_step (rs : List Int) (s : Wifi) (h : Tracks rs s) (op : WifiOp)
    (hop : op = .connected ∨ ∃ r, op = .measure r) :
    Tracks (rs ++ measured [op]) (wifiStep s op).2 := by
  obtain ⟨t, ht, hle, hm⟩ := h
  rcases hop with rfl | ⟨r, rfl⟩
  · refine ⟨-10, rfl, by omega, ?_⟩
    show match weakest (rs ++ []) with | none => s.min = 0 ∧ (-10 : Int) = -10 | some m => s.min = m ∧ m ≤ -10
    rw [List.append_nil]
    cases hw : weakest rs with
    | none => rw [hw] at hm; exact ⟨hm.1, rfl⟩
    | some m => rw [hw] at hm; exact ⟨hm.1, by have := weakest_low rs m hw; omega⟩
  · show Tracks (rs ++ [r]) _
    unfold Tracks
    rw [weakest_snoc]
    by_cases hr : r < t
    · have hs : (wifiStep s (.measure r)).2 = ⟨if r < s.min then r else s.min, some (if r < s.min then r else s.min)⟩ := by
        simp only [wifiStep, ht, hr, if_true, rssiLow]
      rw [hs, if_pos (show r < -10 by omega)]
      cases hw : weakest rs with
      | none =>
        rw [hw] at hm
        have hlt : r < s.min := by omega
        rw [if_pos hlt]
        exact ⟨r, rfl, by omega, rfl, Int.le_refl _⟩
      | some m =>
        rw [hw] at hm
        rw [hm.1]
        have := weakest_low rs m hw
        exact ⟨_, rfl, by split <;> omega, rfl, Int.le_refl _⟩
    · have hs : (wifiStep s (.measure r)).2 = s := by
        simp only [wifiStep, ht, hr, if_false]
      rw [hs]
      refine ⟨t, ht, hle, ?_⟩
      cases hw : weakest rs with
      | none =>
        rw [hw] at hm
        rw [if_neg (by omega)]
        exact hm
      | some m =>
        rw [hw] at hm
        by_cases hr2 : r < -10
        · rw [if_pos hr2]
          show _ = (if r < m then r else m) ∧ (if r < m then r else m) ≤ t
          rw [if_neg (by omega)]
          exact hm
        · rw [if_neg hr2]
          exact hm

private theorem measured_append (a b : List WifiOp) : measured (a ++ b) = measured a ++ measured b := by
  induction a with
  | nil => rfl
  | cons x a ih => cases x <;> simp [measured, ih]

private theorem tracks_run (ops : List WifiOp) : ∀ (rs : List Int) (s : Wifi), Tracks rs s →
    (∀ op ∈ ops, op = .connected ∨ ∃ r, op = .measure r) →
    Tracks (rs ++ measured ops) (ops.foldl (fun s op => (wifiStep s op).2) s) := by
  induction ops with
  | nil => intro rs s h _; simpa [measured] using h
  | cons op ops ih =>
    intro rs s h ho
    have := ih _ _ (tracks_step rs s h op (ho op List.mem_cons_self)) (fun o h => ho o (List.mem_cons_of_mem _ h))
    rw [List.append_assoc, ← measured_append] at this
    exact this

private theorem tracks_beat (rs : List Int) (s : Wifi) (h : Tracks rs s) :
    (wifiBeat s).1 = weakest rs ∧ Tracks [] (wifiBeat s).2 := by
  obtain ⟨t, ht, hle, hm⟩ := h
  cases hw : weakest rs with
  | none =>
    rw [hw] at hm
    have hb : wifiBeat s = (none, s) := by
      have : ¬ s.min ≤ -10 := by omega
      simp only [wifiBeat, wifiStep, this, if_false]
    rw [hb]
    exact ⟨rfl, t, ht, hle, hm⟩
  | some m =>
    rw [hw] at hm
    have hlow := weakest_low rs m hw
    have hb : wifiBeat s = (some m, ⟨0, some (-10)⟩) := by
      have : m ≤ -10 := by omega
      simp only [wifiBeat, wifiStep, hm.1, this, if_true]
    rw [hb]
    exact ⟨rfl, -10, rfl, by omega, rfl, rfl⟩

/-- From the first connection on, each heartbeat reports the weakest signal below -10 dBm the driver measured since the
previous heartbeat, and nothing if there was none. Missing: events of the driver between the two halves of a
collection (`C95_false_rssi`), signals of -10 dBm and more. -/
theorem C95_rssi_partial (first : List WifiOp) (rest : List (List WifiOp))
    (h : ∀ ops ∈ first :: rest, ∀ op ∈ ops, op = .connected ∨ ∃ r, op = .measure r) :
    wifiBeats ⟨0, none⟩ ((.connected :: first) :: rest) = (first :: rest).map fun ops => weakest (measured ops) := by
  have key : ∀ (l : List (List WifiOp)) (s : Wifi), Tracks [] s →
      (∀ ops ∈ l, ∀ op ∈ ops, op = .connected ∨ ∃ r, op = .measure r) →
      wifiBeats s l = l.map fun ops => weakest (measured ops) := by
    intro l
    induction l with
    | nil => intro s _ _; rfl
    | cons ops l ih =>
      intro s hs hl
      have hr := tracks_run ops [] s hs (hl ops List.mem_cons_self)
      rw [List.nil_append] at hr
      obtain ⟨h1, h2⟩ := tracks_beat _ _ hr
      show (wifiBeat _).1 :: wifiBeats (wifiBeat _).2 l = _
      rw [h1, ih _ h2 fun o ho => hl o (List.mem_cons_of_mem _ ho)]
      rfl
  have h0 := key (first :: rest) ⟨0, some (-10)⟩ ⟨-10, rfl, by omega, rfl, rfl⟩ h
  rw [← h0]
  rfl

example : wifiBeats ⟨0, none⟩ [[.connected, .measure (-60), .measure (-72), .measure (-65)], [.measure (-5)],
    [.connected, .measure (-40)]] = [some (-72), none, some (-40)] := by decide

/-- False if the driver's event comes between the two halves of the collection, in another task: the weakest signal of
both intervals is in no report. -/
theorem C95_false_rssi :
    let ops : List WifiOp := [.connected, .measure (-60), .report, .measure (-90), .clear, .measure (-50), .report]
    (ops.foldl (fun (r : List Int × Wifi) op => (r.1 ++ ((wifiStep r.2 op).1).toList, (wifiStep r.2 op).2)) ([], ⟨0, none⟩)).1 =
      [-60, -50] := by
  decide

/-! ## The access point -/

/-- The standard reported is the newest one of the access point, if that is not shadowed: 802.11n by ac or ax,
802.11a by ax. Missing: the standards that are shadowed (`C95_false_standard`). -/
theorem C95_standard_partial (p : Phy) (h1 : p.n = true → p.ac = false ∧ p.ax = false)
    (h2 : p.ac = true → p.ax = false) (h3 : p.a = true → p.ax = false) : wifiVersion p = newest p := by
  obtain ⟨b, g, n, a, ac, ax⟩ := p
  simp only at h1 h2 h3
  cases n <;> cases ac <;> cases a <;> cases ax <;> simp_all [wifiVersion, newest]

example : wifiVersion ⟨true, true, true, false, false, false⟩ = .n ∧ wifiVersion ⟨false, false, false, true, true, false⟩ = .ac := by
  decide

/-- False: every access point of 802.11ax supports 802.11n, and is reported as such. -/
theorem C95_false_standard : wifiVersion ⟨true, true, true, false, false, true⟩ = .n ∧
    newest ⟨true, true, true, false, false, true⟩ = .ax := by decide

private theorem digit_hex (n : Nat) (h : n < 16) : digit (hexDigit n) = some n := by
  have : ∀ m : Fin 16, digit (hexDigit m.val) = some m.val := by decide
  exact this ⟨n, h⟩

/-- The text of an OUI is read back as the first three bytes of the address; it is set for an access point exactly if
that is not the one of the heartbeat before. -/
theorem C95_oui (last bssid : Bytes) :
    readOui (ouiText bssid) = some ((bssid.getD 0 0).toNat, (bssid.getD 1 0).toNat, (bssid.getD 2 0).toNat) ∧
    (ouiText bssid).length + 1 = 9 ∧
    (collectOui last bssid).2 = bssid ∧
    (collectOui last bssid).1 = if bssid = last then none else some (ouiText bssid) := by
  have hd : ∀ b : UInt8, digit (hexDigit (b.toNat / 16)) = some (b.toNat / 16) := fun b =>
    digit_hex _ (by have := b.toNat_lt; omega)
  have hm : ∀ b : UInt8, digit (hexDigit (b.toNat % 16)) = some (b.toNat % 16) := fun b => digit_hex _ (by omega)
  refine ⟨?_, rfl, ?_, ?_⟩
  · show (digit _).bind _ = _
    rw [hd, Option.bind_some, hm, Option.bind_some, hd, Option.bind_some, hm, Option.bind_some, hd, Option.bind_some, hm,
      Option.map_some]
    congr 1
    refine Prod.ext ?_ (Prod.ext ?_ ?_) <;> exact Nat.div_add_mod' _ 16
  · unfold collectOui
    split
    · assumption
    · rfl
  · unfold collectOui
    by_cases h : last = bssid
    · rw [if_pos h, if_pos h.symm]
    · rw [if_neg h, if_neg fun e => h e.symm]

example : ouiText [0x9c, 0x05, 0xd6, 1, 2, 3] = "9c:05:d6".toUTF8.data.toList := by decide +kernel

/-! ## Connectivity -/

private theorem timers_time {ε : Type} (state : ε → Option Collect.ConnState) (f : Timers → Bool) (ms : Timers → Nat)
    (up : List ε → Bool)
    (hms : ∀ t d, ms (elapse t d) = ms t + if f t then d else 0) (hf : ∀ t d, f (elapse t d) = f t)
    (hc : ∀ t c, ms (change t c) = ms t) (h : List (ε × Nat)) :
    ∀ (past : List ε) (t : Timers),
      f t = up past →
      (∀ (pre : List ε) (e : ε) (post : List ε), past ++ h.map (·.1) = pre ++ e :: post → past.length ≤ pre.length →
        ∀ t, f t = up pre → f (((state e).map (change t)).getD t) = up (pre ++ [e])) →
      ms (timersAfter state t h) = ms t + timeWhile up past h := by
  induction h with
  | nil => intro past t _ _; rfl
  | cons x h ih =>
    obtain ⟨e, d⟩ := x
    intro past t ht hstep
    have h1 := hstep past e (h.map (·.1)) (by simp) (Nat.le_refl _) t ht
    have h0 : timersAfter state t ((e, d) :: h) = timersAfter state (elapse (((state e).map (change t)).getD t) d) h := by
      show timersAfter state (elapse _ d) h = _
      cases state e <;> rfl
    rw [h0, ih (past ++ [e]) _ (by rw [hf, h1]) (fun pre e' post he hl => hstep pre e' post (by simpa using he) (by simp at hl; omega)),
      hms, h1]
    have h2 : ms (((state e).map (change t)).getD t) = ms t := by
      cases state e with
      | none => rfl
      | some c => exact hc t c
    rw [h2]
    show _ = ms t + ((if up (past ++ [e]) then d else 0) + timeWhile up (past ++ [e]) h)
    omega

/-- `connectivity_connected_time_ms` is the time the modem was registered. -/
theorem C95_lte_connected (h : List (Lte × Nat)) :
    (timersAfter lteState ⟨false, false, 0, 0⟩ h).connectedMs = timeWhile registered [] h := by
  have := timers_time lteState (·.connected) (·.connectedMs) registered (fun _ _ => rfl) (fun _ _ => rfl)
    (fun t c => by cases c <;> rfl) h [] ⟨false, false, 0, 0⟩ rfl (by
      intro pre e post _ _ t ht
      unfold registered at ht ⊢
      rw [List.filter_append]
      cases e with
      | reg r => cases r <;> simp [lteState, regState, change, ht]
      | mode m => cases m <;> simp [lteState, modeState, change, ht])
  rw [this]
  show 0 + _ = _
  omega

/-- `connectivity_expected_time_ms` is the time the modem was switched on, if nothing is told about the registration of
a modem that is switched off. Missing: registrations reported by a modem that is off (`C95_false_lte`). -/
theorem C95_lte_expected_partial (h : List (Lte × Nat))
    (hr : ∀ pre r post, h.map (·.1) = pre ++ .reg r :: post → lteOn pre = true ∨ r = .other) :
    (timersAfter lteState ⟨false, false, 0, 0⟩ h).expectedMs = timeWhile lteOn [] h := by
  have := timers_time lteState (·.expected) (·.expectedMs) lteOn (fun _ _ => rfl) (fun _ _ => rfl)
    (fun t c => by cases c <;> rfl) h [] ⟨false, false, 0, 0⟩ rfl (by
      intro pre e post he _ t ht
      cases e with
      | reg r =>
        have h0 := hr pre r post he
        have h1 : lteOn (pre ++ [.reg r]) = lteOn pre := by
          unfold lteOn
          rw [List.filter_append]
          simp
        rw [h1]
        rcases h0 with h0 | h0
        · rw [h0] at ht ⊢
          cases r <;> simp [lteState, regState, change, ht]
        · subst h0
          exact ht
      | mode m =>
        unfold lteOn at ht ⊢
        rw [List.filter_append]
        cases m <;> simp [lteState, modeState, change, ht])
  rw [this]
  show 0 + _ = _
  omega

example : let h : List (Lte × Nat) := [(.mode .normal, 10), (.reg .searching, 20), (.reg .home, 100), (.reg .notRegistered, 5),
      (.reg .roaming, 50), (.mode .offline, 1000)]
    (timersAfter lteState ⟨false, false, 0, 0⟩ h) = ⟨false, false, 185, 150⟩ ∧ timeWhile registered [] h = 150 ∧
      timeWhile lteOn [] h = 185 := by decide

/-- False otherwise: the modem tells that it is not registered after it was switched off, and the time it is off counts
as time without a connection. -/
theorem C95_false_lte :
    let h : List (Lte × Nat) := [(.mode .normal, 10), (.reg .home, 100), (.mode .powerOff, 0), (.reg .notRegistered, 1000)]
    (timersAfter lteState ⟨false, false, 0, 0⟩ h) = ⟨true, false, 1110, 100⟩ ∧ timeWhile lteOn [] h = 110 := by
  decide

/-- `connectivity_connected_time_ms` is the time the station was connected. -/
theorem C95_sta_connected (h : List (Sta × Nat)) :
    (timersAfter staState ⟨false, false, 0, 0⟩ h).connectedMs = timeWhile staConnected [] h := by
  have := timers_time staState (·.connected) (·.connectedMs) staConnected (fun _ _ => rfl) (fun _ _ => rfl)
    (fun t c => by cases c <;> rfl) h [] ⟨false, false, 0, 0⟩ (by decide) (by
      intro pre e post _ _ t ht
      unfold staConnected at ht ⊢
      rw [List.filter_append]
      cases e <;> simp [staState, change, ht])
  rw [this]
  show 0 + _ = _
  omega

/-- `connectivity_expected_time_ms` is the time the station was started, if it is never stopped, and connects only when
it is started. Missing: stations that are stopped (`C95_false_sta`). -/
theorem C95_sta_expected_partial (h : List (Sta × Nat)) (hs : ∀ x ∈ h, x.1 ≠ .stop)
    (hr : ∀ pre e post, h.map (·.1) = pre ++ e :: post → e = .connected ∨ e = .disconnected → staOn pre = true) :
    (timersAfter staState ⟨false, false, 0, 0⟩ h).expectedMs = timeWhile staOn [] h := by
  have := timers_time staState (·.expected) (·.expectedMs) staOn (fun _ _ => rfl) (fun _ _ => rfl)
    (fun t c => by cases c <;> rfl) h [] ⟨false, false, 0, 0⟩ (by decide) (by
      intro pre e post he _ t ht
      have hstop : e ≠ .stop := by
        have : e ∈ h.map (·.1) := by
          rw [show h.map (·.1) = pre ++ e :: post from he]; simp
        obtain ⟨x, hx, rfl⟩ := List.mem_map.1 this
        exact hs x hx
      have h0 := hr pre e post he
      unfold staOn at ht h0 ⊢
      rw [List.filter_append]
      cases e <;> simp_all [staState, change])
  rw [this]
  show 0 + _ = _
  omega

example : let h : List (Sta × Nat) := [(.start, 10), (.connected, 100), (.disconnected, 20), (.connected, 30)]
    (timersAfter staState ⟨false, false, 0, 0⟩ h) = ⟨true, true, 160, 130⟩ ∧ timeWhile staOn [] h = 160 := by decide

/-- False otherwise: stopping Wi-Fi does not stop the timer. -/
theorem C95_false_sta :
    let h : List (Sta × Nat) := [(.start, 10), (.connected, 100), (.disconnected, 0), (.stop, 1000)]
    (timersAfter staState ⟨false, false, 0, 0⟩ h) = ⟨true, false, 1110, 100⟩ ∧ timeWhile staOn [] h = 110 := by
  decide

end Mflt.Props
