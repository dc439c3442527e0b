import Verif.Lemmas.CoredumpRun

/-! # Lemmas: the finished coredump -/

namespace Mflt.Coredump

open Spec.Coredump

theorem fourBytes_le32 (n : Nat) : fourBytes n = le32 n := by
  simp only [fourBytes, le32, List.cons.injEq, and_true]
  refine ⟨?_, ?_, ?_, ?_⟩ <;> apply UInt8.toNat.inj <;> simp only [UInt8.toNat_ofNat'] <;> omega

theorem fixedOf_eq (info : SaveInfo) : fixedOf (fixedBlocks info) = infoBlocks info := by
  have hr : fixedOf (regBlocks info) = registerBlocks info.regs info.cpuCount := by
    unfold regBlocks registerBlocks fixedOf
    cases info.regs with
    | none => rfl
    | some regs =>
      dsimp only
      rw [List.flatMap_map]
  have hb : ∀ t n, blockOf t 0 (some (le32 n)) = [⟨t, 0, fourBytes n⟩] := by
    intro t n
    rw [fourBytes_le32]
    rfl
  unfold infoBlocks
  rw [← hr]
  unfold fixedBlocks fixedOf
  simp only [List.flatMap_append, List.flatMap_cons, List.flatMap_nil, List.append_assoc, hb,
    List.append_nil, List.cons_append, List.nil_append]

theorem tame_infoBlocks (info : SaveInfo) : ∀ b ∈ infoBlocks info, Tame b := by
  have hb : ∀ t d, t < 256 → ∀ b ∈ blockOf t 0 d, Tame b := fun t d ht =>
    tame_blockOf ht (by
      intro b hb
      cases d with
      | none => simp [blockOf] at hb
      | some d =>
        simp only [blockOf] at hb
        split at hb
        · simp at hb
        · rw [List.mem_singleton.mp hb]; exact (by decide : 0 < 2 ^ 32))
  intro b h
  unfold infoBlocks at h
  simp only [List.mem_append, List.mem_cons, List.not_mem_nil, or_false] at h
  rcases h with (((((h | h) | h) | h) | h) | h) | h | h
  · unfold registerBlocks at h
    split at h
    · simp at h
    · obtain ⟨i, -, h⟩ := List.mem_flatMap.mp h
      exact hb _ _ (by decide) b h
  · exact hb _ _ (by decide) b h
  · exact hb _ _ (by decide) b h
  · exact hb _ _ (by decide) b h
  · exact hb _ _ (by decide) b h
  · exact hb _ _ (by decide) b h
  · subst h; exact ⟨(by decide : 7 < 256), (by decide : 0 < 2 ^ 32)⟩
  · subst h; exact ⟨(by decide : 5 < 256), (by decide : 0 < 2 ^ 32)⟩

theorem content_infoBlocks (info : SaveInfo) : content (infoBlocks info) = infoBlocks info := by
  have hb : ∀ t d, t ≠ 6 → content (blockOf t 0 d) = blockOf t 0 d := fun t d ht => content_blockOf ht
  have hr : content (registerBlocks info.regs info.cpuCount) = registerBlocks info.regs info.cpuCount := by
    unfold registerBlocks
    cases info.regs with
    | none => rfl
    | some regs =>
      dsimp only
      generalize List.range info.cpuCount = l
      induction l with
      | nil => rfl
      | cons i l ih => rw [List.flatMap_cons, content_append, ih, hb _ _ (by decide)]
  unfold infoBlocks
  simp only [content_append, hr, hb 12 _ (by decide), hb 2 _ (by decide), hb 10 _ (by decide),
    hb 11 _ (by decide), hb 4 _ (by decide)]
  rfl

theorem blocks_ok {bs : List Block} (ht : ∀ b ∈ bs, Tame b) (hl : (encAll bs).length < 2 ^ 32) :
    ∀ b ∈ bs, BlockOk b := by
  induction bs with
  | nil => intro b hb; simp at hb
  | cons x bs ih =>
    have e : (encAll (x :: bs)).length = 12 + x.payload.length + (encAll bs).length := by
      rw [show x :: bs = [x] ++ bs from rfl, encAll_append, encAll_one, List.length_append, enc_length]
    rw [e] at hl
    intro b hb
    rcases List.mem_cons.mp hb with hb | hb
    · subst hb; exact ⟨(ht b (by simp)).1, (ht b (by simp)).2, by omega⟩
    · exact ih (fun b hb => ht b (by simp [hb])) (by omega) b hb

theorem blocks_length (bs : List Block) : bs.length * 12 ≤ (encAll bs).length := by
  induction bs with
  | nil => simp [encAll]
  | cons x bs ih =>
    have e : (encAll (x :: bs)).length = 12 + x.payload.length + (encAll bs).length := by
      rw [show x :: bs = [x] ++ bs from rfl, encAll_append, encAll_one, List.length_append, enc_length]
    rw [e, List.length_cons]
    omega

theorem length_footer (tr : Bool) : (footer tr).length = 16 := rfl
theorem length_header (n : Nat) : (header n).length = 12 := rfl

theorem footer_eq (tr : Bool) : footer tr = [0x44, 0x55, 0x4d, 0x50] ++
    (le32 (if tr then 1 else 0) ++ (le32 0 ++ le32 0)) := by
  unfold footer
  rw [List.append_assoc, List.append_assoc]
  congr 1

theorem parse_image {bs : List Block} (tr : Bool) (rest : Bytes) (ht : ∀ b ∈ bs, Tame b)
    (hl : 28 + (encAll bs).length < 2 ^ 32) :
    parse (header (28 + (encAll bs).length) ++ (encAll bs ++ (footer tr ++ rest))) =
      some ⟨28 + (encAll bs).length, tr, bs⟩ := by
  obtain ⟨N, hN⟩ : ∃ N, N = 28 + (encAll bs).length := ⟨_, rfl⟩
  rw [← hN] at hl ⊢
  obtain ⟨m, hm⟩ : ∃ m, m = header N ++ (encAll bs ++ (footer tr ++ rest)) := ⟨_, rfl⟩
  have hm' : m = [0x43, 0x4f, 0x52, 0x45] ++ (le32 2 ++ (le32 N ++ (encAll bs ++ (footer tr ++ rest)))) := by
    rw [hm, header_eq]; simp only [List.append_assoc]
  rw [← hm]
  have hml : m.length = N + rest.length := by
    rw [hm]; simp only [List.length_append, length_footer, length_header]; omega
  have e4 : m.drop 4 = le32 2 ++ (le32 N ++ (encAll bs ++ (footer tr ++ rest))) := by
    rw [hm', List.drop_left' (by rfl)]
  have e8 : m.drop 8 = le32 N ++ (encAll bs ++ (footer tr ++ rest)) := by
    rw [show 8 = 4 + 4 from rfl, ← List.drop_drop, e4, List.drop_left' (length_le32 _)]
  have t4 : m.take 4 = [0x43, 0x4f, 0x52, 0x45] := by rw [hm', List.take_left' (by rfl)]
  have d4 : (m.drop 4).take 4 = le32 2 := by rw [e4, List.take_left' (length_le32 _)]
  have d8 : (m.drop 8).take 4 = le32 N := by rw [e8, List.take_left' (length_le32 _)]
  have d12 : m.drop 12 = encAll bs ++ (footer tr ++ rest) := by
    rw [show 12 = 8 + 4 from rfl, ← List.drop_drop, e8, List.drop_left' (length_le32 _)]
  have df : m.drop (N - 16) = footer tr ++ rest := by
    rw [show N - 16 = 12 + (encAll bs).length by omega, ← List.drop_drop, d12, List.drop_left]
  have df4 : (m.drop (N - 12)).take 4 = le32 (if tr then 1 else 0) := by
    rw [show N - 12 = N - 16 + 4 by omega, ← List.drop_drop, df, footer_eq, List.append_assoc,
      List.drop_left' (by rfl), List.append_assoc, List.take_left' (length_le32 _)]
  have dft : (m.drop (N - 16)).take 4 = [0x44, 0x55, 0x4d, 0x50] := by
    rw [df, footer_eq, List.append_assoc, List.take_left' (by rfl)]
  have dt : (m.drop 12).take (N - 28) = encAll bs := by
    rw [show N - 28 = (encAll bs).length by omega, d12, List.take_left]
  have n8 : number ((m.drop 8).take 4) = N := by rw [d8, number_le32 hl]
  have n4 : number ((m.drop 4).take 4) = 2 := by rw [d4, number_le32 (by decide)]
  have nf : decide (number ((m.drop (N - 12)).take 4) % 2 = 1) = tr := by
    rw [df4, number_le32 (by split <;> decide)]
    cases tr <;> rfl
  have hp := parseBlocks_encAll bs m.length (blocks_ok ht (by omega)) (by have := blocks_length bs; omega)
  rw [← dt] at hp
  unfold parse
  rw [n8, n4, t4]
  dsimp only
  rw [dft, hp]
  clear e4 e8 t4 d4 d8 d12 df df4 dft dt n8 n4 hp hm hm'
  generalize number ((m.drop (N - 12)).take 4) = x at nf
  rw [if_pos ⟨rfl, rfl, by omega, by omega, rfl⟩]
  simp only [Option.map_some, Option.some.injEq, Dump.mk.injEq, true_and, and_true]
  exact nf

theorem image_header {e : UInt8} {size : Nat} {out : Bytes} (n : Nat) :
    apply e (image e size out) (.write 0 (header n)) =
      header n ++ (out ++ List.replicate (size - 12 - out.length) e) := by
  show (image e size out).take 0 ++ header n ++ (image e size out).drop (0 + (header n).length) = _
  rw [List.take_zero, List.nil_append, Nat.zero_add, length_header]
  unfold image
  rw [List.append_assoc (List.replicate 12 e), List.drop_left' (by rw [List.length_replicate])]

/-- Footer and header. -/
theorem writeEnd_at {p : Plat} (hp : ∀ i, p.answer i = true) {e : UInt8} {mem : Bytes} {c : Ctx}
    {bs : List Block} (h : At e mem c bs) (hr : c.offset + 16 ≤ mem.length) :
    ∃ c', writeEnd p c = (some (28 + (encAll bs).length), c') ∧
      c'.ops.foldl (apply e) mem = header (28 + (encAll bs).length) ++ (encAll bs ++ (footer c.truncated ++
        List.replicate (mem.length - 28 - (encAll bs).length) e)) := by
  have hb : AtB e mem c (encAll bs) := ⟨h.mode, h.noError, h.off, h.mem⟩
  obtain ⟨c1, e1, a1, -, -⟩ := platWrite_atB hp hb (d := footer c.truncated) hr
  have ho := a1.off
  rw [List.length_append, length_footer] at ho
  have ho' : c1.offset = 28 + (encAll bs).length := by omega
  refine ⟨{ c1 with offset := 12, ops := c1.ops ++ [.write 0 (header (28 + (encAll bs).length))] }, ?_, ?_⟩
  · unfold writeEnd
    rw [e1]
    dsimp only
    rw [ho']
    unfold platWrite
    dsimp only
    rw [a1.mode, hp]
    rfl
  · simp only [List.foldl_append, List.foldl_cons, List.foldl_nil]
    rw [a1.mem, image_header, List.length_append, length_footer, List.append_assoc]
    congr 4
    omega

theorem firstCtx_at {e : UInt8} {mem : Bytes} (h : 12 ≤ mem.length) :
    At e mem (firstCtx false mem.length [.erase mem.length]) [] := by
  refine ⟨rfl, ?_, rfl, rfl, Or.inr rfl, ?_⟩
  · unfold firstCtx; dsimp only; split <;> omega
  · show apply e mem (.erase mem.length) = _
    rw [erased]
    simp only [image, encAll, List.flatMap_nil, List.append_nil, List.length_nil, Nat.sub_zero]
    rw [List.replicate_append_replicate]
    congr 1; omega

/-- A whole save. -/
theorem writeSections_at {p : Plat} (hp : ∀ i, p.answer i = true) {e : UInt8} {mem : Bytes}
    (h12 : 12 ≤ mem.length) {info : SaveInfo} (hok : ∀ b ∈ regionBlocks info, b.address < 2 ^ 32) :
    ((writeSections p (firstCtx false mem.length [.erase mem.length]) info).1 = none ∧
      mem.length < 28 + (encAll (infoBlocks info)).length) ∨
    (28 + (encAll (infoBlocks info)).length ≤ mem.length ∧
      (writeFixed p (firstCtx false mem.length [.erase mem.length]) (fixedBlocks info)).1 = true ∧
     ∃ new, (∀ b ∈ new, Tame b) ∧ 28 + (encAll (infoBlocks info ++ new)).length ≤ mem.length ∧
      (writeSections p (firstCtx false mem.length [.erase mem.length]) info).1 =
        some (28 + (encAll (infoBlocks info ++ new)).length) ∧
      Outcome (regionBlocks info) (content new) false
        (writeAllRegions p (writeFixed p (firstCtx false mem.length [.erase mem.length]) (fixedBlocks info)).2
          info).2.truncated ∧
      (writeSections p (firstCtx false mem.length [.erase mem.length]) info).2.ops.foldl (apply e) mem =
        header (28 + (encAll (infoBlocks info ++ new)).length) ++ (encAll (infoBlocks info ++ new) ++
          (footer (writeAllRegions p (writeFixed p (firstCtx false mem.length [.erase mem.length])
              (fixedBlocks info)).2 info).2.truncated ++
            List.replicate (mem.length - 28 - (encAll (infoBlocks info ++ new)).length) e))) := by
  have h0 := firstCtx_at (e := e) h12
  have hs0 : (firstCtx false mem.length [.erase mem.length]).storageSize =
    if mem.length > 16 then mem.length - 16 else mem.length := rfl
  have ht0 : (firstCtx false mem.length [.erase mem.length]).truncated = false := rfl
  generalize firstCtx false mem.length [.erase mem.length] = c0 at h0 hs0 ht0
  obtain ⟨hiff, hyes⟩ := writeFixed_true hp (info := info) h0 ht0
  rw [fixedOf_eq] at hiff hyes
  have hinf : 32 ≤ (encAll (infoBlocks info)).length := by
    have := blocks_length (infoBlocks info)
    unfold infoBlocks
    rw [encAll_append, List.length_append]
    have : (encAll [(⟨7, 0, fourBytes info.machineType⟩ : Block), ⟨5, 0, fourBytes info.traceReason⟩]).length =
        32 := rfl
    omega
  unfold writeSections
  generalize hx : writeFixed p c0 (fixedBlocks info) = x at hiff hyes
  obtain ⟨ok, c1⟩ := x
  cases ok with
  | false =>
    left
    simp only [Bool.false_eq_true, false_iff] at hiff
    refine ⟨rfl, ?_⟩
    split at hs0 <;> omega
  | true =>
    right
    simp only [true_iff] at hiff
    obtain ⟨a1, t1, s1⟩ := hyes rfl
    simp only at a1 t1 s1
    dsimp only
    have hsz : c0.storageSize + 16 = mem.length := by
      split at hs0
      · omega
      · omega
    refine ⟨by omega, rfl, ?_⟩
    rw [writeAllRegions_eq]
    obtain ⟨new, n1, n2, n3, n4⟩ := writeRegions_at hp (info.archRegions ++ info.sdkRegions ++ info.regions)
      a1 hok
    generalize writeRegions p c1 (info.archRegions ++ info.sdkRegions ++ info.regions) = y at n1 n2 n4
    obtain ⟨done, c2⟩ := y
    simp only at n1 n2 n4
    have hoff := n1.off
    have hroom : c2.offset ≤ c2.storageSize := by
      rcases n1.room with h | h
      · exact h
      · have := congrArg (fun l => (encAll l).length) h
        rw [encAll_append, List.length_append] at this
        have h0 : (encAll ([] : List Block)).length = 0 := rfl
        omega
    rw [t1] at n4
    obtain ⟨c3, e3, m3⟩ := writeEnd_at hp n1 (by omega)
    have hif : (if !done && c2.writeError then (none, c2) else writeEnd p c2) = writeEnd p c2 := by
      rw [n1.noError]; simp
    dsimp only
    rw [hif, e3]
    exact ⟨new, n3, by omega, rfl, n4, m3⟩

end Mflt.Coredump
