import Verif.Model.CortexAR
import Verif.Lemmas.CortexM

/-! # Lemmas: the exception handlers of Cortex-A/R -/

namespace Mflt.CortexAR

open Spec.CortexAR
open Spec.CortexM (add sub store)
open CortexM (sub_eq add_eq store_at and_testBit)

theorem msrC_mode (a v : Nat) : (a / 256 * 256 + v / 64 % 4 * 64 + a / 32 % 2 * 32 + v % 32) % 32 = v % 32 := by
  omega

theorem msrAll_mode (a v : Nat) : (v / 64 * 64 + a / 32 % 2 * 32 + v % 32) % 32 = v % 32 := by
  omega

/-- The mode entered to store the banked registers. -/
theorem enter_mode {p : Nat} (hp : p % 32 ∈ [16, 17, 18, 19, 23, 27, 31]) :
    bank ((if (p &&& 0xf == 0) = true then p ||| 0xf else p) % 32) = bank (p % 32) ∧
    ((if (p &&& 0xf == 0) = true then p ||| 0xf else p) % 32 = 17 ↔ p % 32 = 17) := by
  have h1 : p &&& 0xf = p % 16 := Nat.and_two_pow_sub_one_eq_mod p 4
  rw [h1]
  simp only [List.mem_cons, List.not_mem_nil, or_false] at hp
  by_cases h0 : p % 16 = 0
  · have hm : p % 32 = 16 := by omega
    have h2 : p ||| 0xf = p + 15 := by
      have := (Nat.two_pow_add_eq_or_of_lt (i := 4) (b := 15) (by decide) (p / 16)).symm
      rw [show 2 ^ 4 * (p / 16) = p by omega] at this
      exact this
    simp only [h0, beq_self_eq_true, if_true]
    rw [h2, show (p + 15) % 32 = 31 by omega, hm]
    decide
  · rw [if_neg (by simpa using h0)]
    exact ⟨rfl, Iff.rfl⟩

/-- What an exception handler passes on: the registers in a structure on the stack of its mode, and the
reason. `p`, `r`: status and address of the code that was interrupted. -/
structure Passed (h h' : Cpu) (M r p reason : Nat) : Prop where
  r0 : h'.low 0 = h.sp M - 68
  r1 : h'.low 1 = reason
  mode : h'.mode = M
  sp : h'.sp M = h.sp M - 68
  state : ∀ i, i < 17 → h'.mem (h.sp M - 68 + 4 * i) =
    [h.low 0, h.low 1, h.low 2, h.low 3, h.low 4, h.low 5, h.low 6, h.low 7,
      h.mid (p % 32 = 17) 8, h.mid (p % 32 = 17) 9, h.mid (p % 32 = 17) 10, h.mid (p % 32 = 17) 11,
      h.mid (p % 32 = 17) 12, if bank (p % 32) = M then h.sp M - 68 else h.sp (bank (p % 32)),
      if bank (p % 32) = M then r else h.lr (bank (p % 32)), r, p].getD i 0
  mem : ∀ a, (a < h.sp M - 68 ∨ h.sp M ≤ a) → h'.mem a = h.mem a

theorem stores {mem : Nat → Nat} {m : Nat} {as bs cs : List Nat} (ha : as.length = 8) (hb : bs.length = 7)
    (hc : cs.length = 2) (h0 : 68 ≤ m) (hm : m < 4294967296) :
    (∀ i, i < 17 → store (store (store mem (m - 8) cs) (m - 68) as) (m - 36) bs (m - 68 + 4 * i) =
      (as ++ bs ++ cs).getD i 0) ∧
    ∀ a, (a < m - 68 ∨ m ≤ a) → store (store (store mem (m - 8) cs) (m - 68) as) (m - 36) bs a = mem a := by
  have h1 := store_at cs mem (m - 8) (by omega)
  have h2 := store_at as (store mem (m - 8) cs) (m - 68) (by omega)
  have h3 := store_at bs (store (store mem (m - 8) cs) (m - 68) as) (m - 36) (by omega)
  refine ⟨fun i hi => ?_, fun a ha => ?_⟩
  · simp only [List.getD_eq_getElem?_getD] at *
    by_cases hi8 : i < 8
    · rw [h3.2 _ (by omega), h2.1 i (by omega), List.getElem?_append_left (by simp; omega),
        List.getElem?_append_left (by omega)]
    · by_cases hi15 : i < 15
      · rw [show m - 68 + 4 * i = m - 36 + 4 * (i - 8) by omega, h3.1 (i - 8) (by omega),
          List.getElem?_append_left (by simp; omega), List.getElem?_append_right (by omega), ha]
      · rw [h3.2 _ (by omega), h2.2 _ (by omega), show m - 68 + 4 * i = m - 8 + 4 * (i - 15) by omega,
          h1.1 (i - 15) (by omega), List.getElem?_append_right (by simp; omega)]
        simp [ha, hb]
  · rw [h3.2 a (by omega), h2.2 a (by omega), h1.2 a (by omega)]

theorem shim_passed {h : Cpu} (z : Bool) (M reason : Nat) (hM : M = 23 ∨ M = 27) (hm : h.cpsr % 32 = M)
    (hp : h.spsr M % 32 ∈ [16, 17, 18, 19, 23, 27, 31]) (h0 : 68 ≤ h.sp M) (h1 : h.sp M < 4294967296) :
    Passed h (run (shim M reason) (h, z)).1 M (h.lr M) (h.spsr M) reason := by
  have hb : bank M = M := by rcases hM with rfl | rfl <;> rfl
  obtain ⟨e1, e2⟩ := enter_mode hp
  have h17 : M ≠ 17 := by omega
  have h31 : M ≠ 31 := by omega
  have s8 : sub (h.sp M) 8 = h.sp M - 8 := sub_eq (by omega) h1
  have s28 : sub (h.sp M - 8) 28 = h.sp M - 36 := by rw [sub_eq (by omega) (by omega)]; omega
  have s32 : sub (h.sp M - 36) 32 = h.sp M - 68 := by rw [sub_eq (by omega) (by omega)]; omega
  have a60 : add (h.sp M - 68) 60 = h.sp M - 8 := by rw [add_eq (by omega)]; omega
  have hA : (run ((shim M reason).take 6) (h, z)).1 = { h with
      low := fun j => if j = 4 then h.spsr M else if j = 3 then h.cpsr else if j = 2 then h.sp M - 8 else h.low j
      sp := fun m => if m = M then h.sp M - 68 else h.sp m
      mem := store (store h.mem (h.sp M - 8) [h.lr M, h.spsr M]) (h.sp M - 68)
        [h.low 0, h.low 1, h.low 2, h.low 3, h.low 4, h.low 5, h.low 6, h.low 7] } := by
    simp [shim, run, exec, Cpu.set, Cpu.get, Cpu.mode, hm, hb, s8, s28, s32, a60]
    funext m
    by_cases hmM : m = M <;> simp [hmM]
  have hrun : run (shim M reason) (h, z) =
      run ((shim M reason).drop 6) (run ((shim M reason).take 6) (h, z)) := by
    unfold run
    rw [← List.foldl_append, List.take_append_drop]
  rw [hrun]
  generalize hq : run ((shim M reason).take 6) (h, z) = q at hA ⊢
  obtain ⟨c, z'⟩ := q
  simp only at hA
  generalize hp' : h.spsr M = p at *
  generalize hpm : (if (p &&& 15 == 0) = true then p ||| 15 else p) = p' at e1 e2
  have s36 : sub (h.sp M - 8) 28 = h.sp M - 36 := s28
  have hB : (run ((shim M reason).drop 6) (c, z')).1 = { c with
      low := fun j => if j = 1 then reason else if j = 0 then h.sp M - 68 else if j = 2 then h.sp M - 36 else
        if j = 4 then p' else c.low j
      cpsr := (run ((shim M reason).drop 6) (c, z')).1.cpsr
      mem := store c.mem (h.sp M - 36) [h.mid (p % 32 = 17) 8, h.mid (p % 32 = 17) 9, h.mid (p % 32 = 17) 10,
        h.mid (p % 32 = 17) 11, h.mid (p % 32 = 17) 12,
        if bank (p % 32) = M then h.sp M - 68 else h.sp (bank (p % 32)), h.lr (bank (p % 32))] } ∧
      (run ((shim M reason).drop 6) (c, z')).1.mode = M := by
    have hc4 : c.low 4 = p := by rw [hA]; simp
    have hc3 : c.low 3 = h.cpsr := by rw [hA]; simp
    have hc2 : c.low 2 = h.sp M - 8 := by rw [hA]; simp
    have hcs : ∀ m, c.sp m = if m = M then h.sp M - 68 else h.sp m := fun m => by rw [hA]
    have hcl : c.lr = h.lr := by rw [hA]
    have hcm : c.mid = h.mid := by rw [hA]
    have hcc : c.cpsr % 32 = M := by rw [hA]; exact hm
    have hdrop : (shim M reason).drop 6 = [.tstImm 4 0xf, .eq (.orrImm 4 4 0xf)] ++
      [.msrC 4, .stmdb 2 [8, 9, 10, 11, 12, 13, 14], .msrAll 3, .mov 0 13, .movImm 1 reason] := rfl
    have hC : run [.tstImm 4 0xf, .eq (.orrImm 4 4 0xf)] (c, z') =
        ({ c with low := fun j => if j = 4 then p' else c.low j }, p &&& 15 == 0) := by
      simp only [run, List.foldl_cons, List.foldl_nil, exec, Cpu.get, Cpu.set, show (4 : Nat) < 8 by decide,
        if_true, hc4]
      rw [← hpm]
      cases p &&& 15 == 0 with
      | true => simp
      | false =>
        simp only [Bool.false_eq_true, if_false, Prod.mk.injEq, and_true]
        have : c.low = fun j => if j = 4 then p else c.low j := by
          funext j; by_cases hj : j = 4
          · simp [hj, hc4]
          · simp [hj]
        rw [← this]
    have happ : ∀ is js : List Instr, ∀ s, run (is ++ js) s = run js (run is s) := fun is js s => by
      unfold run; rw [List.foldl_append]
    rw [hdrop, happ, hC]
    constructor
    · simp [run, exec, Cpu.set, Cpu.get, Cpu.mode, msrC_mode, msrAll_mode, e1, e2, hc2, hc3, s36, hcs, hcl, hcm, hm,
        hb, h17]
      have k1 : (h.cpsr / 64 * 64 +
          (c.cpsr / 256 * 256 + p' / 64 % 4 * 64 + c.cpsr / 32 % 2 * 32 + p' % 32) / 32 % 2 * 32 + M) % 32 = M := by
        omega
      have k2 : (c.cpsr / 256 * 256 + p' / 64 % 4 * 64 + c.cpsr / 32 % 2 * 32 + p') % 32 = p' % 32 := by omega
      have e2' : decide (p' % 32 = 17) = decide (p % 32 = 17) := by rw [Bool.eq_iff_iff]; simpa using e2
      rw [k1, k2, e1, e2', hb]
      simp
    · simp [run, exec, Cpu.set, Cpu.get, Cpu.mode, msrC_mode, msrAll_mode, e1, e2, hc2, hc3, s36, hcs, hcl, hcm, hm,
        hb, h17]
      omega
  obtain ⟨hB, hBm⟩ := hB
  have hmem : (run ((shim M reason).drop 6) (c, z')).1.mem = store (store (store h.mem (h.sp M - 8) [h.lr M, p])
      (h.sp M - 68) [h.low 0, h.low 1, h.low 2, h.low 3, h.low 4, h.low 5, h.low 6, h.low 7]) (h.sp M - 36)
      [h.mid (p % 32 = 17) 8, h.mid (p % 32 = 17) 9, h.mid (p % 32 = 17) 10,
        h.mid (p % 32 = 17) 11, h.mid (p % 32 = 17) 12,
        if bank (p % 32) = M then h.sp M - 68 else h.sp (bank (p % 32)), h.lr (bank (p % 32))] := by
    rw [hB, hA]
  have hst := stores (mem := h.mem) (m := h.sp M)
    (as := [h.low 0, h.low 1, h.low 2, h.low 3, h.low 4, h.low 5, h.low 6, h.low 7])
    (bs := [h.mid (p % 32 = 17) 8, h.mid (p % 32 = 17) 9, h.mid (p % 32 = 17) 10,
        h.mid (p % 32 = 17) 11, h.mid (p % 32 = 17) 12,
        if bank (p % 32) = M then h.sp M - 68 else h.sp (bank (p % 32)), h.lr (bank (p % 32))])
    (cs := [h.lr M, p]) rfl rfl rfl h0 h1
  refine ⟨by rw [hB]; simp, by rw [hB]; simp, hBm, by rw [hB, hA]; simp, fun i hi => ?_, fun a ha => ?_⟩
  · rw [hmem, hst.1 i hi]
    have : (if bank (p % 32) = M then h.lr M else h.lr (bank (p % 32))) = h.lr (bank (p % 32)) := by
      split
      · next hq => rw [hq]
      · rfl
    rw [this]
    rfl
  · rw [hmem, hst.2 a ha]

end Mflt.CortexAR
