import Verif.Model.GdbRegisters

/-!
# C130: the registers of a coredump taken with GDB
-/

namespace Mflt.Props

open Mflt.Spec.GdbRegisters Mflt.GdbRegisters

namespace GdbRegistersAux

theorem readAll_none (read : Text → Option Nat) (t : Text) : ∀ (l : List (Text × Text)) (r : Regs),
    (∀ x ∈ l, x.2 ≠ t) → readAll read l r t = r t := by
  intro l
  induction l with
  | nil => intro r _; rfl
  | cons x l ih =>
    intro r h
    obtain ⟨a, e⟩ := x
    show readAll read l (tryRead read a e r) t = r t
    rw [ih _ fun y hy => h y (List.mem_cons_of_mem _ hy)]
    have he : e ≠ t := h (a, e) (List.mem_cons_self ..)
    unfold tryRead
    cases read a with
    | none => rfl
    | some v => exact if_neg fun h => he h.symm

/-- All entries for a register are read from the same place. -/
theorem readAll_same (read : Text → Option Nat) (t s : Text) : ∀ (l : List (Text × Text)) (r : Regs),
    (∀ x ∈ l, x.2 = t → x.1 = s) → (∃ x ∈ l, x.2 = t) → (r t = none ∨ r t = read s) → readAll read l r t = read s := by
  intro l
  induction l with
  | nil => rintro r _ ⟨x, hx, _⟩; exact nomatch hx
  | cons x l ih =>
    intro r h hex hr
    obtain ⟨a, e⟩ := x
    show readAll read l (tryRead read a e r) t = read s
    have h' : ∀ x ∈ l, x.2 = t → x.1 = s := fun y hy => h y (List.mem_cons_of_mem _ hy)
    by_cases he : e = t
    · have ha : a = s := h (a, e) (List.mem_cons_self ..) he
      subst he ha
      have hnew : tryRead read a e r e = none ∨ tryRead read a e r e = read a := by
        unfold tryRead
        cases hv : read a with
        | none => rcases hr with hr | hr
                  · exact Or.inl hr
                  · rw [hv] at hr; exact Or.inl hr
        | some v => exact Or.inr (if_pos rfl)
      have hread : tryRead read a e r e = read a := by
        unfold tryRead
        cases hv : read a with
        | none => rcases hr with hr | hr
                  · exact hr
                  · rw [hv] at hr; exact hr
        | some v => exact if_pos rfl
      by_cases hl : ∃ x ∈ l, x.2 = e
      · exact ih _ h' hl hnew
      · rw [readAll_none read e l _ fun y hy hh => hl ⟨y, hy, hh⟩]
        exact hread
    · have hsame : tryRead read a e r t = r t := by
        unfold tryRead
        cases read a with
        | none => rfl
        | some v => exact if_neg fun h => he h.symm
      refine ih _ h' ?_ (by rw [hsame]; exact hr)
      obtain ⟨y, hy, hyt⟩ := hex
      rcases List.mem_cons.1 hy with rfl | hy
      · exact absurd hyt he
      · exact ⟨y, hy, hyt⟩

theorem altNames_mem (a : Arch) (names : List Text) (x t : Text) : ∀ l : List Text,
    (x, t) ∈ altNames a names l ↔ t ∈ l ∧ t ∉ names ∧ searchAlt a names t = some x := by
  intro l
  induction l with
  | nil => simp [altNames]
  | cons e l ih =>
    unfold altNames
    by_cases hc : names.contains e = true
    · rw [if_pos hc, ih]
      have hc' : e ∈ names := by simpa using hc
      constructor
      · rintro ⟨h1, h2⟩
        exact ⟨List.mem_cons_of_mem _ h1, h2⟩
      · rintro ⟨h1, h2, h3⟩
        rcases List.mem_cons.1 h1 with rfl | h1
        · exact absurd hc' h2
        · exact ⟨h1, h2, h3⟩
    · rw [if_neg hc]
      have hc' : e ∉ names := by simpa using hc
      cases hs : searchAlt a names e with
      | none =>
        simp only
        rw [ih]
        constructor
        · rintro ⟨h1, h2⟩
          exact ⟨List.mem_cons_of_mem _ h1, h2⟩
        · rintro ⟨h1, h2, h3⟩
          rcases List.mem_cons.1 h1 with rfl | h1
          · rw [hs] at h3; exact nomatch h3
          · exact ⟨h1, h2, h3⟩
      | some y =>
        simp only [List.mem_cons, ih, Prod.mk.injEq]
        constructor
        · rintro (⟨rfl, rfl⟩ | ⟨h1, h2⟩)
          · exact ⟨Or.inl rfl, hc', hs⟩
          · exact ⟨Or.inr h1, h2⟩
        · rintro ⟨h1 | h1, h2, h3⟩
          · subst h1
            rw [hs] at h3
            injection h3 with h3
            exact Or.inl ⟨h3.symm, rfl⟩
          · exact Or.inr ⟨h1, h2, h3⟩

/-- The value of a register. -/
theorem lookup_eq (a : Arch) (names : List Text) (read : Text → Option Nat) (t : Text) :
    (t ∉ a.expected → lookup a names read t = none) ∧
    (t ∈ a.expected → t ∈ names → lookup a names read t = read t) ∧
    (t ∈ a.expected → t ∉ names → lookup a names read t = (searchAlt a names t).bind read) := by
  have hfirst : ∀ x ∈ (names.filter fun n => a.expected.contains n).map fun n => (n, n),
      x.1 = x.2 ∧ x.2 ∈ names ∧ x.2 ∈ a.expected := by
    intro x hx
    obtain ⟨n, hn, rfl⟩ := List.mem_map.1 hx
    obtain ⟨h1, h2⟩ := List.mem_filter.1 hn
    exact ⟨rfl, h1, by simpa using h2⟩
  unfold lookup
  refine ⟨fun h => ?_, fun h hn => ?_, fun h hn => ?_⟩
  · rw [readAll_none, readAll_none]
    · intro x hx e
      exact h (e ▸ (hfirst x hx).2.2)
    · intro x hx e
      exact h (e ▸ ((altNames_mem a names x.1 x.2 a.expected).1 hx).1)
  · rw [readAll_none]
    · refine readAll_same read t t _ _ (fun x hx e => (hfirst x hx).1.trans e) ?_ (Or.inl rfl)
      exact ⟨(t, t), List.mem_map.2 ⟨t, List.mem_filter.2 ⟨hn, by simpa using h⟩, rfl⟩, rfl⟩
    · intro x hx e
      exact ((altNames_mem a names x.1 x.2 a.expected).1 hx).2.1 (e ▸ hn)
  · cases hs : searchAlt a names t with
    | none =>
      rw [readAll_none, readAll_none]
      · rfl
      · intro x hx e
        exact hn (e ▸ (hfirst x hx).2.1)
      · intro x hx e
        have := ((altNames_mem a names x.1 x.2 a.expected).1 hx).2.2
        rw [e, hs] at this
        exact nomatch this
    | some s =>
      refine readAll_same read t s _ _ ?_ ⟨(s, t), (altNames_mem a names s t a.expected).2 ⟨h, hn, hs⟩, rfl⟩ ?_
      · intro x hx e
        have := ((altNames_mem a names x.1 x.2 a.expected).1 hx).2.2
        rw [e, hs] at this
        injection this with this
        exact this.symm
      · rw [readAll_none]
        · exact Or.inl rfl
        · intro x hx e
          exact hn (e ▸ (hfirst x hx).2.1)

theorem find_first {p : Text → Bool} {l : List Text} {x : Text} {P : Text → Prop} (hp : ∀ y, p y = true ↔ P y)
    (h : FirstWith P l x) : l.find? p = some x := by
  obtain ⟨a, b, rfl, hx, hy⟩ := h
  rw [List.find?_eq_some_iff_append]
  refine ⟨(hp x).2 hx, a, b, rfl, ?_⟩
  intro y hya
  cases h : p y with
  | false => rfl
  | true => exact absurd ((hp y).1 h) (hy y hya)

theorem find_none {p : Text → Bool} {l : List Text} {P : Text → Prop} (hp : ∀ y, p y = true ↔ P y)
    (h : ∀ y ∈ l, ¬ P y) : l.find? p = none :=
  List.find?_eq_none.2 fun y hy e => h y hy ((hp y).1 e)

theorem lower_iff (t y : Text) : (y.map Char.toLower == t) = true ↔ lowerCase y = t := beq_iff_eq

/-! ### MPU -/

theorem regions_eq : ∀ (n i : Nat) (d : Device), ∃ s,
    regions i n d = (some ((List.range' i n).flatMap fun j => wordBytes (d.address j) ++ wordBytes (d.attributes j)),
      { d with selected := s }) ∧ s = if n = 0 then d.selected else i + n - 1 := by
  intro n
  induction n with
  | zero => intro i d; exact ⟨d.selected, rfl, rfl⟩
  | succ n ih =>
    intro i d
    have hw : writeReg d 0xE000ED98 i = { d with selected := i } := rfl
    obtain ⟨s, hs, he⟩ := ih (i + 1) { d with selected := i }
    refine ⟨s, ?_, ?_⟩
    · unfold regions
      rw [hw]
      have h1 : readReg { d with selected := i } 0xE000ED9C = some (d.address i) := rfl
      have h2 : readReg { d with selected := i } 0xE000EDA0 = some (d.attributes i) := rfl
      simp only [h1, h2, hs]
      rw [List.range'_succ, List.flatMap_cons]
      rfl
    · rw [he]
      by_cases hn : n = 0
      · simp [hn]
      · simp only [hn, if_false, Nat.add_eq_zero_iff, false_and]
        omega

end GdbRegistersAux

open GdbRegistersAux

/-- C130: a register that the server has under its name is in the coredump with the value that the server gives. -/
theorem C130_name (a : Arch) (names : List Text) (read : Text → Option Nat) (t : Text) (h : t ∈ a.expected)
    (hn : t ∈ names) : lookup a names read t = read t :=
  (lookup_eq a names read t).2.1 h hn

/-- C130: otherwise it is taken from the first register whose name is the same but for upper and lower case. -/
theorem C130_case (a : Arch) (names : List Text) (read : Text → Option Nat) (t x : Text) (h : t ∈ a.expected)
    (hn : t ∉ names) (hx : FirstWith (fun y => lowerCase y = t) names x) : lookup a names read t = read x := by
  rw [(lookup_eq a names read t).2.2 h hn]
  unfold searchAlt
  rw [find_first (lower_iff t) hx]
  rfl

/-- C130: otherwise from the first of its other names that the server has; without any of them it is not in the coredump. -/
theorem C130_other_name (a : Arch) (names : List Text) (read : Text → Option Nat) (t : Text) (h : t ∈ a.expected)
    (hc : ∀ y ∈ names, lowerCase y ≠ t) (hn : t ∉ names) :
    (∀ x, FirstWith (fun y => y ∈ names) (a.alternatives t) x → lookup a names read t = read x) ∧
      ((∀ x ∈ a.alternatives t, x ∉ names) → lookup a names read t = none) := by
  have hcon : ∀ y, (names.contains y) = true ↔ y ∈ names := fun y => by simp
  rw [(lookup_eq a names read t).2.2 h hn]
  unfold searchAlt
  rw [find_none (lower_iff t) hc]
  refine ⟨fun x hx => ?_, fun hx => ?_⟩
  · simp only [find_first hcon hx]
    rfl
  · simp only [find_none hcon hx]
    rfl

/-- C130: no other register is in the coredump. -/
theorem C130_only (a : Arch) (names : List Text) (read : Text → Option Nat) (t : Text) (h : t ∉ a.expected) :
    lookup a names read t = none :=
  (lookup_eq a names read t).1 h

/-- C130: on ARM the program status register is found under the name that some servers give it. -/
theorem C130_arm (names : List Text) (read : Text → Option Nat) (hc : ∀ y ∈ names, lowerCase y ≠ "xpsr".toList)
    (hn : "xpsr".toList ∉ names) (h : "cpsr".toList ∈ names) :
    lookup arm names read "xpsr".toList = read "cpsr".toList := by
  refine (C130_other_name arm names read _ ?_ hc hn).1 _ ⟨[], [], ?_, h, fun y hy => nomatch hy⟩
  · show _ ∈ _
    decide +kernel
  · decide +kernel

/-- C130: on ARM the general registers, the stack pointers, and the registers for interrupts are collected. -/
theorem C130_arm_registers : arm.expected =
    (["r0", "r1", "r2", "r3", "r4", "r5", "r6", "r7", "r8", "r9", "r10", "r11", "r12", "sp", "lr", "pc", "xpsr", "msp",
      "psp", "primask", "control"] : List String).map String.toList :=
  rfl

/-- C130: for a processor that is known, the type and the control register of the MPU, and the address and the attributes of
each of its regions are collected; nothing else of the device changes than the region that is selected.
Missing: that this does not change either (`C130_false_selected`). -/
theorem C130_mpu_partial (d : Device) (id type ctrl : Nat) (h0 : d.word 0xE000ED00 = some id)
    (h1 : d.word 0xE000ED90 = some type) (h2 : d.word 0xE000ED94 = some ctrl) (hk : id / 16 % 4096 ∈ knownParts) :
    ∃ s, collectMpu d = (some (wordBytes type ++ wordBytes ctrl ++
      (List.range (type / 256 % 256)).flatMap fun j => wordBytes (d.address j) ++ wordBytes (d.attributes j)),
      { d with selected := s }) ∧ (type / 256 % 256 = 0 → s = d.selected) := by
  obtain ⟨s, hs, he⟩ := regions_eq (type / 256 % 256) 0 d
  refine ⟨s, ?_, fun h => by rw [he, if_pos h]⟩
  have r0 : readReg d 0xE000ED00 = some id := h0
  have r1 : readReg d 0xE000ED90 = some type := h1
  have r2 : readReg d 0xE000ED94 = some ctrl := h2
  have hk' : [0xC20, 0xC21, 0xC23, 0xC24, 0xC27, 0xC60].contains (id / 16 % 4096) = true :=
    List.contains_iff_mem.2 hk
  unfold collectMpu
  simp only [r0, r1, r2, hk', if_true, hs, List.range_eq_range']
  rfl

/-- C130: for any other processor nothing is collected and nothing changes. -/
theorem C130_mpu_unknown (d : Device) (id : Nat) (h0 : d.word 0xE000ED00 = some id)
    (hk : id / 16 % 4096 ∉ knownParts) : collectMpu d = (none, d) := by
  have r0 : readReg d 0xE000ED00 = some id := h0
  have hk' : [0xC20, 0xC21, 0xC23, 0xC24, 0xC27, 0xC60].contains (id / 16 % 4096) = false :=
    Bool.eq_false_iff.2 fun e => hk (List.contains_iff_mem.1 e)
  unfold collectMpu
  simp only [r0, hk', Bool.false_eq_true, if_false]

/-! ### Examples -/

namespace GdbRegistersAux

/-- A Cortex-M4 with two regions. -/
def sample : Device :=
  { word := fun a => if a = 0xE000ED00 then some 0x410FC241 else if a = 0xE000ED90 then some 0x200 else some 5,
    selected := 7, address := fun i => i, attributes := fun i => 16 + i }

end GdbRegistersAux

example : (collectMpu sample).1 = some ([0, 2, 0, 0, 5, 0, 0, 0, 0, 0, 0, 0, 16, 0, 0, 0, 1, 0, 0, 0, 17, 0, 0, 0]) := by
  decide +kernel

example : lookup arm ["CONTROL".toList, "cpsr".toList, "r1".toList] (fun t => some t.length) "control".toList = some 7 :=
  C130_case arm _ _ _ "CONTROL".toList (by decide +kernel) (by decide +kernel)
    ⟨[], ["cpsr".toList, "r1".toList], rfl, by decide +kernel, fun y hy => nomatch hy⟩

/-- C130, a defect: taking a coredump leaves another region of the MPU selected. A program that was halted between selecting
a region and setting it up then changes the wrong region. -/
theorem C130_false_selected : ∃ d : Device, d.selected = 7 ∧ (collectMpu d).2.selected = 1 :=
  ⟨sample, rfl, by decide +kernel⟩

/-- C130, a defect: a register whose value is not available under its name is not looked for under its other names. -/
theorem C130_false_unavailable : ∃ (names : List Text) (read : Text → Option Nat),
    names = ["xpsr".toList, "cpsr".toList] ∧ read "cpsr".toList = some 1 ∧ lookup arm names read "xpsr".toList = none :=
  ⟨_, fun t => if t = "cpsr".toList then some 1 else none, rfl, by decide +kernel, by decide +kernel⟩

end Mflt.Props
