import Verif.Spec.Coredump

/-!
# Specification: registers of a Cortex-M in a coredump

Addresses from the ARMv7-M Architecture Reference Manual, B3.
-/

namespace Mflt.Spec.ArmRegions

open Mflt.Spec.Coredump

/-- SHCSR, CFSR, HFSR, DFSR, MMFAR, BFAR, AFSR. -/
def faultRegisters : List Nat :=
  [0xE000ED24, 0xE000ED28, 0xE000ED2C, 0xE000ED30, 0xE000ED34, 0xE000ED38, 0xE000ED3C]

/-- SHPR1 to SHPR3, ICTR, ACTLR, SYST_CSR, ICSR, VTOR, DEMCR. -/
def systemRegisters : List Nat :=
  [0xE000ED18, 0xE000ED1C, 0xE000ED20, 0xE000E004, 0xE000E008, 0xE000E010, 0xE000ED04, 0xE000ED08, 0xE000EDFC]

/-- A coredump has a word at an address: a block of memory (1) with these four bytes. -/
def HasWord (blocks : List Block) (a v : Nat) : Prop :=
  ∃ b ∈ blocks, b.type = 1 ∧ b.address ≤ a ∧ a + 4 ≤ b.address + b.payload.length ∧
    number ((b.payload.drop (a - b.address)).take 4) = v

end Mflt.Spec.ArmRegions
