import Verif.Model.Mem

/-!
# Specification: exceptions of an Arm Cortex-M processor

What the processor does (Armv7-M Architecture Reference Manual, B1.5.6 and B1.5.7; Armv6-M and Armv8-M
without security extension are alike): registers, stack pointers, memory as words, entry into an exception,
and the few instructions an exception handler starts with. Nothing here refers to the library.

Registers and addresses are natural numbers below 2^32.
-/

namespace Mflt.Spec.CortexM

/-- Subtraction of words. -/
def sub (a b : Nat) : Nat := (a + 4294967296 - b) % 4294967296

/-- Addition of words. -/
def add (a b : Nat) : Nat := (a + b) % 4294967296

/-- The processor when an exception happens: `r 0` … `r 12`, link register, address of the instruction,
program status, both stack pointers, which of them is in use (the process stack pointer only in thread mode),
whether there is a floating point context, and whether the stack is aligned to 8 bytes on entry
(CCR.STKALIGN). -/
structure Cpu where
  r : Nat → Nat
  lr : Nat
  pc : Nat
  xpsr : Nat
  msp : Nat
  psp : Nat
  usesPsp : Bool
  fpContext : Bool
  align : Bool
  mem : Nat → Nat

/-- The stack pointer in use. -/
def Cpu.sp (c : Cpu) : Nat := if c.usesPsp then c.psp else c.msp

/-- Stores words at increasing addresses. -/
def store (mem : Nat → Nat) : Nat → List Nat → Nat → Nat
  | _, [] => mem
  | a, w :: ws => store (fun x => if x = a then w else mem x) (add a 4) ws

/-- The size of the frame an exception stacks. -/
def Cpu.frameSize (c : Cpu) : Nat := if c.fpContext then 104 else 32

/-- Whether a word of padding is needed: the stack is aligned to 8 bytes if STKALIGN is set or there is a
floating point context. -/
def Cpu.padded (c : Cpu) : Bool := (c.align || c.fpContext) && decide (c.sp % 8 = 4)

/-- The address of the frame. -/
def Cpu.frame (c : Cpu) : Nat :=
  if c.align || c.fpContext then sub c.sp c.frameSize / 8 * 8 else sub c.sp c.frameSize

/-- What is stacked: R0-R3, R12, LR, the return address, and xPSR with bit 9 telling whether there is
padding. -/
def Cpu.stacked (c : Cpu) : List Nat :=
  [c.r 0, c.r 1, c.r 2, c.r 3, c.r 12, c.lr, c.pc, c.xpsr + (if c.padded then 512 else 0)]

/-- The processor in handler mode, where the main stack pointer is in use. -/
structure Handler where
  r : Nat → Nat
  lr : Nat
  msp : Nat
  psp : Nat
  /-- the zero flag -/
  z : Bool
  mem : Nat → Nat

/-- What EXC_RETURN tells: bit 2 the stack pointer, bit 4 that there is no floating point context. -/
def IsExcReturn (c : Cpu) (w : Nat) : Prop :=
  w.testBit 2 = c.usesPsp ∧ w.testBit 4 = !c.fpContext

/-- Entry into an exception: `h` is what a handler starts with. R0-R3, R12 and the flags are unknown, and so
is the part of the frame that is reserved for floating point registers. -/
structure Entered (c : Cpu) (h : Handler) : Prop where
  preserved : ∀ i, 4 ≤ i → i ≤ 11 → h.r i = c.r i
  lr : IsExcReturn c h.lr
  msp : h.msp = if c.usesPsp then c.msp else c.frame
  psp : h.psp = if c.usesPsp then c.frame else c.psp
  frame : ∀ i, i < 8 → h.mem (c.frame + 4 * i) = c.stacked.getD i 0
  mem : ∀ a, (a < c.frame ∨ c.frame + c.frameSize + (if c.padded then 4 else 0) ≤ a) → h.mem a = c.mem a

/-- The instructions: `13` is the stack pointer and `14` the link register. -/
inductive Instr
  | tstImm (r imm : Nat)
  | tst (a b : Nat)
  | movImm (d imm : Nat)
  | mov (d s : Nat)
  | mrsMsp (d : Nat)
  | mrsPsp (d : Nat)
  /-- executed only if the zero flag is set (`eq`) or clear (`ne`) -/
  | eq (i : Instr)
  | ne (i : Instr)
  /-- registers in increasing order, the lowest one at the lowest address -/
  | push (rs : List Nat)

def Handler.get (h : Handler) (i : Nat) : Nat := if i = 13 then h.msp else if i = 14 then h.lr else h.r i

def Handler.set (h : Handler) (i v : Nat) : Handler := { h with r := fun j => if j = i then v else h.r j }

def exec (h : Handler) : Instr → Handler
  | .tstImm r imm => { h with z := h.get r &&& imm == 0 }
  | .tst a b => { h with z := h.get a &&& h.get b == 0 }
  | .movImm d imm => h.set d imm
  | .mov d s => h.set d (h.get s)
  | .mrsMsp d => h.set d h.msp
  | .mrsPsp d => h.set d h.psp
  | .eq i => if h.z then exec h i else h
  | .ne i => if h.z then h else exec h i
  | .push rs =>
    { h with msp := sub h.msp (4 * rs.length), mem := store h.mem (sub h.msp (4 * rs.length)) (rs.map h.get) }

def run (h : Handler) (is : List Instr) : Handler := is.foldl exec h

/-- What the architecture guarantees: words, stack pointers aligned to 4 bytes, and bit 9 of xPSR reserved. -/
structure Cpu.Ok (c : Cpu) : Prop where
  r : ∀ i, i ≤ 12 → c.r i < 4294967296
  lr : c.lr < 4294967296
  pc : c.pc < 4294967296
  xpsr : c.xpsr < 4294967296
  msp : c.msp < 4294967296
  psp : c.psp < 4294967296
  msp4 : c.msp % 4 = 0
  psp4 : c.psp % 4 = 0
  bit9 : c.xpsr.testBit 9 = false

/-- There is room on the stacks: for the frame, and for the 40 bytes a handler starts with on the main stack,
which do not overlap the frame. -/
structure Cpu.Room (c : Cpu) : Prop where
  frame : 112 ≤ c.sp
  main : 40 ≤ (if c.usesPsp then c.msp else c.frame)
  apart : c.usesPsp = true → c.msp ≤ c.frame ∨ c.sp + 40 ≤ c.msp

end Mflt.Spec.CortexM
