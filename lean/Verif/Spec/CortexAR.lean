import Verif.Spec.CortexM

/-!
# Specification: exceptions of an Arm Cortex-A/R processor

What the processor does (Armv7-A/R Architecture Reference Manual, B1.3, B1.8 and B9.3): registers, of which
some exist once per mode, entry into an exception, and the instructions exception handlers start with.
Nothing here refers to the library. Registers and addresses are natural numbers below 2^32, memory is made of
words.
-/

namespace Mflt.Spec.CortexAR

open Spec.CortexM (add sub store)

/-- The processor. A mode is a number, its encoding in the low five bits of CPSR: User 16, FIQ 17, IRQ 18,
Supervisor 19, Abort 23, Undefined 27, System 31. -/
structure Cpu where
  /-- R0-R7 -/
  low : Nat → Nat
  /-- R8-R12, of FIQ mode or of the other modes -/
  mid : Bool → Nat → Nat
  /-- R13 and R14 of each mode; those of System mode are those of User mode -/
  sp : Nat → Nat
  lr : Nat → Nat
  spsr : Nat → Nat
  pc : Nat
  cpsr : Nat
  mem : Nat → Nat

def Cpu.mode (c : Cpu) : Nat := c.cpsr % 32

/-- Whose R13 and R14 a mode uses. -/
def bank (mode : Nat) : Nat := if mode = 31 then 16 else mode

/-- Thumb state: bit 5 of CPSR. -/
def Cpu.thumb (c : Cpu) : Bool := c.cpsr.testBit 5

/-- The value of a register (but R15) in the current mode. -/
def Cpu.get (c : Cpu) (i : Nat) : Nat :=
  if i < 8 then c.low i
  else if i < 13 then c.mid (c.mode = 17) i
  else if i = 13 then c.sp (bank c.mode)
  else c.lr (bank c.mode)

def Cpu.set (c : Cpu) (i v : Nat) : Cpu :=
  if i < 8 then { c with low := fun j => if j = i then v else c.low j }
  else if i < 13 then
    { c with mid := fun b j => if b = decide (c.mode = 17) ∧ j = i then v else c.mid b j }
  else if i = 13 then { c with sp := fun m => if m = bank c.mode then v else c.sp m }
  else { c with lr := fun m => if m = bank c.mode then v else c.lr m }

/-- The exceptions. -/
inductive Exception
  | undefined | prefetchAbort | dataAbort
  deriving Repr, DecidableEq

/-- The mode an exception is taken in. -/
def Exception.mode : Exception → Nat
  | .undefined => 27
  | .prefetchAbort | .dataAbort => 23

/-- What is added to the address of the instruction to get the return address (Table B1-7). -/
def Exception.offset (thumb : Bool) : Exception → Nat
  | .undefined => if thumb then 2 else 4
  | .prefetchAbort => 4
  | .dataAbort => 8

/-- Entry into an exception: `h` is what a handler starts with. Bits of CPSR but the mode may change. -/
structure Entered (e : Exception) (c h : Cpu) : Prop where
  low : h.low = c.low
  mid : h.mid = c.mid
  sp : h.sp = c.sp
  lr : h.lr = fun m => if m = e.mode then add c.pc (e.offset c.thumb) else c.lr m
  spsr : h.spsr = fun m => if m = e.mode then c.cpsr else c.spsr m
  mode : h.cpsr % 32 = e.mode
  mem : h.mem = c.mem

/-- The instructions; those that may be conditional depend on the zero flag. -/
inductive Instr
  /-- stores the return address and the saved status on the stack of `mode` -/
  | srsdb (mode : Nat)
  | subImm (d n imm : Nat)
  | addImm (d n imm : Nat)
  /-- stores registers, given in increasing order, below the address in `base`, which is updated -/
  | stmdb (base : Nat) (rs : List Nat)
  /-- loads one register from the stack and releases its place -/
  | pop (d : Nat)
  | mrsCpsr (d : Nat)
  | mrsSpsr (d : Nat)
  | tstImm (r imm : Nat)
  | orrImm (d n imm : Nat)
  /-- writes bits 0-7 of CPSR, or all of them, but never the Thumb bit -/
  | msrC (s : Nat)
  | msrAll (s : Nat)
  | mov (d s : Nat)
  | movImm (d imm : Nat)
  | eq (i : Instr)
  | ne (i : Instr)

/-- A processor and the zero flag. -/
abbrev St := Cpu × Bool

def exec : Instr → St → St
  | .srsdb mode, (c, z) =>
    let a := sub (c.sp (bank mode)) 8
    ({ c with
        sp := fun m => if m = bank mode then a else c.sp m
        mem := store c.mem a [c.get 14, c.spsr c.mode] }, z)
  | .subImm d n imm, (c, z) => (c.set d (sub (c.get n) imm), z)
  | .addImm d n imm, (c, z) => (c.set d (add (c.get n) imm), z)
  | .stmdb base rs, (c, z) =>
    let a := sub (c.get base) (4 * rs.length)
    ({ c with mem := store c.mem a (rs.map c.get) }.set base a, z)
  | .pop d, (c, z) => ((c.set d (c.mem (c.get 13))).set 13 (add (c.get 13) 4), z)
  | .mrsCpsr d, (c, z) => (c.set d c.cpsr, z)
  | .mrsSpsr d, (c, z) => (c.set d (c.spsr c.mode), z)
  | .tstImm r imm, (c, _) => (c, c.get r &&& imm == 0)
  | .orrImm d n imm, (c, z) => (c.set d (c.get n ||| imm), z)
  | .msrC s, (c, z) =>
    let v := c.get s
    ({ c with cpsr := c.cpsr / 256 * 256 + v / 64 % 4 * 64 + c.cpsr / 32 % 2 * 32 + v % 32 }, z)
  | .msrAll s, (c, z) =>
    let v := c.get s
    ({ c with cpsr := v / 64 * 64 + c.cpsr / 32 % 2 * 32 + v % 32 }, z)
  | .mov d s, (c, z) => (c.set d (c.get s), z)
  | .movImm d imm, (c, z) => (c.set d imm, z)
  | .eq i, (c, z) => if z then exec i (c, z) else (c, z)
  | .ne i, (c, z) => if z then (c, z) else exec i (c, z)

def run (is : List Instr) (s : St) : St := is.foldl (fun s i => exec i s) s

/-- What the architecture guarantees: the mode is one of the modes, the address is a word. -/
structure Cpu.Ok (c : Cpu) : Prop where
  mode : c.mode ∈ [16, 17, 18, 19, 23, 27, 31]
  pc : c.pc < 4294967296

end Mflt.Spec.CortexAR
