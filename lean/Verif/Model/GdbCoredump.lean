import Verif.Model.Mem

/-!
# Model of `memfault coredump` in `scripts/memfault_gdb.py`

A coredump that is made with GDB. GDB itself is an environment: what it reads from the target, the table of
sections, the registers by name. An exception is `none`. Analytics, the user interface and the upload are left out.
-/

namespace Mflt.GdbCoredump

/-- `Section`, memfault_gdb.py:748-754, without its data. -/
structure Section where
  addr : Nat
  size : Nat
  name : List Char
  readOnly : Bool
  deriving Repr, DecidableEq

/-- `n in s` for strings. -/
def contains (n : List Char) : List Char → Bool
  | [] => n.isPrefixOf []
  | c :: s => n.isPrefixOf (c :: s) || contains n s

/-- `is_debug_info_section`, memfault_gdb.py:221-222. -/
def isDebug (s : Section) : Bool := ['.', 'd', 'e', 'b', 'u', 'g', '_'].isPrefixOf s.name

/-- `should_capture_section`, memfault_gdb.py:225-238. -/
def shouldCapture (s : Section) : Bool :=
  if s.size = 0 then false
  else if s.name = ['.', 't', 'e', 'x', 't'] then false
  else if isDebug s then false
  else if contains ['.', 'h', 'e', 'a', 'p'] s.name || contains ['.', 'b', 's', 's'] s.name ||
      contains ['.', 'd', 'a', 't', 'a'] s.name || contains ['.', 's', 't', 'a', 'c', 'k'] s.name then true
  else !s.readOnly

/-- A place of a list that is sorted by address: behind all that are not greater, as a stable sort has it. -/
def insertSorted (s : Section) : List Section → List Section
  | [] => [s]
  | t :: rest => if s.addr < t.addr then s :: t :: rest else t :: insertSorted s rest

/-- `regions.sort(key=lambda x: x.addr)`, memfault_gdb.py:474. -/
def sortByAddr (l : List Section) : List Section := l.foldl (fun acc s => insertSorted s acc) []

/-- The loop of `_merge_memory_regions`, memfault_gdb.py:477-487, with the last region so far. -/
def mergeFrom (prev : Section) : List Section → List Section
  | [] => [prev]
  | r :: rest =>
    if r.addr ≤ prev.addr + prev.size then
      mergeFrom { prev with size := max prev.size (r.addr + r.size - prev.addr) } rest
    else prev :: mergeFrom r rest

/-- `_merge_memory_regions`, memfault_gdb.py:472-489. -/
def merge (regions : List Section) : List Section :=
  match sortByAddr regions with
  | [] => []
  | r :: rest => mergeFrom r rest

/-- `_is_ram`, memfault_gdb.py:494-501. -/
def isRam (addr : Nat) : Bool :=
  let top := addr &&& 0xF0000000
  top == 0x20000000 || top == 0x30000000 || top == 0x60000000 || top == 0x80000000

/-- `guess_ram_regions` of `ArmCortexMCoredumpArch`, memfault_gdb.py:491-511. The addresses of merged regions
differ, so that the set has all of them; its order is left at the one of the list. -/
def guessArm (sections : List Section) : List (Nat × Nat) :=
  let capturable := (sections.filter shouldCapture).map fun s => { s with size := 1024 * 1024 }
  (((merge capturable).map (·.addr)).filter isRam).map fun a => (a, 1024 * 1024)

/-- `guess_ram_regions` of `XtensaCoredumpArch`, memfault_gdb.py:283-296. -/
def guessXtensa : List (Nat × Nat) := [(0x3FFAE000, 0x52000), (0x50000000, 0x2000), (0x3FF80000, 0x2000)]

/-- `read_memory_until_error`, memfault_gdb.py:800-809, from `addr` with `left` bytes to `end`. `read`: the memory
GDB reads, `none` an exception. -/
def readUntilError (read : Nat → Nat → Option Bytes) (addr left : Nat) : Bytes :=
  if left = 0 then []
  else
    match read addr (min (4 * 1024) left) with
    | none => []
    | some d => d ++ readUntilError read (addr + 4 * 1024) (left - 4 * 1024)
termination_by left
decreasing_by omega

/-- Registers by name, `register_list`. -/
abbrev Regs := String → Option Nat

/-- An assignment to a register in the list. -/
def setReg (r : Regs) (name : String) (v : Nat) : Regs := fun n => if n = name then some v else r n

/-- `register_value_to_bytes`, memfault_gdb.py:107-132: the number that is packed, on a little-endian host. -/
def regValue (v : Int) : Option Nat :=
  if v < 0 then if -(2 ^ 31 : Int) ≤ v then some (v + 2 ^ 32).toNat else none
  else if v < 2 ^ 32 then some v.toNat
  else none

/-- `struct.pack("<I", n)` of a number that fits. -/
def word (n : Nat) : Bytes :=
  [UInt8.ofNat (n % 256), UInt8.ofNat (n / 256 % 256), UInt8.ofNat (n / 65536 % 256), UInt8.ofNat (n / 16777216 % 256)]

/-- What `concat_registers_dict_to_bytes` adds for a register, memfault_gdb.py:541-544. -/
def regBytes (r : Regs) (n : String) : Bytes :=
  match r n with
  | none => [0, 0, 0, 0]
  | some v => word v

/-- `concat_registers_dict_to_bytes`, memfault_gdb.py:537-545. -/
def concatRegs (names : List String) (r : Regs) : Bytes := names.flatMap (regBytes r)

/-- `_pc_in_vector_table`, memfault_gdb.py:139-150; `read`: `_read_register`, :1158-1161. -/
def pcInVector (read : Nat → Option Nat) (r : Regs) (exc : Nat) : Bool :=
  match read 0xE000ED08, r "pc" with
  | some vtor, some pc =>
    match read (vtor + exc * 4) with
    | some h => h / 2 * 2 == pc
    | none => false
  | _, _ => false

/-- The loop of memfault_gdb.py:208-211: the registers, and whether there was no exception. -/
def patchFrame (read : Nat → Option Nat) : Nat → List String → Regs → Regs × Bool
  | _, [], r => (r, true)
  | addr, n :: rest, r =>
    match read addr with
    | none => (r, false)
    | some v => patchFrame read (addr + 4) rest (setReg r n v)

/-- `check_and_patch_reglist_for_fault`, memfault_gdb.py:153-217, and the `try` around it, :643-646. `confirm`: the
user says that this is the start of an exception handler. -/
def patchFault (read : Nat → Option Nat) (confirm : Bool) (r : Regs) : Regs :=
  match r "xpsr" with
  | none => r
  | some xpsr =>
    let exc := xpsr % 16
    if exc < 2 ∨ exc > 10 then r
    else
      match r "lr" with
      | none => r
      | some lr =>
        if lr / 2 ^ 28 ≠ 0xF then r
        else if lr / 32 % 2 = 0 then r
        else if !pcInVector read r exc && !confirm then r
        else
          match r (if lr / 4 % 2 ≠ 0 then "psp" else "msp") with
          | none => r
          | some sp =>
            let (r', ok) := patchFrame read sp ["r0", "r1", "r2", "r3", "r12", "lr", "pc", "xpsr"] r
            if !ok then r'
            else
              match r' "xpsr" with
              | none => r'
              | some xpsr' =>
                let offset := (if lr / 16 % 2 = 0 then 0x68 else 0x20) + (if xpsr' / 512 % 2 ≠ 0 then 4 else 0)
                if sp + offset < 2 ^ 32 then setReg r' "sp" (sp + offset) else r'

/-- A coredump that is made: `MemfaultCoredumpWriter`, memfault_gdb.py:673-683. `regs`: of each core; `sections`:
addresses and data; `time`: of the second run of `_write`. -/
structure Writer where
  registerNames : List String
  regs : List Regs
  serial : Bytes
  softwareVersion : Bytes
  softwareType : Bytes
  hardwareRevision : Bytes
  machineType : Nat
  time : Nat
  sections : List (Nat × Bytes)
  mpu : Option Bytes

/-- `_write_block`, memfault_gdb.py:699-701. -/
def writeBlock (type address : Nat) (payload : Bytes) : Option Bytes :=
  if address < 2 ^ 32 ∧ payload.length < 2 ^ 32 then
    some (UInt8.ofNat type :: 0 :: 0 :: 0 :: (word address ++ word payload.length ++ payload))
  else none

/-- The blocks that `_write` writes, memfault_gdb.py:703-731: type, address, payload. -/
def blocks (w : Writer) : List (Nat × Nat × Bytes) :=
  (w.regs.map fun r => (0, 0, concatRegs w.registerNames r)) ++
  [(2, 0, w.serial), (10, 0, w.softwareVersion), (11, 0, w.softwareType), (4, 0, w.hardwareRevision),
    (7, 0, word w.machineType), (5, 0, word 5), (1, 0xFFFFFFFC, word w.time)] ++
  (w.sections.map fun s => (1, s.1, s.2)) ++
  match w.mpu with
  | none => []
  | some m => if m = [] then [] else [(9, 0, m)]

/-- The blocks one after the other. -/
def writeBlocks : List (Nat × Nat × Bytes) → Option Bytes
  | [] => some []
  | (t, a, p) :: rest =>
    match writeBlock t a p with
    | none => none
    | some b => (writeBlocks rest).map fun r => b ++ r

/-- `write`, memfault_gdb.py:733-745, with the header of `_write`, :690-697. -/
def write (w : Writer) : Option Bytes :=
  match writeBlocks (blocks w) with
  | none => none
  | some body =>
    let total := 12 + body.length
    if total < 2 ^ 32 then some (word 0x45524F43 ++ word 1 ++ word total ++ body) else none

/-- The registers in memory of `add_platform_specific_sections`, memfault_gdb.py:444-464: those that can be read. -/
def platformSections (read : Nat → Nat → Option Bytes) : List (Nat × Bytes) :=
  [(0xE000E004, 0xE000E008), (0xE000E010, 0xE000E020), (0xE000ED00, 0xE000ED8F), (0xE000EDFC, 0xE000EE00),
    (0xE000E100, 0xE000E600)].filterMap fun (base, top) => (read base (top - base)).map fun d => (base, d)

/-- The regions of `build_coredump_writer`, memfault_gdb.py:1682-1694: those of the command line, or a guess. -/
def regionsOf (arm : Bool) (regions : Option (List (Nat × Nat))) (sections : List Section) : List (Nat × Nat) :=
  match regions with
  | some rs => rs
  | none => if arm then guessArm sections else guessXtensa

/-- The sections of `build_coredump_writer`, memfault_gdb.py:1680-1702. -/
def captured (arm : Bool) (read : Nat → Nat → Option Bytes) (regions : Option (List (Nat × Nat)))
    (sections : List Section) : List (Nat × Bytes) :=
  (if arm then platformSections read else []) ++
  (regionsOf arm regions sections).map fun r => (r.1, readUntilError read r.1 r.2)

end Mflt.GdbCoredump
