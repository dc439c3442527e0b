import Verif.Spec.GdbChunks

/-!
# Model of the chunk handler of the GDB script

`scripts/memfault_gdb.py`, `memfault install_chunk_handler`. Simplifications: white space is that of ASCII, and no name of a
file has `File ` in it; a breakpoint has only a location (`none`: a watchpoint); a disabled breakpoint is not hit; GDB stops
if the method of a breakpoint raises an exception. HTTP, the arguments and the analytics are left out.
-/

namespace Mflt.GdbChunks

open Spec.GdbChunks

/-- `GdbMemfaultPostChunkBreakpoint`, memfault_gdb.py:1176-1184. -/
structure Handler where
  enabled : Bool
  params : Option (Text × Text)

/-- The loop over the parameters, memfault_gdb.py:1192-1201. -/
def findParams : List (Text × Kind) → Option Text × Option Text → Option Text × Option Text
  | [], r => r
  | (name, .pointer) :: l, r => findParams l (some name, r.2)
  | (name, .integer) :: l, r => findParams l (r.1, some name)
  | (_, .other) :: l, r => findParams l r

/-- `_determine_param_names`, memfault_gdb.py:1186-1212. -/
def determine (sig : List (Text × Kind)) (h : Handler) : Option (Text × Text) :=
  match h.params with
  | some t => some t
  | none =>
    match findParams sig (none, none) with
    | (some p, some n) => some (p, n)
    | _ => none

/-- `read_memory`: `none` is an exception. -/
def readMemory (mem : Nat → Option Byte) : Nat → Nat → Option (List Byte)
  | _, 0 => some []
  | a, n + 1 => (mem a).bind fun b => (readMemory mem (a + 1) n).map fun l => b :: l

/-- `stop`, memfault_gdb.py:1214-1247. -/
def stop (sig : List (Text × Kind)) (h : Handler) (c : Call) : Handler × Outcome :=
  match determine sig h with
  | none => ({ h with enabled := false }, ⟨none, true⟩)
  | some (p, n) =>
    let h := { h with params := some (p, n) }
    match readMemory c.mem (c.value p % 2 ^ 32) (c.value n) with
    | none => (h, ⟨none, true⟩)
    | some data =>
      match c.answer with
      | none => (h, ⟨none, true⟩)
      | some s => if s ≠ 202 then ({ h with enabled := false }, ⟨some data, true⟩) else (h, ⟨some data, false⟩)

/-- All calls of the function, the user lets the device go on each time it is halted. -/
def runFrom (sig : List (Text × Kind)) : Handler → List Call → List Outcome
  | _, [] => []
  | h, c :: l => if h.enabled then (stop sig h c).2 :: runFrom sig (stop sig h c).1 l else ⟨none, false⟩ :: runFrom sig h l

/-- After the installation, memfault_gdb.py:1176-1184. -/
def run (sig : List (Text × Kind)) (calls : List Call) : List Outcome := runFrom sig ⟨true, none⟩ calls

/-- `in`, for texts. -/
def has (w : Text) : Text → Bool
  | [] => w.isEmpty
  | c :: s => w.isPrefixOf (c :: s) || has w s

/-- `\s`. -/
def isSpace (c : Char) : Bool := c == ' ' || c == '\t' || c == '\n' || c == '\r' || c.toNat == 11 || c.toNat == 12

/-- `info functions`: the expression is not anchored at the start, memfault_gdb.py:1275. -/
def found (fs : List Function) (w : Text) : List Function := fs.filter fun f => w.isSuffixOf f.name

/-- The loop over the names of the function, memfault_gdb.py:1274-1285. -/
def pickName (fs : List Function) : List Text → Option Text
  | [] => none
  | w :: l => if (found fs w).isEmpty then pickName fs l else some w

/-- `FILENAME_FROM_INFO_FUNC_PATTERN`, memfault_gdb.py:1261, 1295. -/
def fileOf (f : Function) : Option Text :=
  match f.file with
  | none => none
  | some x => if x.any isSpace || x.isEmpty then none else some x

/-- The loop over the files, memfault_gdb.py:1293-1300. -/
def pickFile : List Function → Option Text → Option Text
  | [], r => r
  | f :: l, r =>
    match fileOf f with
    | none => pickFile l r
    | some x => pickFile l (if r = none || !has "components/demo".toList x then some x else r)

/-- The loop that deletes breakpoints, memfault_gdb.py:1313-1319. A watchpoint has no location: `TypeError`. -/
def sweep (w : Text) : List (Option Text) → List (Option Text)
  | [] => []
  | none :: l => none :: l
  | some x :: l => if has w x then sweep w l else some x :: sweep w l

/-- `spec_prefix`, memfault_gdb.py:1302-1306. -/
def spec (file : Option Text) (w : Text) : Text :=
  match file with
  | none => w
  | some x => '\'' :: x ++ '\'' :: ':' :: w

/-- `_invoke`, memfault_gdb.py:1263-1328: the breakpoints. `none`: there is no such function. -/
def install (fs : List Function) (ws : List Text) (bps : List (Option Text)) : Option (List (Option Text)) :=
  match pickName fs ws with
  | none => none
  | some w => some (sweep w bps ++ [some (spec (pickFile (found fs w) none) w)])

end Mflt.GdbChunks
