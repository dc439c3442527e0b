import Verif.Model.U32

/-!
# Model of a coredump storage and its self test

`ports/panics/src/memfault_platform_ram_backed_coredump.c` (coredump storage in RAM) and
`components/panics/src/memfault_coredump_storage_debug.c` (test of a coredump storage). The regions
chosen by the former are not modelled; the report of a failure of the latter is in `StorageReport`.
-/

namespace Mflt.CoredumpStorage

/-- The storage functions a platform implements. `σ` is the state of the storage. In all functions
`none` is undefined behaviour. A successful `read` gives the bytes it put into the buffer. -/
structure Platform (σ : Type) where
  size : Nat
  saveBegin : σ → Option (Bool × σ)
  erase : σ → Nat → Nat → Option (Bool × σ)
  write : σ → Nat → Bytes → Option (Bool × σ)
  read : σ → Nat → Nat → Option (Option Bytes × σ)
  clear : σ → Option σ

/-! ## Storage in RAM -/

/-- `prv_op_within_flash_bounds`, memfault_platform_ram_backed_coredump.c:83-87. -/
def withinBounds (size offset len : Nat) : Bool := add32 offset len ≤ size

/-- `memfault_platform_coredump_storage_read`, memfault_platform_ram_backed_coredump.c:89-98. The
state is the contents of `s_ram_backed_coredump_region`. -/
def ramRead (mem : Bytes) (offset len : Nat) : Option (Option Bytes × Bytes) :=
  if !withinBounds mem.length offset len then some (none, mem)
  else (memcpyOut mem offset len).map fun d => (some d, mem)

/-- `memfault_platform_coredump_storage_erase`, memfault_platform_ram_backed_coredump.c:100-109. -/
def ramErase (mem : Bytes) (offset len : Nat) : Option (Bool × Bytes) :=
  if !withinBounds mem.length offset len then some (false, mem)
  else (memcpyIn mem offset (List.replicate len 0)).map fun m => (true, m)

/-- `memfault_platform_coredump_storage_write`, memfault_platform_ram_backed_coredump.c:111-120. -/
def ramWrite (mem : Bytes) (offset : Nat) (data : Bytes) : Option (Bool × Bytes) :=
  if !withinBounds mem.length offset data.length then some (false, mem)
  else (memcpyIn mem offset data).map fun m => (true, m)

/-- `memfault_platform_coredump_storage_clear`, memfault_platform_ram_backed_coredump.c:122-125. -/
def ramClear (mem : Bytes) : Option Bytes := (ramWrite mem 0 [0]).map Prod.snd

/-- The storage in RAM as a platform, with a `memfault_platform_coredump_save_begin` that succeeds. -/
def ram (size : Nat) : Platform Bytes :=
  ⟨size, fun m => some (true, m), ramErase, ramWrite, ramRead, ramClear⟩

/-! ## The self test -/

/-- `eMemfaultCoredumpStorageTestOp`, memfault_coredump_storage_debug.c:28-34. -/
inductive TestOp
  | prepare | erase | write | clear | getInfo
  deriving Repr, DecidableEq

/-- `eMemfaultCoredumpStorageResult` and the rest of `sMemfaultCoredumpStorageTestResult`,
memfault_coredump_storage_debug.c:36-55. `expected`: the first `size` bytes of `expected_buf` (only they are used), if it is
not null. -/
inductive TestResult
  | success
  | platformApiFail (op : TestOp) (offset size : Nat)
  | readFailed (op : TestOp) (offset size : Nat)
  | compareFailed (op : TestOp) (offset size : Nat) (expected : Option Bytes)
  deriving Repr, DecidableEq

/-- `s_read_buf` after `prv_scrub_read_buf`, memfault_coredump_storage_debug.c:74-77, and a read of
`len` bytes that delivered `data`. -/
def readBuf (data : Bytes) (len : Nat) : Bytes :=
  data.take len ++ (List.replicate 16 0xef).drop (data.take len).length

/-- `prv_verify_erased`, memfault_coredump_storage_debug.c:79-84. -/
def verifyErased (byte : UInt8) : Bool := byte == 0x00 || byte == 0xff

/-- The inner loop over the bytes read after an erase, memfault_coredump_storage_debug.c:124-130: the
index of the first byte that is not erased. -/
def findNotErased : Bytes → Option Nat
  | [] => none
  | b :: bs => if !verifyErased b then some 0 else (findNotErased bs).map (· + 1)

/-- The loop that checks the erased storage, memfault_coredump_storage_debug.c:114-131. The outer
`none` is undefined behaviour or a loop that does not end. -/
def erasedLoop {σ : Type} (p : Platform σ) : Nat → σ → Nat → Option (TestResult × σ)
  | fuel, s, i =>
    if i < p.size then
      match fuel with
      | 0 => none
      | fuel + 1 =>
        let bytesToRead := min 16 (p.size - i)
        match p.read s i bytesToRead with
        | none => none
        | some (none, s) => some (.readFailed .erase i bytesToRead, s)
        | some (some d, s) =>
          match findNotErased ((readBuf d bytesToRead).take bytesToRead) with
          | some j => some (.compareFailed .erase (j + i) 1 none, s)
          | none => erasedLoop p fuel s (add32 i 16)
    else some (.success, s)

/-- `pattern1`, memfault_coredump_storage_debug.c:141-142. -/
def pattern1 : Bytes := [0xa0, 0xa1, 0xa2, 0xa3, 0xa4, 0xa5, 0xa6, 0xa7, 0xa8, 0xa9, 0xaa, 0xab]

/-- `pattern2`, memfault_coredump_storage_debug.c:145. -/
def pattern2 : Bytes := [0x5f, 0x5e, 0x5d, 0x5c, 0x5b, 0x5a, 0x59]

/-- `patterns[num_writes % 2]` cut to the end of the storage,
memfault_coredump_storage_debug.c:164-169 and 190-195. -/
def patternAt (size offset numWrites : Nat) : Bytes :=
  (if numWrites % 2 = 0 then pattern1 else pattern2).take (size - offset)

/-- The loop that writes patterns, memfault_coredump_storage_debug.c:161-177. -/
def writeLoop {σ : Type} (p : Platform σ) : Nat → σ → Nat → Nat → Option (TestResult × σ)
  | fuel, s, offset, numWrites =>
    if offset < p.size then
      match fuel with
      | 0 => none
      | fuel + 1 =>
        let pattern := patternAt p.size offset numWrites
        match p.write s offset pattern with
        | none => none
        | some (false, s) => some (.platformApiFail .write offset pattern.length, s)
        | some (true, s) => writeLoop p fuel s (offset + pattern.length) (numWrites + 1)
    else some (.success, s)

/-- The loop that reads the patterns back, memfault_coredump_storage_debug.c:187-213. -/
def checkLoop {σ : Type} (p : Platform σ) : Nat → σ → Nat → Nat → Option (TestResult × σ)
  | fuel, s, offset, numWrites =>
    if offset < p.size then
      match fuel with
      | 0 => none
      | fuel + 1 =>
        let pattern := patternAt p.size offset numWrites
        match p.read s offset pattern.length with
        | none => none
        | some (none, s) => some (.readFailed .write offset pattern.length, s)
        | some (some d, s) =>
          if (readBuf d pattern.length).take pattern.length ≠ pattern then
            some (.compareFailed .write offset pattern.length (some pattern), s)
          else checkLoop p fuel s (offset + pattern.length) (numWrites + 1)
    else some (.success, s)

/-- `memfault_coredump_storage_debug_test_begin`, memfault_coredump_storage_debug.c:86-219: the new
`s_test_result`; the function returns whether it is `success`. Fuel: every loop advances. -/
def testBegin {σ : Type} (p : Platform σ) (s : σ) : Option (TestResult × σ) :=
  if p.size = 0 then some (.platformApiFail .getInfo 0 p.size, s)
  else match p.saveBegin s with
    | none => none
    | some (false, s) => some (.platformApiFail .prepare 0 p.size, s)
    | some (true, s) =>
      match p.erase s 0 p.size with
      | none => none
      | some (false, s) => some (.platformApiFail .erase 0 p.size, s)
      | some (true, s) =>
        match erasedLoop p (p.size + 1) s 0 with
        | some (.success, s) =>
          match writeLoop p (p.size + 1) s pattern1.length 1 with
          | some (.success, s) =>
            match p.write s 0 pattern1 with
            | none => none
            | some (false, s) => some (.platformApiFail .write (max pattern1.length p.size) pattern1.length, s)
            | some (true, s) => checkLoop p (p.size + 1) s 0 0
          | r => r
        | r => r

/-- `prv_verify_coredump_clear_operation`, memfault_coredump_storage_debug.c:221-242. -/
def verifyClear {σ : Type} (p : Platform σ) (s : σ) : Option (TestResult × σ) :=
  match p.clear s with
  | none => none
  | some s =>
    match p.read s 0 1 with
    | none => none
    | some (none, s) => some (.readFailed .clear 0 1, s)
    | some (some d, s) =>
      if !verifyErased ((readBuf d 1).getD 0 0) then some (.compareFailed .clear 0 1 none, s)
      else some (.success, s)

/-- `memfault_coredump_storage_debug_test_finish`, memfault_coredump_storage_debug.c:259-331, given
`s_test_result`: what is returned, and the new `s_test_result`. -/
def testFinish {σ : Type} (p : Platform σ) (result : TestResult) (s : σ) :
    Option (Bool × TestResult × σ) :=
  match result with
  | .success =>
    match verifyClear p s with
    | none => none
    | some (.success, s) => some (true, .success, s)
    | some (r, s) => some (false, r, s)
  | r => some (false, r, s)

end Mflt.CoredumpStorage
