import Verif.Model.Mem

/-!
# Model of `components/core/src/memfault_heap_stats.c`

Simplifications: pointers are numbers, `NULL` is 0; the in-use count is automatic
(`MEMFAULT_IN_USE_BLOCK_COUNT_AUTOMATIC`); calls are not concurrent (they hold the lock). An access
outside of the pool is undefined behaviour, a failed assertion also `none`.
-/

namespace Mflt.HeapStats

/-- MEMFAULT_HEAP_STATS_LIST_END, heap_stats_impl.h:26. -/
def listEnd : Nat := 0xFFFF

/-- `sMfltHeapStatEntry`, heap_stats_impl.h:29-46. -/
structure Entry where
  lr : Nat
  ptr : Nat
  size : Nat
  inUse : Bool
  next : Nat
  deriving Repr, DecidableEq

/-- `sMfltHeapStats` and the pool, heap_stats_impl.h:48-59, memfault_heap_stats.c:36-40. -/
structure State where
  pool : List Entry
  inUseCount : Nat
  maxInUse : Nat
  head : Nat
  deriving Repr, DecidableEq

/-- `memfault_heap_stats_reset`, memfault_heap_stats.c:54-62, and the initial values (36-40). -/
def reset (n : Nat) : State := ⟨List.replicate n ⟨0, 0, 0, false, 0⟩, 0, 0, listEnd⟩

/-- `memfault_heap_stats_empty`, memfault_heap_stats.c:64-68. -/
def empty (s : State) : Option Bool := s.pool[0]?.map fun e => e.size == 0

/-- `prv_get_previous_entry`, memfault_heap_stats.c:75-87. -/
def previousEntry (pool : List Entry) (search : Nat) : Nat :=
  (pool.findIdx? fun e => e.inUse && e.next == search).getD listEnd

/-- `prv_get_new_entry_index`, memfault_heap_stats.c:94-118: the first never used entry, or else the
first unused one, or else the oldest. -/
def newEntryIndex (pool : List Entry) : Nat :=
  match pool.findIdx? fun e => !e.inUse && e.size == 0 with
  | some i => i
  | none =>
    match pool.findIdx? fun e => !e.inUse with
    | some i => i
    | none => previousEntry pool listEnd

/-- An access to a pool entry. -/
def setNext (pool : List Entry) (i next : Nat) : Option (List Entry) :=
  pool[i]?.map fun e => pool.set i { e with next := next }

/-- `memfault_heap_stats_increment_in_use_block_count`, memfault_heap_stats.c:120-125. -/
def increment (s : State) : State :=
  let c := (s.inUseCount + 1) % 2 ^ 32
  { s with inUseCount := c, maxInUse := if c > s.maxInUse then c else s.maxInUse }

/-- `memfault_heap_stats_decrement_in_use_block_count`, memfault_heap_stats.c:126-128. -/
def decrement (s : State) : State :=
  { s with inUseCount := (s.inUseCount + 2 ^ 32 - 1) % 2 ^ 32 }

/-- The list part of `memfault_heap_stats_malloc`, memfault_heap_stats.c:137-165. -/
def insert (s : State) (lr ptr size : Nat) : Option State :=
  let i := newEntryIndex s.pool
  if i = listEnd then none
  else if i < s.pool.length then
    let pool := s.pool.set i ⟨lr, ptr, size % 2 ^ 31, true, s.head⟩
    let oldest := previousEntry pool i
    if oldest ≠ listEnd then
      (setNext pool oldest listEnd).map fun pool => { s with pool := pool, head := i }
    else some { s with pool := pool, head := i }
  else none

/-- `memfault_heap_stats_malloc`, memfault_heap_stats.c:130-169. -/
def malloc (s : State) (lr ptr size : Nat) : Option State :=
  if ptr ≠ 0 then insert (increment s) lr ptr size else some s

/-- The body of the loop of `memfault_heap_stats_free` for the entry `e` at `i` that matches,
memfault_heap_stats.c:182-199. -/
def remove (s : State) (i : Nat) (e : Entry) : Option State :=
  let pool := s.pool.set i { e with inUse := false }
  let prev := previousEntry pool i
  let head := if s.head = i then e.next else s.head
  (if prev ≠ listEnd then setNext pool prev e.next else some pool).bind fun pool =>
    (setNext pool i listEnd).map fun pool => { s with pool := pool, head := head }

/-- `memfault_heap_stats_free`, memfault_heap_stats.c:171-204. -/
def free (s : State) (ptr : Nat) : Option State :=
  if ptr ≠ 0 then
    let s := decrement s
    match s.pool.findIdx? fun e => e.ptr == ptr && e.inUse with
    | some i => s.pool[i]?.bind fun e => remove s i e
    | none => some s
  else some s

end Mflt.HeapStats
