import Verif.Model.Mem

/-!
# Model of `components/core/src/memfault_ram_reboot_info_tracking.c`

`Ram` is the region that keeps its contents across resets, `Stat` the static variables, which are
initialised at every reset. Simplifications: `memfault_reboot_tracking_load` and `_save` are the weak
versions, which do nothing; the fields `version` and `rsvd` are never read and left out; re-initialising
the region is one step; `1 << 31` is bit 31. `eMemfaultRebootReason` is 32 bits wide and unsigned.
-/

namespace Mflt.RebootTracking

/-- MEMFAULT_REBOOT_INFO_MAGIC, memfault_ram_reboot_info_tracking.c:25. -/
def magic : Nat := 0x21544252

/-- MEMFAULT_REBOOT_REASON_NOT_SET, memfault_ram_reboot_info_tracking.c:39. -/
def notSet : Nat := 0xffffffff

/-- `sMfltRebootInfo`, memfault_reboot_tracking_private.h:19-44. -/
structure Ram where
  magic : Nat
  crashCount : Nat
  coredumpSaved : Nat
  reason : Nat
  pc : Nat
  lr : Nat
  reg0 : Nat
  sessions : BitVec 32
  deriving Repr, DecidableEq

/-- `s_mflt_reboot_info` (whether it points to the region) and `s_reboot_reason_data`,
memfault_ram_reboot_info_tracking.c:50-64. -/
structure Stat where
  info : Bool
  regReason : Nat
  priorReason : Nat
  isValid : Bool
  deriving Repr, DecidableEq

/-- The static variables after a reset, memfault_ram_reboot_info_tracking.c:50-64. -/
def Stat.init : Stat := ⟨false, 0, 0, false⟩

structure State where
  ram : Ram
  stat : Stat
  deriving Repr, DecidableEq

/-- The reset of the region in `prv_check_or_init_struct`, memfault_ram_reboot_info_tracking.c:75-80. -/
def initRam : Ram := ⟨magic, 0, 0, notSet, 0, 0, 0, 0⟩

/-- The region after `prv_check_or_init_struct`, memfault_ram_reboot_info_tracking.c:65-81, if there
is one. -/
def checkOrInit (r : Ram) : Ram := if r.magic = magic then r else initRam

/-- `sMfltRebootTrackingRegInfo`, reboot_tracking.h. -/
structure Regs where
  pc : Nat
  lr : Nat
  deriving Repr, DecidableEq

/-- `prv_record_reboot_reason`, memfault_ram_reboot_info_tracking.c:109-121. -/
def recordReason (s : Stat) (regReason prior : Nat) : Stat :=
  { s with regReason := regReason, priorReason := if prior ≠ notSet then prior else regReason, isValid := true }

/-- `prv_get_unexpected_reboot_occurred`, memfault_ram_reboot_info_tracking.c:123-140. -/
def unexpectedOccurred (s : Stat) : Bool :=
  let r := if s.priorReason ≠ notSet then s.priorReason else s.regReason
  r == 0 || decide (r ≥ 0x8000)

/-- The stores of `prv_record_reboot_event` to the region, memfault_ram_reboot_info_tracking.c:152-164. -/
def eventStores (reason : Nat) (regs : Option Regs) (r : Ram) : List (Ram → Ram) :=
  if r.reason ≠ notSet then []
  else (fun r => { r with reason := reason }) ::
    match regs with
    | none => []
    | some g => [fun r => { r with pc := g.pc }, fun r => { r with lr := g.lr }]

/-- Executing stores. -/
def exec (l : List (Ram → Ram)) (r : Ram) : Ram := l.foldl (fun r f => f r) r

/-- `sResetBootupInfo`, reboot_tracking.h. -/
structure Bootup where
  reg : Nat
  reason : Nat
  deriving Repr, DecidableEq

/-- The reason `memfault_reboot_tracking_boot` starts from, memfault_ram_reboot_info_tracking.c:187-191. -/
def bootReason (b : Option Bootup) : Nat := (b.map Bootup.reason).getD 0

/-- The static variables after `memfault_reboot_tracking_boot` on the checked region `r`,
memfault_ram_reboot_info_tracking.c:175-199. -/
def bootStat (b : Option Bootup) (s : Stat) (r : Ram) : Stat :=
  recordReason { s with info := true } (bootReason b) r.reason

/-- The stores of `memfault_reboot_tracking_boot` to the checked region `r`,
memfault_ram_reboot_info_tracking.c:187-198. -/
def bootStores (b : Option Bootup) (s : Stat) (r : Ram) : List (Ram → Ram) :=
  (match b with | some b => [fun (r : Ram) => { r with reg0 := b.reg }] | none => []) ++
  eventStores (bootReason b) none r ++
  (if unexpectedOccurred (bootStat b s r) then
    [fun (r : Ram) => { r with crashCount := (r.crashCount + 1) % 256 }] else [])

/-- `memfault_reboot_tracking_boot`, memfault_ram_reboot_info_tracking.c:173-197, on the region. -/
def boot (s : State) (b : Option Bootup) : State :=
  let r := checkOrInit s.ram
  ⟨exec (bootStores b s.stat r) r, bootStat b s.stat r⟩

/-- `memfault_reboot_tracking_mark_reset_imminent`, memfault_ram_reboot_info_tracking.c:199-208. -/
def mark (s : State) (reason : Nat) (regs : Option Regs) : State :=
  if s.stat.info then
    let r := checkOrInit s.ram
    ⟨exec (eventStores reason regs r) r, recordReason s.stat reason r.reason⟩
  else s

/-- `sMfltResetReasonInfo`, memfault_reboot_tracking_private.h:46-52. -/
structure Info where
  reason : Nat
  pc : Nat
  lr : Nat
  reg0 : Nat
  coredumpSaved : Bool
  deriving Repr, DecidableEq

/-- `memfault_reboot_tracking_read_reset_info`, memfault_ram_reboot_info_tracking.c:84-99, 212-222. -/
def readInfo (s : State) : Option Info × State :=
  if s.stat.info then
    let r := checkOrInit s.ram
    (if r.reason = notSet ∧ r.reg0 = 0 then none
     else some ⟨r.reason, r.pc, r.lr, r.reg0, r.coredumpSaved == 1⟩, { s with ram := r })
  else (none, s)

/-- A change of the checked region, if there is one. -/
def onRam (s : State) (f : Ram → Ram) : State :=
  if s.stat.info then { s with ram := f (checkOrInit s.ram) } else s

/-- `memfault_reboot_tracking_reset_crash_count`, memfault_ram_reboot_info_tracking.c:222-228. -/
def resetCrashCount (s : State) : State := onRam s fun r => { r with crashCount := 0 }

/-- `memfault_reboot_tracking_get_crash_count`, memfault_ram_reboot_info_tracking.c:230-236. -/
def getCrashCount (s : State) : Nat × State :=
  if s.stat.info then ((checkOrInit s.ram).crashCount, onRam s id) else (0, s)

/-- The stores of `memfault_reboot_tracking_clear_reset_info`, memfault_ram_reboot_info_tracking.c:238-248. -/
def clearStores : List (Ram → Ram) :=
  [fun r => { r with reason := notSet }, fun r => { r with coredumpSaved := 0 },
   fun r => { r with pc := 0 }, fun r => { r with lr := 0 }, fun r => { r with reg0 := 0 }]

/-- `memfault_reboot_tracking_clear_reset_info`, memfault_ram_reboot_info_tracking.c:238-248. -/
def clear (s : State) : State := onRam s (exec clearStores)

/-- `memfault_reboot_tracking_mark_coredump_saved`, memfault_ram_reboot_info_tracking.c:250-256. -/
def markCoredumpSaved (s : State) : State := onRam s fun r => { r with coredumpSaved := 1 }

/-- `memfault_reboot_tracking_get_reboot_reason`, memfault_ram_reboot_info_tracking.c:258-269: register
reason and stored reason. -/
def getRebootReason (s : State) : Option (Nat × Nat) :=
  if s.stat.isValid then some (s.stat.regReason, s.stat.priorReason) else none

/-- `memfault_reboot_tracking_get_unexpected_reboot_occurred`, memfault_ram_reboot_info_tracking.c:271-278. -/
def getUnexpected (s : State) : Option Bool :=
  if s.stat.isValid then some (unexpectedOccurred s.stat) else none

/-- `memfault_reboot_tracking_booted`, memfault_ram_reboot_info_tracking.c:286-289. -/
def booted (s : State) : Bool := s.stat.info && s.ram.magic == magic

/-- `memfault_reboot_tracking_metrics_session`, memfault_ram_reboot_info_tracking.c:291-301. Shifting by
32 or more is undefined behaviour. -/
def metricsSession (s : State) (active : Bool) (index : Nat) : Option State :=
  if s.stat.info && decide (32 ≤ index) then none
  else some (onRam s fun r =>
    { r with sessions := if active then r.sessions ||| (1#32 <<< index) else r.sessions &&& ~~~(1#32 <<< index) })

/-- `memfault_reboot_tracking_clear_metrics_sessions`, memfault_ram_reboot_info_tracking.c:303-309. -/
def clearSessions (s : State) : State := onRam s fun r => { r with sessions := 0 }

/-- `memfault_reboot_tracking_metrics_session_was_active`, memfault_ram_reboot_info_tracking.c:311-317. -/
def sessionWasActive (s : State) (index : Nat) : Option (Bool × State) :=
  if s.stat.info then
    if 32 ≤ index then none
    else some ((checkOrInit s.ram).sessions &&& (1#32 <<< index) ≠ 0, onRam s id)
  else some (false, s)

/-! ## A reset in the middle of a call

Only the stores before the reset take effect; the static variables are initialised. -/

/-- A reset after `k` stores of `memfault_reboot_tracking_boot` (the check of the region is done). -/
def cutBoot (s : State) (b : Option Bootup) (k : Nat) : State :=
  ⟨exec ((bootStores b s.stat (checkOrInit s.ram)).take k) (checkOrInit s.ram), Stat.init⟩

/-- A reset after `k` stores of `memfault_reboot_tracking_mark_reset_imminent`. -/
def cutMark (s : State) (reason : Nat) (regs : Option Regs) (k : Nat) : State :=
  if s.stat.info then
    ⟨exec ((eventStores reason regs (checkOrInit s.ram)).take k) (checkOrInit s.ram), Stat.init⟩
  else { s with stat := Stat.init }

/-- A reset after `k` stores of `memfault_reboot_tracking_clear_reset_info`. -/
def cutClear (s : State) (k : Nat) : State :=
  { onRam s (exec (clearStores.take k)) with stat := Stat.init }

end Mflt.RebootTracking
