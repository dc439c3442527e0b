import Verif.Model.FreertosRegions
import Verif.Model.U32

/-!
# Model of the regions of memory that the ports put into a coredump

`ports/esp_idf/memfault/common/memfault_platform_coredump.c` (regions),
`ports/esp8266_sdk/memfault/memfault_platform_coredump_regions.c`,
`ports/cypress/psoc6/memfault_platform_coredump_regions.c`, `ports/nrf5_sdk/nrf5_coredump_regions.c`,
`ports/dialog/da145xx/memfault_platform_coredump_regions.c`,
`ports/dialog/da1469x/memfault_platform_coredump_regions.c`,
`ports/panics/src/memfault_platform_ram_backed_coredump.c` (regions),
`ports/mynewt/src/memfault_platform_flash_backed_coredump.c` (regions) and `ports/particle/src/memfault.cpp`
(regions). Pointers and `size_t` have 32 bits.
Addresses that the linker defines are parameters. What the ports get from `crash_info` is the address of the
stack and, on psoc6, `exception_reg_state->exc_return`; `exception_reg_state` is a null pointer when only the size of
a coredump is computed (components/panics/src/memfault_fault_handling_arm.c:45-63).
-/

namespace Mflt.PortRegions

open Mflt.FreertosRegions (Region Config Platform put getRegions)

/-- A part of memory between two symbols of the linker. -/
structure Symbols where
  start : Nat
  stop : Nat
  deriving Repr, DecidableEq

/-- `MEMFAULT_COREDUMP_MEMORY_REGION_INIT(&start, (uint32_t)&stop - (uint32_t)&start)`. -/
def between (s : Symbols) : Region := ⟨s.start, sub32 s.stop s.start⟩

/-- Several assignments `regions[region_idx++] = ...`. -/
def putAll (n : Nat) (out : List Region) : List Region → Option (List Region)
  | [] => some out
  | r :: rs => (put n out r).bind fun out => putAll n out rs

/-! ## Addresses that are in RAM -/

/-- `memfault_platform_sanitize_address_range` of the da145xx, psoc6 and esp8266 ports,
dialog/da145xx/memfault_platform_coredump_regions.c:50-80, cypress/psoc6/memfault_platform_core.c:135-152 and
esp8266_sdk/memfault/memfault_platform_coredump_regions.c:46-56: the table has the start and the length of
every bank. -/
def sanitizeBanks : List (Nat × Nat) → Nat → Nat → Nat
  | [], _, _ => 0
  | (lower, length) :: banks, a, n =>
    if lower ≤ a ∧ a < add32 lower length then min n (sub32 (add32 lower length) a)
    else sanitizeBanks banks a n

/-- The table of the da145xx, da145xx/memfault_platform_coredump_regions.c:51-70, for the bases of the banks
and the end of RAM. -/
def da145xxBanks : List Nat → Nat → List (Nat × Nat)
  | [], _ => []
  | [b], stop => [(b, sub32 stop b)]
  | b :: b' :: bs, stop => (b, sub32 b' b) :: da145xxBanks (b' :: bs) stop

/-- `s_valid_8266_ram_regions`, esp8266_sdk/memfault/memfault_platform_coredump_regions.c:42-44. -/
def esp8266Banks (iramSize : Nat) : List (Nat × Nat) := [(0x3FFE8000, 0x18000), (0x40100000, iramSize)]

/-- `s_mcu_mem_regions` of psoc6, cypress/psoc6/memfault_platform_core.c:136-141, for `CY_SRAM_BASE` and
`CY_SRAM_SIZE`. -/
def psoc6Banks (base size : Nat) : List (Nat × Nat) := [(base, size)]

/-- `memfault_platform_sanitize_address_range` of the nrf5 port, nrf5_coredump_regions.c:32-48, for the number
of kilobytes of RAM in the information page (not the `NRF51` variant). -/
def sanitizeNrf5 (kilobytes a n : Nat) : Nat :=
  let ramEnd := add32 0x20000000 (kilobytes * 1024 % 2 ^ 32)
  if 0x20000000 ≤ a ∧ a < ramEnd then min n (sub32 ramEnd a) else 0

/-- `memfault_platform_sanitize_address_range` of the da1469x port,
da1469x/memfault_platform_coredump_regions.c:33-41. -/
def sanitizeDa1469x (ramStart ramEnd a n : Nat) : Nat :=
  if ramStart ≤ a ∧ a < ramEnd then min n (sub32 ramEnd a) else 0

/-- `memfault_platform_sanitize_address_range` of the ESP-IDF port, memfault_platform_coredump.c:154-168, for
`SOC_DRAM_LOW` and `SOC_DRAM_HIGH`. -/
def sanitizeEspIdf (low high a n : Nat) : Nat :=
  if a < low ∨ high < a then 0
  else if high < add32 a n then sub32 high a
  else n

/-! ## Regions -/

/-- `memfault_platform_coredump_get_regions` of the RAM backed storage, of the da1469x port and of the mynewt
port with `MEMFAULT_COREDUMP_CAPTURE_MINIMAL`, memfault_platform_ram_backed_coredump.c:63-74,
da1469x/memfault_platform_coredump_regions.c:16-30, memfault_platform_flash_backed_coredump.c:21-46; `max` is the
size of the array, 1 for the first two. -/
def activeStack (max : Nat) (sanitize : Nat → Nat → Nat) (size stack : Nat) : Option (List Region) :=
  putAll max [] [⟨stack, sanitize stack size⟩]

/-- `memfault_platform_coredump_get_regions` of the mynewt port otherwise,
memfault_platform_flash_backed_coredump.c:33-42, for the areas that `hal_bsp_core_dump` gives. -/
def mynewt (max : Nat) (areas : List Region) : Option (List Region) :=
  putAll max [] (areas.take (min max areas.length))

/-- `memfault_platform_coredump_get_regions` of the nrf5 and da145xx ports with
`MEMFAULT_PLATFORM_COREDUMP_CAPTURE_STACK_ONLY`, nrf5_coredump_regions.c:66-87,
da145xx/memfault_platform_coredump_regions.c:16-47. -/
def stackOnly (stackTop stack : Nat) : Option (List Region) := putAll 1 [] [⟨stack, sub32 stackTop stack⟩]

/-- The same without it. -/
def allRam (ram : Symbols) : Option (List Region) := putAll 1 [] [between ram]

/-- What the ports with FreeRTOS have in addition: the registered tasks' configuration and memory, and
`MEMFAULT_PLATFORM_ACTIVE_STACK_SIZE_TO_COLLECT`. -/
structure Freertos where
  cfg : Config
  plat : Platform
  activeSize : Nat

/-- `memfault_freertos_get_task_regions(&regions[region_idx], MEMFAULT_ARRAY_SIZE(regions) - region_idx)`. -/
def tasksInto (f : Freertos) (slots : List Nat) (n : Nat) (out : List Region) : Option (List Region × List Nat) :=
  (getRegions f.cfg f.plat slots (n - out.length)).map fun r => (out ++ r.1, r.2)

/-- `memfault_platform_coredump_get_regions` of the psoc6 port, psoc6/memfault_platform_coredump_regions.c:43-85;
`excReturn` is `none` if `exception_reg_state` is `NULL`. -/
def psoc6 (f : Freertos) (slots : List Nat) (capture : Symbols) (stack psp : Nat) (excReturn : Option Nat) :
    Option (List Region × List Nat) :=
  let n := f.cfg.maxTasks * 2 + 2 + 1 + 1
  excReturn.bind fun excReturn =>
  let mspWasActive : Bool := decide (excReturn &&& (1 <<< 2) = 0)
  (putAll n [] ([⟨stack, f.plat.sanitize stack f.activeSize⟩] ++
    (if mspWasActive then [⟨psp, f.plat.sanitize psp (512 + 128)⟩] else []) ++ [between capture])).bind fun out =>
    tasksInto f slots n out

/-- The symbols of the linker for the esp8266. -/
structure Esp8266 where
  iramBss : Symbols
  bss : Symbols
  data : Symbols
  iramEnd : Nat
  iramSize : Nat
  iramHeap : Bool
  threadsOnly : Bool

/-- `memfault_platform_coredump_get_regions` of the esp8266 port,
esp8266_sdk/memfault/memfault_platform_coredump_regions.c:59-108. -/
def esp8266 (f : Freertos) (slots : List Nat) (k : Esp8266) (stack : Nat) : Option (List Region × List Nat) :=
  let n := f.cfg.maxTasks * (1 + 1) + 5
  (putAll n [] [⟨stack, f.plat.sanitize stack 512⟩, between k.iramBss]).bind fun out =>
    if k.threadsOnly then tasksInto f slots n out
    else
      (putAll n out ([between k.bss, between k.data, ⟨k.bss.stop, sub32 0x40000000 k.bss.stop⟩] ++
        (if k.iramHeap then [⟨k.iramEnd, sub32 (add32 0x40100000 k.iramSize) k.iramEnd⟩] else []))).map fun out =>
        (out, slots)

/-- `prv_get_freertos_bss_common`, memfault_platform_coredump.c:108-146: the array of the caller ends at `n`
entries. -/
def freertosBss (n : Nat) (out : List Region) (s : List Symbols) : Option (List Region) :=
  if n - out.length = 0 then some out else putAll n out (s.map between)

/-- The symbols of the linker for the ESP32: bss and common of FreeRTOS' timers and tasks, bss, data, the start
of the heap and the end of DRAM. -/
structure EspIdf where
  freertos : List Symbols
  bss : Symbols
  data : Symbols
  heapStart : Nat
  dramEnd : Nat

/-- `memfault_platform_coredump_get_regions` of the ESP-IDF port, memfault_platform_coredump.c:178-218; `tasks`
is whether the version of ESP-IDF is at least 4.4.3. -/
def espIdf (tasks : Bool) (f : Freertos) (slots : List Nat) (k : EspIdf) (stack : Nat) :
    Option (List Region × List Nat) :=
  let n := if tasks then 1 + 4 + f.cfg.maxTasks * (1 + 1) + 1 + 1 + 1 + 1 + 1 else 1 + 1 + 1 + 1
  (putAll n [] [⟨stack, f.plat.sanitize stack f.activeSize⟩]).bind fun out =>
    (if tasks then
      (tasksInto f slots n out).bind fun r => (freertosBss n r.1 k.freertos).map fun out => (out, r.2)
     else some (out, slots)).bind fun r =>
      (putAll n r.1 [between k.bss, between k.data, ⟨k.heapStart, sub32 k.dramEnd k.heapStart⟩]).map fun out =>
        (out, r.2)

/-! ## Particle -/

/-- What the regions of the Particle port depend on: RAM between the linker's symbols, the words of memory (`none`: they
cannot be read) and `MEMFAULT_PLATFORM_TASK_STACK_SIZE_TO_COLLECT`. -/
structure Particle where
  ramStart : Nat
  ramEnd : Nat
  word : Nat → Option Nat
  taskStack : Nat

/-- `memfault_platform_sanitize_address_range`, particle/src/memfault.cpp:410-424. -/
def sanitizeParticle (k : Particle) (a n : Nat) : Nat :=
  if a ≥ k.ramStart ∧ a < k.ramEnd then min n (sub32 k.ramEnd a) else 0

/-- `prv_get_task_region`, particle/src/memfault.cpp:376-406: what it writes for a thread, `room` entries being left. -/
def particleTask (k : Particle) (tcb : Bool) (room thread : Nat) : Option (List Region) :=
  if room = 0 then some []
  else if tcb then
    let size := sanitizeParticle k thread 200
    some (if size ≠ 0 then [⟨thread, size⟩] else [])
  else
    match k.word thread with
    | none => none
    | some top =>
      let size := sanitizeParticle k top k.taskStack
      some (if size ≠ 0 then [⟨top, size⟩] else [])

/-- One call of `os_thread_dump` with its callback, particle/src/memfault.cpp:445-453 and 457-465. -/
def particleThreads (k : Particle) (tcb : Bool) : List Nat → List Region → Option (List Region)
  | [], out => some out
  | t :: ts, out =>
    match particleTask k tcb (16 - out.length) t with
    | none => none
    | some rs => (putAll 16 out rs).bind (particleThreads k tcb ts)

/-- `memfault_platform_coredump_get_regions`, particle/src/memfault.cpp:426-470; `collect` is
`MEMFAULT_PARTICLE_PORT_COREDUMP_TASK_COLLECTION_ENABLE`. -/
def particle (k : Particle) (collect : Bool) (threads : List Nat) (stack : Nat) : Option (List Region) :=
  (putAll 16 [] [⟨stack, sanitizeParticle k stack 512⟩]).bind fun out =>
    if collect then (particleThreads k true threads out).bind (particleThreads k false threads)
    else some out

end Mflt.PortRegions
