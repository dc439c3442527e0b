import Verif.Spec.EspCores

/-!
# Model of the interrupts and cores in the self test of the ESP32

`ports/esp_idf/memfault/common/memfault_self_test_platform.c`. A function is the list of what it does to the machine.
-/

namespace Mflt.EspCores

open Spec.EspCores

/-- The loop of `memfault_self_test_platform_disable_irqs`, memfault_self_test_platform.c:39-44, from core `i` on; the first number is
how many cores are left. -/
def disableLoop (own : Nat) : Nat → Nat → List Event
  | 0, _ => []
  | left + 1, i => (if i ≠ own then [Event.reset i, Event.stall i] else []) ++ disableLoop own left (i + 1)

/-- `memfault_self_test_platform_disable_irqs`, memfault_self_test_platform.c:30-47; the parameters are `SOC_CPU_CORES_NUM`, whether
`CONFIG_ESP_SYSTEM_SINGLE_CORE_MODE` is set, and the core that runs. -/
def disableIrqs (cores : Nat) (single : Bool) (own : Nat) : List Event :=
  Event.enterCritical :: if single then [] else disableLoop own cores 0

/-- The loop of `memfault_self_test_platform_enable_irqs`, memfault_self_test_platform.c:53-57. -/
def enableLoop (own : Nat) : Nat → Nat → List Event
  | 0, _ => []
  | left + 1, i => (if i ≠ own then [Event.unstall i] else []) ++ enableLoop own left (i + 1)

/-- `memfault_self_test_platform_enable_irqs`, memfault_self_test_platform.c:49-63. -/
def enableIrqs (cores : Nat) (single : Bool) (own : Nat) : List Event :=
  (if single then [] else enableLoop own cores 0) ++ [Event.exitCritical]

end Mflt.EspCores
