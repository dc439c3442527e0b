/-!
# Decoding of the reset status registers by the ports

`memfault_reboot_reason_get` of the ports: it reads a register with one flag per reset source,
picks a reason, and (on most ports) clears the register.  A register is the list of the flags that
are set.  Which bit a flag is comes from vendor headers that are not in the repository, so flags are
names.  Messages are not modelled.
-/

namespace Mflt.ResetReason

/-- The flags the decoders test, and `other` for those they do not. -/
inductive Flag where
  | por | pin | bor | soft | iwdg | wwdg | lpwr | firewall | optionBytes | standby
  | cpu | d1 | d2
  | hwReset | swdHw | cmacWdog | wdog
  | bodCore | bodVdd | ext | syst
  | lockup | off | lpcomp | dif | nfc | vbus | ctrlap | ctrlapPin
  | dog0 | dog1 | netSoft | netLockup | netDog | forceOff | netCtrlap
  | lvd | mdmAp | jtag | lol | loc
  | apReq | codeWdt | tamper | resetb
  | jtagSw | tempSense | wdog3 | userReset | csu
  | avddBod | iovddBod | dvddBod | dvddleBod | decBod | wdog1 | em4 | seSoft | seLockup
  | actFault | dpslpFault | swdt | csv | hibWakeup
  | brownout | debug | security | parity | pll | clock | hardware | user | temperature
  | nPor | nReset
  | other (n : Nat)
  deriving DecidableEq, Repr

/-- The flags that are set. -/
abbrev Reg := List Flag

/-- The conditions the decoders test. -/
inductive Cond where
  /-- all of these flags are set -/
  | set (fs : List Flag)
  /-- at least one of these flags is set -/
  | any (fs : List Flag)
  /-- this flag is clear -/
  | unset (f : Flag)
  /-- the register is zero -/
  | zero
  /-- among the flags `mask`, exactly these are set -/
  | masked (mask fs : List Flag)
  /-- the register has this flag and no other -/
  | only (f : Flag)
  deriving DecidableEq, Repr

/-- Whether a condition holds of a register. -/
def Cond.holds : Cond → Reg → Bool
  | .set fs, r => fs.all r.contains
  | .any fs, r => fs.any r.contains
  | .unset f, r => !r.contains f
  | .zero, r => r.isEmpty
  | .masked mask fs, r => mask.all fun f => r.contains f == fs.contains f
  | .only f, r => r.contains f && r.all (· == f)

/-- How a port clears the register. -/
inductive Clear where
  /-- not at all -/
  | never
  /-- all of it -/
  | all
  /-- all of it but these flags -/
  | except (fs : List Flag)
  deriving DecidableEq, Repr

/-- A port: its chain of `if … else if …` (or `switch`), what it reports if none applies, and
how it clears the register. -/
structure Port where
  rules : List (Cond × Nat)
  default : Nat
  clear : Clear
  deriving DecidableEq, Repr

/-- The chain of tests. -/
def firstMatch (default : Nat) : List (Cond × Nat) → Reg → Nat
  | [], _ => default
  | (c, reason) :: rest, r => if c.holds r then reason else firstMatch default rest r

/-- The register after the port has cleared it. -/
def Clear.apply : Clear → Reg → Reg
  | .never, r => r
  | .all, _ => []
  | .except fs, r => r.filter fs.contains

/-- `memfault_reboot_reason_get`: the reason and the register's value that are reported, and the
register left behind. -/
def Port.get (p : Port) (r : Reg) : (Nat × Reg) × Reg :=
  ((firstMatch p.default p.rules r, r), p.clear.apply r)

/-! The codes of `eMemfaultRebootReason`:
`components/include/memfault/core/reboot_reason_types.h:29-134`. -/

def unknown : Nat := 0x0000
def userReset : Nat := 0x0002
def lowPower : Nat := 0x0004
def debuggerHalted : Nat := 0x0005
def buttonReset : Nat := 0x0006
def powerOnReset : Nat := 0x0007
def softwareReset : Nat := 0x0008
def deepSleep : Nat := 0x0009
def pinReset : Nat := 0x000a
def unknownError : Nat := 0x8000
def brownOutReset : Nat := 0x8003
def hardwareWatchdog : Nat := 0x8005
def softwareWatchdog : Nat := 0x8006
def clockFailure : Nat := 0x8007
def usageFault : Nat := 0x9300
def lockup : Nat := 0x9401
def securityViolation : Nat := 0x9402
def parityError : Nat := 0x9403
def temperature : Nat := 0x9404
def hardware : Nat := 0x9405

/-- The effect of `MEMFAULT_REBOOT_REASON_CLEAR` (or Zephyr's `CONFIG_MEMFAULT_CLEAR_RESET_REG`). -/
def clearIf (enabled : Bool) : Clear := if enabled then .all else .never

/-! ## STM32 -/

/-- `ports/stm32cube/f4/rcc_reboot_tracking.c:25-75`; `hasBor` is `RCC_CSR_BORRSTF`.  The standby
flag is in another register and is cleared as well (line 40). -/
def stm32f4 (hasBor : Bool) : Port where
  rules := [(.set [.standby], deepSleep), (.set [.lpwr], deepSleep), (.set [.soft], softwareReset),
    (.set [.iwdg], hardwareWatchdog), (.set [.wwdg], hardwareWatchdog),
    (.set [.por], powerOnReset)] ++
    (if hasBor then [(.set [.bor], brownOutReset)] else []) ++ [(.set [.pin], pinReset)]
  default := unknown
  clear := .all

/-- `ports/stm32cube/f7/rcc_reboot_tracking.c:24-72`. -/
def stm32f7 (clear : Bool) : Port where
  rules := [(.set [.soft], softwareReset), (.set [.por], powerOnReset),
    (.set [.bor], brownOutReset), (.set [.wwdg], hardwareWatchdog),
    (.set [.iwdg], hardwareWatchdog), (.set [.lpwr], lowPower), (.set [.pin], pinReset)]
  default := unknown
  clear := clearIf clear

/-- `ports/stm32cube/h5/rcc_reboot_tracking.c:24-61`. -/
def stm32h5 (clear : Bool) : Port where
  rules := [(.set [.pin], pinReset), (.set [.bor], brownOutReset), (.set [.soft], softwareReset),
    (.set [.iwdg], hardwareWatchdog), (.set [.wwdg], hardwareWatchdog), (.set [.lpwr], lowPower)]
  default := unknown
  clear := clearIf clear

/-- `reset_mask_all`: `ports/stm32cube/h7/rcc_reboot_tracking.c:49-51`. -/
def h7Mask : List Flag := [.iwdg, .cpu, .d1, .d2, .bor, .pin, .por, .soft, .wwdg, .lpwr]

/-- `ports/stm32cube/h7/rcc_reboot_tracking.c:27-39,41-109`. -/
def stm32h7 (clear : Bool) : Port where
  rules := [(.masked h7Mask [.por, .pin, .bor, .d2, .d1, .cpu], powerOnReset),
    (.masked h7Mask [.pin, .cpu], pinReset),
    (.masked h7Mask [.pin, .bor, .cpu], brownOutReset),
    (.masked h7Mask [.soft, .pin, .cpu], softwareReset),
    (.masked h7Mask [.cpu], softwareReset),
    (.masked h7Mask [.wwdg, .pin, .cpu], hardwareWatchdog),
    (.masked h7Mask [.iwdg, .pin, .cpu], hardwareWatchdog),
    (.masked h7Mask [.d1], lowPower), (.masked h7Mask [.d2], lowPower),
    (.masked h7Mask [.lpwr, .pin, .cpu], unknownError)]
  default := unknown
  clear := clearIf clear

/-- `ports/stm32cube/l4/rcc_reboot_tracking.c:25-75`. -/
def stm32l4 : Port where
  rules := [(.set [.standby], deepSleep), (.set [.firewall], usageFault),
    (.set [.soft], softwareReset), (.set [.iwdg], hardwareWatchdog),
    (.set [.wwdg], hardwareWatchdog), (.set [.bor], powerOnReset), (.set [.pin], pinReset),
    (.set [.optionBytes], unknown)]
  default := unknown
  clear := .all

/-- `ports/stm32cube/u5/rcc_reboot_tracking.c:21-67`. -/
def stm32u5 : Port where
  rules := [(.set [.lpwr], deepSleep), (.set [.soft], softwareReset),
    (.set [.iwdg], hardwareWatchdog), (.set [.wwdg], hardwareWatchdog),
    (.set [.pin, .bor], powerOnReset), (.set [.bor], brownOutReset), (.set [.pin], pinReset)]
  default := unknown
  clear := .all

/-- `ports/stm32cube/wb/rcc_reboot_tracking.c:25-68`. -/
def stm32wb (clear : Bool) : Port where
  rules := [(.set [.soft], softwareReset), (.set [.iwdg], hardwareWatchdog),
    (.set [.wwdg], hardwareWatchdog), (.set [.bor], powerOnReset), (.set [.pin], pinReset),
    (.set [.optionBytes], unknown)]
  default := unknown
  clear := clearIf clear

/-! ## Nordic -/

/-- `ports/nrf5_sdk/resetreas_reboot_tracking.c:75-140`, with all the optional flags; the register
is cleared by writing the bits that were read (lines 48-54). -/
def nrf5 : Port where
  rules := [(.set [.pin], pinReset), (.set [.wdog], hardwareWatchdog), (.set [.soft], softwareReset),
    (.set [.lockup], softwareReset), (.set [.off], deepSleep), (.set [.dif], deepSleep),
    (.set [.lpcomp], deepSleep), (.set [.nfc], deepSleep), (.set [.vbus], deepSleep)]
  default := powerOnReset
  clear := .all

/-- `prv_decode_power_resetreas` and `memfault_reboot_reason_get`:
`ports/zephyr/ncs/src/nrfx_pmu_reboot_tracking.c:34-87,173-202`, with all the optional flags. -/
def nrfxPower (clear : Bool) : Port where
  rules := [(.set [.pin], pinReset), (.set [.wdog], hardwareWatchdog), (.set [.soft], softwareReset),
    (.set [.lockup], lockup), (.set [.off], deepSleep), (.set [.lpcomp], deepSleep),
    (.set [.dif], deepSleep), (.set [.nfc], deepSleep), (.set [.vbus], deepSleep),
    (.set [.ctrlap], deepSleep), (.zero, powerOnReset)]
  default := unknown
  clear := clearIf clear

/-- `prv_decode_reset_resetreas` and `memfault_reboot_reason_get`:
`ports/zephyr/ncs/src/nrfx_pmu_reboot_tracking.c:89-170,173-202`, with all the optional flags. -/
def nrfxReset (clear : Bool) : Port where
  rules := [(.set [.pin], pinReset), (.set [.dog0], hardwareWatchdog),
    (.set [.ctrlap], debuggerHalted), (.set [.ctrlapPin], debuggerHalted),
    (.set [.soft], softwareReset), (.set [.lockup], lockup), (.set [.off], deepSleep),
    (.set [.lpcomp], deepSleep), (.set [.dif], deepSleep), (.set [.netSoft], softwareReset),
    (.set [.netLockup], lockup), (.set [.netDog], hardwareWatchdog),
    (.set [.forceOff], softwareReset), (.set [.netCtrlap], softwareReset), (.set [.vbus], deepSleep),
    (.set [.dog1], hardwareWatchdog), (.set [.nfc], deepSleep), (.zero, powerOnReset)]
  default := unknown
  clear := clearIf clear

/-- `prv_zephyr_to_memfault_reboot_reason` and `memfault_reboot_reason_get`, Zephyr's `hwinfo`:
`ports/zephyr/common/memfault_platform_core.c:96-150,153-208`, when the cause can be read;
`supportsPor` is whether the driver says it supports `RESET_POR`. -/
def zephyr (clear supportsPor : Bool) : Port where
  rules := (if supportsPor then [] else [(.zero, powerOnReset)]) ++
    [(.set [.pin], pinReset), (.set [.soft], softwareReset), (.set [.brownout], brownOutReset),
     (.set [.por], powerOnReset), (.set [.wdog], hardwareWatchdog), (.set [.debug], debuggerHalted),
     (.set [.security], securityViolation), (.set [.lpwr], lowPower), (.set [.lockup], lockup),
     (.set [.parity], parityError), (.set [.pll], clockFailure), (.set [.clock], clockFailure),
     (.set [.hardware], hardware), (.set [.user], userReset), (.set [.temperature], temperature)]
  default := unknown
  clear := clearIf clear

/-! ## Dialog -/

/-- `reset_indication` of the DA14531 and `memfault_reboot_reason_get`:
`ports/dialog/da145xx/reset_reboot_tracking.c:31-43,62-67`; the vendor's start-up code reads and
clears the register. -/
def da14531 : Port where
  rules := [(.set [.hwReset], pinReset), (.set [.soft], softwareReset),
    (.set [.wdog], hardwareWatchdog)]
  default := powerOnReset
  clear := .all

/-- `ports/dialog/da1469x/reset_reboot_tracking.c:22-62`. -/
def da1469x (clear : Bool) : Port where
  rules := [(.zero, deepSleep), (.set [.por], powerOnReset), (.set [.swdHw], debuggerHalted),
    (.any [.cmacWdog, .wdog], hardwareWatchdog), (.set [.hwReset], pinReset),
    (.set [.soft], softwareReset)]
  default := unknown
  clear := clearIf clear

/-- `ports/dialog/da1468x/reset_stat_reboot_tracking.c:70-107`. -/
def da1468x : Port where
  rules := [(.set [.por], powerOnReset), (.set [.swdHw], softwareReset),
    (.set [.wdog], hardwareWatchdog), (.set [.soft], softwareReset), (.set [.hwReset], pinReset)]
  default := powerOnReset
  clear := .all

/-! ## NXP, Silicon Labs, Cypress, Microchip -/

/-- `ports/s32sdk/rcm_reboot_tracking.c:24-83`.  The register holds the most recent reset only. -/
def s32 : Port where
  rules := [(.set [.lvd, .por], brownOutReset), (.set [.por], powerOnReset),
    (.set [.mdmAp], softwareReset), (.set [.soft], softwareReset), (.set [.jtag], softwareReset),
    (.set [.pin], buttonReset), (.set [.lockup], lockup), (.set [.wdog], hardwareWatchdog),
    (.set [.lol], clockFailure), (.set [.loc], clockFailure)]
  default := unknown
  clear := .never

/-- `ports/nxp/rw61x/pmu_reboot_tracking.c:28-79`; the boot ROM has moved the flags to a scratch
register and cleared them. -/
def rw61x : Port where
  rules := [(.set [.soft], softwareReset), (.set [.lockup], lockup), (.set [.wdog], hardwareWatchdog),
    (.set [.apReq], debuggerHalted), (.set [.codeWdt], softwareWatchdog),
    (.set [.tamper], securityViolation), (.set [.resetb], pinReset)]
  default := powerOnReset
  clear := .all

/-- `ports/nxp/rt1021/src_reboot_tracking.c:24-75`.  Clearing writes `SRC_SRSR_W1C_BITS_MASK`, to
which line 25 adds the temperature sensor's flag: that one is not cleared. -/
def rt1021 (clear : Bool) : Port where
  rules := [(.set [.jtagSw], softwareReset), (.set [.tempSense], unknownError),
    (.set [.wdog3], hardwareWatchdog), (.set [.wdog], hardwareWatchdog),
    (.set [.jtag], debuggerHalted), (.set [.userReset], buttonReset), (.set [.csu], unknownError),
    (.set [.lockup], lockup), (.set [.pin], pinReset)]
  default := unknown
  clear := if clear then .except [.tempSense] else .never

/-- The `RMU` variant: `ports/emlib/rmu_reboot_tracking.c:31-76,154-176`, with all the optional
flags. -/
def emlibRmu (clear : Bool) : Port where
  rules := [(.set [.por], powerOnReset), (.set [.avddBod], brownOutReset),
    (.set [.dvddBod], brownOutReset), (.set [.decBod], brownOutReset), (.set [.lockup], lockup),
    (.set [.soft], softwareReset), (.set [.wdog], hardwareWatchdog), (.set [.em4], deepSleep),
    (.set [.ext], buttonReset)]
  default := unknown
  clear := clearIf clear

/-- The `EMU` variant: `ports/emlib/rmu_reboot_tracking.c:79-149,154-176`, with all the optional
flags. -/
def emlibEmu (clear : Bool) : Port where
  rules := [(.set [.por], powerOnReset), (.set [.avddBod], brownOutReset),
    (.set [.iovddBod], brownOutReset), (.set [.dvddBod], brownOutReset),
    (.set [.dvddleBod], brownOutReset), (.set [.decBod], brownOutReset), (.set [.lockup], lockup),
    (.set [.soft], softwareReset), (.set [.wdog], hardwareWatchdog), (.set [.wdog1], hardwareWatchdog),
    (.set [.em4], deepSleep), (.set [.tamper], unknownError), (.set [.seSoft], softwareReset),
    (.set [.soft], softwareReset), (.set [.seLockup], lockup), (.set [.lockup], lockup),
    (.set [.pin], pinReset)]
  default := unknown
  clear := clearIf clear

/-- `ports/silabs/wiseconnect/siwx91x/siwx91x_reboot_tracking.c:54-81`; the flags are active low. -/
def siwx91x : Port where
  rules := [(.unset .nPor, powerOnReset), (.unset .nReset, pinReset)]
  default := softwareReset
  clear := .never

/-- `ports/atmel/saml1x/rcause_reboot_tracking.c:15-37`.  The register holds the most recent reset
only. -/
def saml1x : Port where
  rules := [(.set [.por], powerOnReset), (.set [.bodCore], brownOutReset),
    (.set [.bodVdd], brownOutReset), (.set [.ext], pinReset), (.set [.wdog], hardwareWatchdog),
    (.set [.syst], softwareReset)]
  default := unknown
  clear := .never

/-- `ports/cypress/psoc6/res_cause_reboot_tracking.c:23-122`, without the cases of other families
(`CY_IP_M33SYSCPUSS`, `CY_IP_M7CPUSS`).  The `switch` compares the whole value; the four software
watchdogs and the two clock supervision causes are one flag each here. -/
def psoc6 : Port where
  rules := [(.zero, powerOnReset), (.only .wdog, hardwareWatchdog), (.only .actFault, unknownError),
    (.only .dpslpFault, unknownError), (.only .soft, softwareReset), (.only .swdt, softwareWatchdog),
    (.only .csv, clockFailure), (.only .hibWakeup, lowPower)]
  default := unknown
  clear := .never

/-! ## Mynewt -/

/-- `enum hal_reset_reason` of Mynewt, hal_system.h; `other`: any other number. -/
inductive HalReset
  | por | pin | watchdog | soft | brownout | requested | sysOffInt | dfu | other
  deriving Repr, DecidableEq

/-- `prv_get_reboot_reason` and `memfault_reboot_reason_get`, ports/mynewt/src/memfault_platform_port.c:127-158: register
and reason. -/
def mynewt : HalReset → Nat × Nat
  | .por => (0, powerOnReset)
  | .pin => (0, pinReset)
  | .watchdog => (0, hardwareWatchdog)
  | .soft => (0, softwareReset)
  | .brownout => (0, brownOutReset)
  | .requested => (0, userReset)
  | .sysOffInt => (0, deepSleep)
  | .dfu => (0, 0x0003)
  | .other => (0, unknown)

/-! ## Particle and Espressif -/

/-- `RESET_REASON_...` of Particle's Device OS; `other`: any other number. -/
inductive DeviceOsReset
  | unknown | pin | powerManagement | powerDown | powerBrownout | watchdog | update | updateTimeout | safeMode | dfuMode
  | panic | user | other
  deriving Repr, DecidableEq

/-- `prv_memfault_reboot_reason_get`, ports/particle/src/memfault.cpp:267-314; the register is the number that the
Device OS tells. -/
def particle (raw : Nat) : DeviceOsReset → Nat × Nat
  | .unknown => (raw, unknown)
  | .pin => (raw, pinReset)
  | .watchdog => (raw, hardwareWatchdog)
  | .user => (raw, userReset)
  | .powerDown => (raw, 0x0001)
  | .powerManagement => (raw, 0x0001)
  | .powerBrownout => (raw, brownOutReset)
  | .update => (raw, 0x0003)
  | .updateTimeout => (raw, 0x8009)
  | .panic => (raw, 0x8008)
  | .safeMode => (raw, softwareReset)
  | .dfuMode => (raw, softwareReset)
  | .other => (raw, unknown)

/-- `esp_reset_reason_t`; `other`: one that the code does not name. -/
inductive EspReset
  | unknown | powerOn | sw | panic | intWdt | taskWdt | wdt | deepSleep | brownout | other
  deriving Repr, DecidableEq

/-- `prv_record_reboot_reason`, ports/esp_idf/memfault/common/memfault_platform_core.c:99-164: register and reason. -/
def espIdf (raw : Nat) : EspReset → Nat × Nat
  | .powerOn => (raw, powerOnReset)
  | .sw => (raw, softwareReset)
  | .intWdt => (raw, softwareWatchdog)
  | .taskWdt => (raw, 0x800C)
  | .wdt => (raw, hardwareWatchdog)
  | .deepSleep => (raw, deepSleep)
  | .brownout => (raw, brownOutReset)
  | .panic => (raw, unknownError)
  | .unknown => (raw, unknown)
  | .other => (raw, unknown)

/-- `memfault_reboot_reason_get`, ports/esp8266_sdk/memfault/esp_reboot_tracking.c:26-77: register and reason. -/
def esp8266 (raw : Nat) : EspReset → Nat × Nat
  | .powerOn => (raw, powerOnReset)
  | .sw => (raw, softwareReset)
  | .intWdt => (raw, hardwareWatchdog)
  | .taskWdt => (raw, hardwareWatchdog)
  | .wdt => (raw, unknown)
  | .deepSleep => (raw, deepSleep)
  | .brownout => (raw, brownOutReset)
  | .panic => (raw, 0x9400)
  | .unknown => (raw, unknownError)
  | .other => (raw, unknownError)

/-! ## Histories of resets -/

/-- The reasons reported over a history of resets, each given by the flags the hardware sets.
With `sticky`, flags stay set until they are cleared; otherwise each reset replaces them. -/
def history (p : Port) (sticky : Bool) : Reg → List Reg → List Nat
  | _, [] => []
  | r, flags :: rest =>
    let r := if sticky then r ++ flags else flags
    (p.get r).1.1 :: history p sticky (p.get r).2 rest

end Mflt.ResetReason
