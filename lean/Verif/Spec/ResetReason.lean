import Verif.Model.ResetReason

/-!
# What the reset registers of the chips mean

For each chip, the ways it can be reset, with the flags the hardware then sets and the reason that
should be reported (codes of `components/include/memfault/core/reboot_reason_types.h`).  The flags
are those of the reference manuals as quoted in the ports' comments.
-/

namespace Mflt.Spec.ResetReason

open Mflt.ResetReason

/-- A way to be reset. -/
structure Source where
  flags : Reg
  reason : Nat
  deriving DecidableEq, Repr

/-- Every boot of every history of resets from these sources is given the reason of its own reset,
whatever the earlier resets were.  Other bits of the register (`noise`) may be set as they like. -/
def Reports (p : Port) (sticky noise : Bool) (sources : List Source) : Prop :=
  ∀ resets : List (Source × List Nat), (∀ x ∈ resets, x.1 ∈ sources) →
    (noise = false → ∀ x ∈ resets, x.2 = []) →
    history p sticky [] (resets.map fun x => x.1.flags ++ x.2.map Flag.other)
      = resets.map (·.1.reason)

/-- STM32: "all other internally generated resets are wired to the reset pin"
(`ports/stm32cube/f7/rcc_reboot_tracking.c:34-35`), so that its flag is set too. -/
def wired (f : Flag) (reason : Nat) : Source := ⟨[f, .pin], reason⟩

/-- The sources common to the STM32 families. -/
def stm32 : List Source :=
  [wired .soft 0x0008, wired .iwdg 0x8005, wired .wwdg 0x8005, ⟨[.pin], 0x000a⟩]

/-- F4: standby and low power wake-ups; power on and brown out have flags of their own. -/
def stm32f4 : List Source :=
  stm32 ++ [⟨[.standby], 0x0009⟩, wired .lpwr 0x0009, ⟨[.por, .bor, .pin], 0x0007⟩,
    wired .bor 0x8003]

/-- F7. -/
def stm32f7 : List Source :=
  stm32 ++ [wired .lpwr 0x0004, ⟨[.por, .bor, .pin], 0x0007⟩, wired .bor 0x8003]

/-- L4: "doesn't have a way to disambiguate a BOR vs POR". -/
def stm32l4 : List Source :=
  stm32 ++ [⟨[.standby], 0x0009⟩, wired .firewall 0x9300, wired .bor 0x0007]

/-- WB, likewise. -/
def stm32wb : List Source := stm32 ++ [wired .bor 0x0007]

/-- U5: a power on reset sets the flags of the pin and of the brown out detector. -/
def stm32u5 : List Source := stm32 ++ [wired .lpwr 0x0009, wired .bor 0x0007]

/-- H7: the table "Reset source identification" of the reference manual. -/
def stm32h7 : List Source :=
  [⟨[.por, .pin, .bor, .d1, .d2, .cpu], 0x0007⟩, ⟨[.pin, .cpu], 0x000a⟩,
   ⟨[.pin, .bor, .cpu], 0x8003⟩, ⟨[.soft, .pin, .cpu], 0x0008⟩, ⟨[.cpu], 0x0008⟩,
   ⟨[.wwdg, .pin, .cpu], 0x8005⟩, ⟨[.iwdg, .pin, .cpu], 0x8005⟩, ⟨[.d1], 0x0004⟩,
   ⟨[.d2], 0x0004⟩, ⟨[.lpwr, .pin, .cpu], 0x8000⟩]

/-- Nordic, `POWER.RESETREAS`: one flag per source, none for a power on reset. -/
def nordicPower : List Source :=
  [⟨[.pin], 0x000a⟩, ⟨[.wdog], 0x8005⟩, ⟨[.soft], 0x0008⟩, ⟨[.lockup], 0x9401⟩, ⟨[.off], 0x0009⟩,
   ⟨[.lpcomp], 0x0009⟩, ⟨[.dif], 0x0009⟩, ⟨[.nfc], 0x0009⟩, ⟨[.vbus], 0x0009⟩, ⟨[], 0x0007⟩]

/-- The same, without the lockup of the processor. -/
def nordicPowerNoLockup : List Source := nordicPower.filter (·.flags != [.lockup])

/-- Nordic, `RESET.RESETREAS`. -/
def nordicReset : List Source :=
  [⟨[.pin], 0x000a⟩, ⟨[.dog0], 0x8005⟩, ⟨[.dog1], 0x8005⟩, ⟨[.netDog], 0x8005⟩,
   ⟨[.soft], 0x0008⟩, ⟨[.netSoft], 0x0008⟩, ⟨[.forceOff], 0x0008⟩, ⟨[.lockup], 0x9401⟩,
   ⟨[.netLockup], 0x9401⟩, ⟨[.ctrlap], 0x0005⟩, ⟨[.ctrlapPin], 0x0005⟩, ⟨[.off], 0x0009⟩,
   ⟨[.lpcomp], 0x0009⟩, ⟨[.dif], 0x0009⟩, ⟨[.nfc], 0x0009⟩, ⟨[.vbus], 0x0009⟩, ⟨[], 0x0007⟩]

/-- Zephyr's `hwinfo`, one flag per source; a driver that does not support `RESET_POR` has none for
a power on reset. -/
def hwinfo (supportsPor : Bool) : List Source :=
  [⟨[.pin], 0x000a⟩, ⟨[.soft], 0x0008⟩, ⟨[.brownout], 0x8003⟩,
   ⟨if supportsPor then [.por] else [], 0x0007⟩, ⟨[.wdog], 0x8005⟩, ⟨[.debug], 0x0005⟩,
   ⟨[.security], 0x9402⟩, ⟨[.lpwr], 0x0004⟩, ⟨[.lockup], 0x9401⟩, ⟨[.parity], 0x9403⟩,
   ⟨[.pll], 0x8007⟩, ⟨[.clock], 0x8007⟩, ⟨[.hardware], 0x9405⟩, ⟨[.user], 0x0002⟩,
   ⟨[.temperature], 0x9404⟩]

/-- DA14531. -/
def da14531 : List Source :=
  [⟨[.hwReset], 0x000a⟩, ⟨[.soft], 0x0008⟩, ⟨[.wdog], 0x8005⟩, ⟨[.por], 0x0007⟩]

/-- DA1469x: "If POR occurs, all bits are set"; none are after deep sleep. -/
def da1469x : List Source :=
  [⟨[], 0x0009⟩, ⟨[.por, .hwReset, .soft, .wdog, .swdHw, .cmacWdog], 0x0007⟩, ⟨[.swdHw], 0x0005⟩,
   ⟨[.cmacWdog], 0x8005⟩, ⟨[.wdog], 0x8005⟩, ⟨[.hwReset], 0x000a⟩, ⟨[.soft], 0x0008⟩]

/-- DA1468x: a power on reset sets the flags of the watchdog and the debugger too. -/
def da1468x : List Source :=
  [⟨[.por, .wdog, .swdHw], 0x0007⟩, ⟨[.swdHw], 0x0008⟩, ⟨[.wdog], 0x8005⟩, ⟨[.soft], 0x0008⟩,
   ⟨[.hwReset], 0x000a⟩]

/-- S32K, apart from the two sources quoted in the port's comment, "POR (including LVD) — 0x82" and
"LVD (without POR) — 0x02". -/
def s32Others : List Source :=
  [⟨[.mdmAp], 0x0008⟩, ⟨[.soft], 0x0008⟩, ⟨[.jtag], 0x0008⟩, ⟨[.pin], 0x0006⟩, ⟨[.lockup], 0x9401⟩,
   ⟨[.wdog], 0x8005⟩, ⟨[.lol], 0x8007⟩, ⟨[.loc], 0x8007⟩]

/-- RW61x. -/
def rw61x : List Source :=
  [⟨[.soft], 0x0008⟩, ⟨[.lockup], 0x9401⟩, ⟨[.wdog], 0x8005⟩, ⟨[.apReq], 0x0005⟩,
   ⟨[.codeWdt], 0x8006⟩, ⟨[.tamper], 0x9402⟩, ⟨[.resetb], 0x000a⟩, ⟨[], 0x0007⟩]

/-- RT1021, apart from the temperature sensor. -/
def rt1021Others : List Source :=
  [⟨[.jtagSw], 0x0008⟩, ⟨[.wdog3], 0x8005⟩, ⟨[.wdog], 0x8005⟩, ⟨[.jtag], 0x0005⟩,
   ⟨[.userReset], 0x0006⟩, ⟨[.csu], 0x8000⟩, ⟨[.lockup], 0x9401⟩, ⟨[.pin], 0x000a⟩]

/-- EFM32 / EFR32 with an RMU. -/
def emlibRmu : List Source :=
  [⟨[.por], 0x0007⟩, ⟨[.avddBod], 0x8003⟩, ⟨[.dvddBod], 0x8003⟩, ⟨[.decBod], 0x8003⟩,
   ⟨[.lockup], 0x9401⟩, ⟨[.soft], 0x0008⟩, ⟨[.wdog], 0x8005⟩, ⟨[.em4], 0x0009⟩, ⟨[.ext], 0x0006⟩]

/-- EFM32 / EFR32 with an EMU. -/
def emlibEmu : List Source :=
  [⟨[.por], 0x0007⟩, ⟨[.avddBod], 0x8003⟩, ⟨[.iovddBod], 0x8003⟩, ⟨[.dvddBod], 0x8003⟩,
   ⟨[.dvddleBod], 0x8003⟩, ⟨[.decBod], 0x8003⟩, ⟨[.lockup], 0x9401⟩, ⟨[.soft], 0x0008⟩,
   ⟨[.wdog], 0x8005⟩, ⟨[.wdog1], 0x8005⟩, ⟨[.em4], 0x0009⟩, ⟨[.tamper], 0x8000⟩,
   ⟨[.seSoft], 0x0008⟩, ⟨[.seLockup], 0x9401⟩, ⟨[.pin], 0x000a⟩]

/-- SiWx91x: active low. -/
def siwx91x : List Source :=
  [⟨[], 0x0007⟩, ⟨[.nReset], 0x0007⟩, ⟨[.nPor], 0x000a⟩, ⟨[.nPor, .nReset], 0x0008⟩]

/-- SAML1x. -/
def saml1x : List Source :=
  [⟨[.por], 0x0007⟩, ⟨[.bodCore], 0x8003⟩, ⟨[.bodVdd], 0x8003⟩, ⟨[.ext], 0x000a⟩,
   ⟨[.wdog], 0x8005⟩, ⟨[.syst], 0x0008⟩]

/-- PSoC 6. -/
def psoc6 : List Source :=
  [⟨[], 0x0007⟩, ⟨[.wdog], 0x8005⟩, ⟨[.actFault], 0x8000⟩, ⟨[.dpslpFault], 0x8000⟩,
   ⟨[.soft], 0x0008⟩, ⟨[.swdt], 0x8006⟩, ⟨[.csv], 0x8007⟩, ⟨[.hibWakeup], 0x0004⟩]

/-- The causes the hardware abstraction of Mynewt tells apart, and the reason of each. -/
def mynewt : List (HalReset × Nat) :=
  [(.por, 0x0007), (.pin, 0x000a), (.watchdog, 0x8005), (.soft, 0x0008), (.brownout, 0x8003), (.requested, 0x0002),
    (.sysOffInt, 0x0009), (.dfu, 0x0003)]

/-- The causes Particle's Device OS tells apart: a reset by the pin, by the watchdog, by the user; the power going down or
being managed is a shutdown; a brown out; an update, and one that timed out; a panic; a restart into safe or DFU mode. -/
def particle : List (DeviceOsReset × Nat) :=
  [(.pin, 0x000a), (.watchdog, 0x8005), (.user, 0x0002), (.powerDown, 0x0001), (.powerManagement, 0x0001),
    (.powerBrownout, 0x8003), (.update, 0x0003), (.updateTimeout, 0x8009), (.panic, 0x8008), (.safeMode, 0x0008),
    (.dfuMode, 0x0008)]

/-- Those of ESP-IDF. -/
def espIdf : List (EspReset × Nat) :=
  [(.powerOn, 0x0007), (.sw, 0x0008), (.intWdt, 0x8006), (.taskWdt, 0x800c), (.wdt, 0x8005), (.deepSleep, 0x0009),
    (.brownout, 0x8003), (.panic, 0x8000)]

/-- Those of the ESP8266. The hardware watchdog's is left out on purpose: its flag stays set until the power goes. -/
def esp8266 : List (EspReset × Nat) :=
  [(.powerOn, 0x0007), (.sw, 0x0008), (.intWdt, 0x8005), (.taskWdt, 0x8005), (.deepSleep, 0x0009),
    (.brownout, 0x8003), (.panic, 0x9400)]

end Mflt.Spec.ResetReason
