import Verif.Spec.SystemTime

/-!
# Model of the sources of the time of day in the ports

`ports/zephyr/common/memfault_platform_system_time.c` (both sources) and
`ports/esp_idf/memfault/common/memfault_platform_system_time.c`. The date-time library, the driver of the
real-time clock and the C library are not part of the repository: what they return is given. Log output is
left out. A time is `unix_timestamp_secs`, a `uint64_t`.
-/

namespace Mflt.SystemTime

open Spec.SystemTime (Evt)

/-- The conversion to `uint64_t`. -/
def u64 (x : Int) : Nat := (x % 2 ^ 64).toNat

/-- `memfault_zephyr_date_time_evt_handler`, zephyr/common/memfault_platform_system_time.c:22-41:
`date_time_is_ready` after an event. -/
def dateTimeEvent (ready : Bool) (e : Evt) : Bool :=
  if e = .failed then (if ready then false else ready) else true

/-- `memfault_platform_time_get_current`, zephyr/common/memfault_platform_system_time.c:43-61. `err`, `ms`: what
`date_time_now` returns and stores. -/
def dateTimeGet (ready : Bool) (err ms : Int) : Option Nat :=
  if ready then (if err = 0 then some (u64 (ms.tdiv 1000)) else none) else none

/-- `struct rtc_time`, as far as it is used. -/
structure RtcTime where
  sec : Int
  min : Int
  hour : Int
  mday : Int
  mon : Int
  year : Int
  deriving Repr, DecidableEq

/-- `memfault_platform_time_get_current`, zephyr/common/memfault_platform_system_time.c:80-112. `stack`: what
`rtctime` holds before the call; `driver`: what the driver stores, if it succeeds. -/
def rtcGet (mktime : RtcTime → Int) (stack : RtcTime) (driver : Option RtcTime) : Option Nat :=
  let rtctime := driver.getD stack
  if rtctime.year < 123 ∨ rtctime.year > 200 then none
  else
    let now := mktime rtctime
    if now = -1 then none else some (u64 now)

/-- `memfault_platform_time_get_current`, esp_idf/memfault/common/memfault_platform_system_time.c:11-39. `now`:
`time(NULL)`; `gmtime`: `tm_year` of `gmtime_r`. -/
def espGet (gmtime : Int → Option Int) (now : Int) : Option Nat :=
  if now = -1 then none
  else
    match gmtime now with
    | none => none
    | some year => if year < 124 ∨ year > 200 then none else some (u64 now)

end Mflt.SystemTime
