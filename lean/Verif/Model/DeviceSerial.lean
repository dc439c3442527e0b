import Verif.Model.Mem

/-!
# Model of the serial numbers of the Zephyr and ESP-IDF ports

`ports/zephyr/common/memfault_platform_core.c:215-245` (`memfault_zephyr_get_device_id`) and
`ports/esp_idf/memfault/common/memfault_platform_device_info.c:18-59` (`prv_get_device_serial`,
`memfault_esp_port_get_device_info`), called by any number of tasks and interrupts that preempt each other.

Both write the serial number into a static buffer and return a pointer to it: what a caller reads depends on
what others do. Simplified: one call of `snprintf` is one step. An access outside of the buffer and the use of
memory that was never written are `none`.
-/

namespace Mflt.DeviceSerial

inductive Port
  | zephyr
  | espIdf
  deriving Repr, DecidableEq

/-- Where the pointer that is returned points to. -/
inductive Source
  /-- "UNKNOWN", the initial value of `dev_str`, memfault_platform_core.c:218 -/
  | initial
  /-- "SOC-testserial", or "unknown" in an interrupt with ESP-IDF -/
  | fallback
  | buffer
  deriving Repr, DecidableEq

inductive Job
  | idle
  /-- in the loop, with index `i` -/
  | rendering (i : Nat)
  /-- before `return dev_str` -/
  | returning
  /-- the call has returned -/
  | has (s : Source)
  deriving Repr, DecidableEq

/-- `dev_id_str` or `s_device_serial`; `dev_str`; the callers. -/
structure World where
  buf : Bytes
  devStr : Source
  jobs : List Job
  deriving Repr, DecidableEq

inductive Op
  /-- Caller `t` calls, from an interrupt or not; whether the hardware tells the id. -/
  | call (t : Nat) (isr ok : Bool)
  /-- Caller `t` goes on. -/
  | step (t : Nat)
  deriving Repr, DecidableEq

/-- A digit of `%02x` or `%02X`. -/
def digit (port : Port) (n : Nat) : UInt8 :=
  if n < 10 then UInt8.ofNat (48 + n)
  else match port with
    | .zephyr => UInt8.ofNat (87 + n)
    | .espIdf => UInt8.ofNat (55 + n)

/-- `sizeof(dev_id_str)`, memfault_platform_core.c:217; `sizeof(s_device_serial)`, memfault_platform_device_info.c:18. -/
def size : Port → Nat
  | .zephyr => 33
  | .espIdf => 32

/-- `snprintf(&buf[at], room, "%02x", byte)`: up to `room - 1` characters and a 0. -/
def snprintf (port : Port) (buf : Bytes) (at_ room : Nat) (byte : UInt8) : Option Bytes :=
  let text := ([digit port (byte.toNat / 16), digit port (byte.toNat % 16)].take (room - 1)) ++ [0]
  if room = 0 then some buf
  else if at_ + text.length ≤ buf.length then some (buf.take at_ ++ text ++ buf.drop (at_ + text.length)) else none

/-- The body of the loop with index `i`, memfault_platform_core.c:237-239 and memfault_platform_device_info.c:28-36.
Zephyr passes the size of the whole buffer. With ESP-IDF `curr_idx` is two times `i`, and `bytes_written`, which does not
depend on the room, is 2; the result says whether the loop goes on. -/
def body (port : Port) (id buf : Bytes) (i : Nat) : Option (Bytes × Bool) :=
  id[i]?.bind fun b =>
    match port with
    | .zephyr => (snprintf port buf (2 * i) (size port) b).map fun buf => (buf, true)
    | .espIdf =>
      (snprintf port buf (2 * i) (size port - 2 * i) b).map fun buf => (buf, decide (2 < size port - 2 * i))

def setJob (w : World) (t : Nat) (j : Job) : World := { w with jobs := w.jobs.set t j }

def isFree : Job → Bool
  | .idle => true
  | .has _ => true
  | _ => false

/-- The beginning of a call and its steps. ESP-IDF ignores the result of `esp_read_mac`,
memfault_platform_device_info.c:25. -/
def step (port : Port) (id : Bytes) (w : World) : Op → Option World
  | .call t isr ok =>
    if (w.jobs[t]?.map isFree).getD false then
      match port with
      | .zephyr =>
        if ok && decide (0 < id.length) then some (setJob w t (.rendering 0))
        else some (setJob { w with devStr := .fallback } t .returning)
      | .espIdf =>
        w.buf[0]?.bind fun b =>
          if b = 0 then
            if isr then some (setJob w t (.has .fallback))
            else if ok then some (setJob w t (.rendering 0)) else none
          else some (setJob w t (.has .buffer))
    else some w
  | .step t =>
    match w.jobs[t]? with
    | some (.rendering i) =>
      (body port id w.buf i).map fun r =>
        let w := { w with buf := r.1 }
        if r.2 && decide (i + 1 < id.length) then setJob w t (.rendering (i + 1))
        else match port with
          | .zephyr => setJob { w with devStr := .buffer } t .returning
          | .espIdf => setJob w t (.has .buffer)
    | some .returning => some (setJob w t (.has w.devStr))
    | _ => some w

def run (port : Port) (id : Bytes) (w : World) : List Op → Option World
  | [] => some w
  | op :: ops => (step port id w op).bind fun w => run port id w ops

def start (port : Port) (callers : Nat) : World :=
  ⟨List.replicate (size port) 0, .initial, List.replicate callers .idle⟩

/-- What caller `t` reads now, if its call has returned. -/
def reads (w : World) (t : Nat) (fallback : Bytes) : Option Bytes :=
  match w.jobs[t]? with
  | some (.has .initial) => some [85, 78, 75, 78, 79, 87, 78]
  | some (.has .fallback) => some fallback
  | some (.has .buffer) => some (w.buf.takeWhile (· ≠ 0))
  | _ => none

end Mflt.DeviceSerial
