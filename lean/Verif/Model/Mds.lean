import Verif.Model.HttpRequest

/-
The Memfault Diagnostic Service over Bluetooth, `ports/dialog/da1469x/memfault_diagnostic_service.c`.

Simplified: the Bluetooth stack answers as the events say. `chunk_len` is the length of the chunk in
`payload`, 0 without one, which is what it is after every call. The negotiated MTU is at least 23 (Bluetooth).
The allocation of the service and the registration of its attributes are left out.
-/
namespace Mflt.Mds

open HttpRequest (ascii)

/-- The calls of the packetizer: `memfault_packetizer_data_available` and `memfault_packetizer_get_chunk` with
a buffer of `n` bytes. -/
structure Source (π : Type) where
  available : π → Bool
  chunk : Nat → π → Option Bytes × π

/-- `subscriber` of `md_service_t`, memfault_diagnostic_service.c:121-126. -/
structure Sub where
  active : Bool := false
  mode : Bool := false
  seq : Nat := 0
  conn : Nat := 0
deriving Repr, DecidableEq

/-- `md_service_t`, memfault_diagnostic_service.c:106-132: the subscriber, the payload (header and chunk) and
whether the timer runs; the packetizer; and the number of notifications on their way. -/
structure State (π : Type) where
  sub : Sub := {}
  payload : Option (Nat × Bytes) := none
  timer : Bool := false
  source : π
  inflight : Nat := 0

/-- What the stack and the heap answer during one call. -/
structure Env where
  mtu : Option Nat
  malloc : Bool
  send : Bool
deriving Repr, DecidableEq

/-- The attributes that can be read. -/
inductive Attr where
  | features | uri | auth | deviceId | other
deriving Repr, DecidableEq

/-- What the service tells the stack: a notification that it takes, the confirmation of a read (status and
value), the confirmation of a write. -/
inductive Out where
  | notify (conn : Nat) (packet : Bytes)
  | readCfm (conn : Nat) (status : Nat) (value : Bytes)
  | writeCfm (conn : Nat) (status : Nat)
deriving Repr, DecidableEq

/-- Status codes of the attribute protocol and of the service, memfault_diagnostic_service.c:134-139 and
Bluetooth Core, vol. 3, part F, table 3.4. -/
def attOk : Nat := 0x00
def attReadNotPermitted : Nat := 0x02
def attWriteNotPermitted : Nat := 0x03
def attNotSupported : Nat := 0x06
def attNotFound : Nat := 0x0a
def attNotLong : Nat := 0x0b
def invalidLength : Nat := 0x80
def alreadySubscribed : Nat := 0x81
def insufficientLength : Nat := 0x82
def notSubscribed : Nat := 0x83

variable {π : Type}

/-- `prv_handle_disconnected_evt`, memfault_diagnostic_service.c:151-162. -/
def disconnected (s : State π) (conn : Nat) : State π :=
  if s.sub.active && s.sub.conn == conn then
    { s with sub := { active := false, mode := false, seq := 0, conn := 0 }, timer := false, inflight := 0 }
  else { s with timer := false }

/-- `prv_try_notify`, memfault_diagnostic_service.c:164-209. -/
def tryNotify (src : Source π) (e : Env) (s : State π) (conn : Nat) : State π × List Out :=
  if !s.sub.active || s.sub.conn != conn then (s, [])
  else if !s.sub.mode then (s, [])
  else
    match e.mtu with
    | none => (s, [])
    | some mtu =>
      let s :=
        if s.payload.isNone && src.available s.source then
          if e.malloc then
            let r := src.chunk (mtu - 3 - 1) s.source
            { s with payload := some (s.sub.seq % 32, r.1.getD []), source := r.2 }
          else s
        else s
      match s.payload with
      | some (hdr, chunk) =>
        if chunk.length ≠ 0 && e.send then
          ({ s with sub := { s.sub with seq := (s.sub.seq + 1) % 32 }, payload := none, inflight := s.inflight + 1 },
            [.notify conn (UInt8.ofNat hdr :: chunk)])
        else ({ s with timer := true }, [])
      | none => ({ s with timer := true }, [])

/-- `prv_mds_timer_callback`, memfault_diagnostic_service.c:213-231: the connections in the order in which they
are taken. -/
def timerLoop (src : Source π) : List (Nat × Env) → State π → State π × List Out
  | [], s => (s, [])
  | (conn, e) :: t, s =>
    let r := tryNotify src e s conn
    let r' := timerLoop src t r.1
    (r'.1, r.2 ++ r'.2)

/-- The values of `prv_handle_read_req`, memfault_diagnostic_service.c:233-284: the value, or a status. A URI
has room for 63 characters, any value for 512 bytes. -/
def attrValue (serial key : Bytes) : Attr → Nat ⊕ Bytes
  | .features => .inr [0]
  | .uri =>
    if (ascii "https://chunks.memfault.com/api/v0/chunks/").length + serial.length > 63 then
      .inl insufficientLength
    else .inr (ascii "https://chunks.memfault.com/api/v0/chunks/" ++ serial)
  | .auth =>
    if (ascii "Memfault-Project-Key:" ++ key).length > 512 then .inl invalidLength
    else .inr (ascii "Memfault-Project-Key:" ++ key)
  | .deviceId => if serial.length > 512 then .inl invalidLength else .inr serial
  | .other => .inl attReadNotPermitted

/-- `prv_handle_read_req`, memfault_diagnostic_service.c:233-294. -/
def readReq (serial key : Bytes) (access : Bool) (conn : Nat) (attr : Attr) (offset : Nat) : Out :=
  if !access then .readCfm conn attReadNotPermitted []
  else
    match attrValue serial key attr with
    | .inl status => .readCfm conn status []
    | .inr v => .readCfm conn attOk (if offset > v.length then [] else v.drop offset)

/-- `prv_handle_cccd_write`, memfault_diagnostic_service.c:296-324: the status. -/
def cccdWrite (s : State π) (conn offset : Nat) (value : Bytes) : State π × Nat :=
  if offset ≠ 0 then (s, attNotLong)
  else
    match value with
    | [lo, _] =>
      let on := lo.toNat % 2 == 1
      if !s.sub.active then ({ s with sub := { s.sub with active := on, conn := conn } }, attOk)
      else if s.sub.conn == conn then ({ s with sub := { s.sub with active := on } }, attOk)
      else (s, alreadySubscribed)
    | _ => (s, invalidLength)

/-- `prv_handle_data_export_write`, memfault_diagnostic_service.c:326-355: the status. -/
def exportWrite (src : Source π) (e : Env) (s : State π) (conn offset : Nat) (value : Bytes) :
    State π × List Out × Nat :=
  if offset ≠ 0 then (s, [], attNotLong)
  else
    match value with
    | [v] =>
      if !s.sub.active || s.sub.conn != conn then (s, [], notSubscribed)
      else if v ≠ 0 ∧ v ≠ 1 then (s, [], attNotSupported)
      else
        let r := tryNotify src e { s with sub := { s.sub with mode := v == 1 } } conn
        (r.1, r.2, attOk)
    | _ => (s, [], invalidLength)

/-- The attributes that can be written. -/
inductive Target where
  | cccd | chunk | other
deriving Repr, DecidableEq

/-- What happens to the service. -/
inductive Ev where
  | disconnect (conn : Nat)
  | timer (conns : List (Nat × Env))
  | sent (conn : Nat) (e : Env)
  | read (access : Bool) (conn : Nat) (attr : Attr) (offset : Nat)
  | write (access : Bool) (conn : Nat) (target : Target) (offset : Nat) (value : Bytes) (e : Env)
deriving Repr, DecidableEq

/-- The device: its serial number and the project key. -/
structure Device where
  serial : Bytes
  key : Bytes

/-- One event: `prv_handle_disconnected_evt`, `prv_mds_timer_callback` (a timer that expires has stopped),
`prv_handle_event_sent` (memfault_diagnostic_service.c:388-390), `prv_handle_read_req` and
`prv_handle_write_req` (memfault_diagnostic_service.c:357-373, which confirms a read when there is no
access). -/
def step (d : Device) (src : Source π) (s : State π) : Ev → State π × List Out
  | .disconnect conn => (disconnected s conn, [])
  | .timer conns => if s.timer then timerLoop src conns { s with timer := false } else (s, [])
  | .sent conn e => tryNotify src e { s with inflight := s.inflight - 1 } conn
  | .read access conn attr offset => (s, [readReq d.serial d.key access conn attr offset])
  | .write access conn target offset value e =>
    if !access then (s, [.readCfm conn attWriteNotPermitted []])
    else
      match target with
      | .cccd => ((cccdWrite s conn offset value).1, [.writeCfm conn (cccdWrite s conn offset value).2])
      | .chunk =>
        let r := exportWrite src e s conn offset value
        (r.1, r.2.1 ++ [.writeCfm conn r.2.2])
      | .other => (s, [.writeCfm conn attNotFound])

/-- A history of events. -/
def run (d : Device) (src : Source π) : List Ev → State π → State π × List Out
  | [], s => (s, [])
  | e :: t, s =>
    let r := step d src s e
    let r' := run d src t r.1
    (r'.1, r.2 ++ r'.2)

end Mflt.Mds
