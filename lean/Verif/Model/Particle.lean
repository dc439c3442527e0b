import Verif.Model.DataExport
import Verif.Model.WifiMetrics

/-!
# Model of `ports/particle/src/memfault.cpp`: publishing chunks

`Memfault::process` is called again and again by the application. The packetizer is the model of it. Simplifications:
nothing is stored between the two calls of the packetizer within one `process`; `size_t` arithmetic on the size of an
event does not wrap (`3 * max`).
-/

namespace Mflt.Particle

open Mflt.WifiMetrics (SysEvent cloudConnected)

/-- The port's state: `m_connected`, `s_last_check_time` and the packetizer. -/
structure Sys where
  connected : Bool
  last : Nat
  pk : Packetizer.State

/-- After boot, memfault.cpp:59,483-484. -/
def Sys.boot : Sys := ⟨false, 0, Packetizer.boot⟩

/-- What a call of `process` finds: the milliseconds since boot at its two calls of `millis()`, the largest event the
cloud takes, the block `malloc` gives (with what it holds), and whether publishing succeeds. -/
structure Call where
  t1 : Nat
  t2 : Nat
  max : Nat
  heap : Option Bytes
  ok : Bool
  deriving Repr, DecidableEq

/-- An event given to `Particle.publish`: when (the second `millis()`), the largest one taken then, the text, and
whether it succeeded. -/
structure Published where
  time : Nat
  limit : Nat
  text : Bytes
  ok : Bool
  deriving Repr, DecidableEq

/-- `millis()`: 32 bits wide. -/
def millis (t : Nat) : Nat := t % 2 ^ 32

/-- The text of an event, from a block of memory which starts with a chunk of `len` bytes: memfault.cpp:83-89. `none`:
a failed assertion (the device resets) or an access outside of the block. -/
def textOf (max : Nat) (block : Bytes) (len : Nat) : Option Bytes :=
  let base64Len := Base64.encodeLen len
  if ¬ base64Len ≤ max then none
  else
    match Base64.encodeInplace block len with
    | none => none
    | some block =>
      match memcpyIn block base64Len [0] with
      | none => none
      | some block => DataExport.stringOf block

/-- `Memfault::process`, memfault.cpp:53-95. `MEMFAULT_BASE64_MAX_DECODE_LEN` is `3 * len / 4`, base64.h:23. -/
def process (cfg : Packetizer.Config) (s : Sys) (c : Call) : Option (List Published × Sys) :=
  if ¬ s.connected then some ([], s)
  else if (millis c.t1 + 2 ^ 32 - s.last) % 2 ^ 32 < 1000 then some ([], s)
  else
    let s := { s with last := millis c.t2 }
    match Packetizer.dataAvailable cfg s.pk with
    | none => none
    | some (false, pk) => some ([], { s with pk := pk })
    | some (true, pk) =>
      match c.heap with
      | none => some ([], { s with pk := pk })
      | some block =>
        let binLen := 3 * c.max / 4
        match Packetizer.getChunk cfg pk (block.take binLen) with
        | none => none
        | some (false, _, _, pk) => some ([], { s with pk := pk })
        | some (true, front, len, pk) =>
          match textOf c.max (front ++ block.drop binLen) len with
          | none => none
          | some text => some ([⟨c.t2, c.max, text, c.ok⟩], { s with pk := pk })

/-- What happens: a source of data gets a message, a system event, or a call of `process`. -/
inductive Act
  | enqueue (src : Packetizer.Src) (m : Bytes)
  | event (e : SysEvent)
  | process (c : Call)
  deriving Repr, DecidableEq

/-- One of them, with what is published. -/
def step (cfg : Packetizer.Config) (s : Sys) : Act → Option (List Published × Sys)
  | .enqueue src m =>
    some ([], { s with pk := { s.pk with queue := fun x => if x = src then s.pk.queue x ++ [m] else s.pk.queue x } })
  | .event e => some ([], { s with connected := cloudConnected s.connected e })
  | .process c => process cfg s c

/-- A history. -/
def run (cfg : Packetizer.Config) : Sys → List Act → Option (List Published × Sys)
  | s, [] => some ([], s)
  | s, a :: as =>
    match step cfg s a with
    | none => none
    | some (ps, s) =>
      match run cfg s as with
      | none => none
      | some (qs, s) => some (ps ++ qs, s)

end Mflt.Particle
