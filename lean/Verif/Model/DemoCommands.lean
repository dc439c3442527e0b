import Verif.Spec.DemoCommands

/-!
# Model of two commands of the demo shell

`components/demo/src/panics/memfault_demo_panics.c` and `components/demo/src/memfault_demo_cli_drain_chunks.c`. Simplifications: `atoi`
skips no white space, as the shell splits arguments at it, takes no plus, and does not overflow; the packetizer is a list of messages
cut by the size of the buffer it is given.
-/

namespace Mflt.DemoCommands

open Spec.DemoCommands

/-- The digits that `atoi` takes, called in memfault_demo_panics.c:63. -/
def digits : List Char → Nat → Nat
  | [], n => n
  | c :: cs, n => if '0' ≤ c ∧ c ≤ '9' then digits cs (10 * n + (c.toNat - '0'.toNat)) else n

/-- `atoi`, called in memfault_demo_panics.c:63. -/
def atoi (s : List Char) : Int :=
  match s with
  | '-' :: cs => -(digits cs 0 : Int)
  | cs => digits cs 0

/-- `do_some_work_base`, memfault_demo_panics.c:32-37: whether the assertion fails; the parameter is `argv`. -/
def doSomeWorkFails (argv : Nat) : Bool := decide (argv % 2 ^ 32 ≠ 0xDEADBEEF)

/-- The end of `memfault_demo_cli_cmd_crash`, memfault_demo_panics.c:96. -/
def crashEnd (crashType : Int) : Outcome := .assert (some (crashType % 2 ^ 32).toNat)

/-- `memfault_demo_cli_cmd_crash`, memfault_demo_panics.c:59-98; the parameters are the processor, the argument if there is one, and the
address of the arguments. -/
def cmdCrash (hw : Hardware) (arg : Option (List Char)) (argv : Nat) : Outcome :=
  let crashType := match arg with
    | some s => atoi s
    | none => 0
  if crashType = 0 then .assert none
  else if crashType = 1 then if hw.badCallFaults then .fault else crashEnd crashType
  else if crashType = 2 then if hw.unalignedFaults then .fault else crashEnd crashType
  else if crashType = 3 then if doSomeWorkFails argv then .assert none else crashEnd crashType
  else if crashType = 4 then if hw.watchdogFires then .watchdog else crashEnd crashType
  else .returned (-1)

/-- The packetizer as `prv_try_send_memfault_data` sees it, memfault_demo_cli_drain_chunks.c:36: the next chunk is at most as long as
the buffer. -/
def getChunk (bufLen : Nat) : List (List UInt8) → Option (List UInt8 × List (List UInt8))
  | [] => none
  | m :: ms => some (m.take bufLen, if m.length ≤ bufLen then ms else m.drop bufLen :: ms)

/-- `memfault_demo_drain_chunk_data` with `prv_try_send_memfault_data`, memfault_demo_cli_drain_chunks.c:32-48: what the transport of the
user is given, and what is left; `none` if the loop takes more than `fuel` rounds. -/
def drain (bufLen : Nat) : Nat → List (List UInt8) → Option (List (List UInt8) × List (List UInt8))
  | 0, _ => none
  | fuel + 1, src =>
    match getChunk bufLen src with
    | none => some ([], src)
    | some (chunk, src) => (drain bufLen fuel src).map fun r => (chunk :: r.1, r.2)

end Mflt.DemoCommands
