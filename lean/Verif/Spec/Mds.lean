import Verif.Model.Mds

/-
What the Memfault Diagnostic Service says about itself in `ports/include/memfault/ports/ble/mds.h`.
-/
namespace Mflt.Spec.Mds

open Mflt.Mds (Source Ev Out Attr Target)

/-- The connection that is subscribed, and whether it has enabled streaming. -/
structure Client where
  conn : Option Nat := none
  streaming : Bool := false
deriving Repr, DecidableEq

/-- How a permitted event changes that: the first to subscribe stays the subscriber until it unsubscribes
or disconnects, and only the subscriber turns streaming on and off. A subscription starts without
streaming. -/
def next (c : Client) : Ev → Client
  | .disconnect conn => if c.conn = some conn then {} else c
  | .write true conn .cccd 0 [lo, _] _ =>
    match c.conn with
    | none => if lo.toNat % 2 = 1 then ⟨some conn, false⟩ else c
    | some x => if x = conn ∧ lo.toNat % 2 = 0 then {} else c
  | .write true conn .chunk 0 [v] _ =>
    if c.conn = some conn ∧ v = 1 then { c with streaming := true }
    else if c.conn = some conn ∧ v = 0 then { c with streaming := false }
    else c
  | _ => c

/-- After a history. -/
def client (evs : List Ev) : Client := evs.foldl next {}

/-- A connection turns its notifications off. -/
def Unsubscribes : Ev → Prop
  | .write true _ .cccd 0 [lo, _] _ => lo.toNat % 2 = 0
  | _ => False

/-- The packets that are sent, in order. -/
def packets : List Out → List Bytes
  | [] => []
  | .notify _ p :: t => p :: packets t
  | _ :: t => packets t

/-- What is taken from the packetizer in a row; it may also give nothing. -/
inductive Taken {π : Type} (src : Source π) : π → List Bytes → π → Prop where
  | nil (p : π) : Taken src p [] p
  | take {p q r : π} {n : Nat} {d : Bytes} {ds : List Bytes} (h : src.chunk n p = (some d, q)) (hd : d ≠ [])
      (t : Taken src q ds r) : Taken src p (d :: ds) r
  | nothing {p q r : π} {n : Nat} {x : Option Bytes} {ds : List Bytes} (h : src.chunk n p = (x, q))
      (hx : x.getD [] = []) (t : Taken src q ds r) : Taken src p ds r

/-- A text in bytes. -/
def text (s : String) : Bytes := s.toList.map fun c => UInt8.ofNat c.toNat

/-- The values of the attributes. -/
def value (serial key : Bytes) : Attr → Option Bytes
  | .features => some [0]
  | .deviceId => some serial
  | .uri => some (text "https://chunks.memfault.com/api/v0/chunks/" ++ serial)
  | .auth => some (text "Memfault-Project-Key:" ++ key)
  | .other => none

/-- The confirmations of writes. -/
def confirmations (outs : List Out) : Nat :=
  outs.countP fun o => match o with
    | .writeCfm .. => true
    | _ => false

/-- The answers of the stack during an event. -/
def envs : Ev → List Mflt.Mds.Env
  | .timer conns => conns.map (·.2)
  | .sent _ e => [e]
  | .write _ _ _ _ _ e => [e]
  | _ => []

/-- The status of a write, after a history in which `subscriber` subscribed: 0x0a for attributes that cannot be written,
0x0b for writes of a part, 0x80 for a wrong length, 0x81 if another connection is subscribed, 0x83 without a
subscription, and 0x06 for an unknown mode. -/
def writeStatus (subscriber : Option Nat) (conn : Nat) (target : Target) (offset : Nat) (value : Bytes) : Nat :=
  match target with
  | .other => 0x0a
  | .cccd =>
    if offset ≠ 0 then 0x0b
    else if value.length ≠ 2 then 0x80
    else if subscriber = none ∨ subscriber = some conn then 0
    else 0x81
  | .chunk =>
    if offset ≠ 0 then 0x0b
    else if value.length ≠ 1 then 0x80
    else if subscriber ≠ some conn then 0x83
    else if value = [0] ∨ value = [1] then 0
    else 0x06

end Mflt.Spec.Mds
