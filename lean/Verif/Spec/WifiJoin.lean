/-!
# Joining a Wi-Fi network with saved credentials

What a station hears from its Wi-Fi driver, what it does, and what somebody who saved credentials expects.
-/

namespace Mflt.Spec.WifiJoin

abbrev Bytes := List (BitVec 8)

/-- What the driver reports: the station is up, it is associated, it got an address (only now the network can be used),
or the network was lost or could not be joined. -/
inductive Ev
  | started
  | associated
  | address
  | lost
  deriving Repr, DecidableEq

/-- What happens, seen from outside: the driver reports something; the driver is given a network and a password (fields
of 32 and 64 bytes), is started, is asked to connect or to disconnect; a text is logged; somebody asks to join a network
and is told whether it worked. -/
inductive Item
  | heard (e : Ev)
  | configure (ssid password : Bytes)
  | start
  | connect
  | disconnect
  | logged (text : Bytes)
  | asked (ssid password : Bytes)
  | told (joined : Bool)
  deriving Repr, DecidableEq

/-- The text in a field: up to the first 0, or all of it. -/
def field : Bytes → Bytes
  | [] => []
  | b :: l => if b = 0 then [] else b :: field l

/-- How often the network was lost since the station last got an address (the latest item first). -/
def losses : List Item → Nat
  | [] => 0
  | .heard .lost :: l => losses l + 1
  | .heard .address :: _ => 0
  | _ :: l => losses l

/-- How often the driver was asked to connect. -/
def connects (l : List Item) : Nat := l.countP (· = .connect)

/-- What happens to the credentials: new ones are given, or the device restarts. -/
inductive Saved
  | given (ssid password : Bytes)
  | restarted
  deriving Repr, DecidableEq

/-- The credentials after a history (the latest first): the last ones that can be credentials at all: at most 32
characters of a network and 64 of a password. -/
def credentials : List Saved → Bytes × Bytes
  | [] => ([], [])
  | .restarted :: l => credentials l
  | .given s p :: l => if s.length ≤ 32 ∧ p.length ≤ 64 then (s, p) else credentials l

end Mflt.Spec.WifiJoin
