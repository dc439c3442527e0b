/-!
# The metrics of an update

A session is from its start (or boot) to its end; its metrics say what happened in it.
-/

namespace Mflt.Spec.OtaSession

/-- What happens: an update starts; TCP sends and receives packets; TLS sends or receives bytes, or fails (the result is
then negative or 0); an update ends with an error code, and a signal strength if there is one. -/
inductive Op
  | start
  | packets (sent received : Nat)
  | sent (result : Int)
  | received (result : Int)
  | finish (error : Int) (rssi : Option Int)
  deriving Repr, DecidableEq

/-- What is reported at the end of an update. -/
structure Report where
  error : Int
  rssi : Option Int
  packetsSent : Nat
  packetsReceived : Nat
  bytesSent : Nat
  bytesReceived : Nat
  deriving Repr, DecidableEq

/-- The sum of what events count since the last start. The latest event comes first. -/
def since (f : Op → Nat) : List Op → Nat
  | [] => 0
  | .start :: _ => 0
  | o :: l => f o + since f l

def packetsSent : Op → Nat
  | .packets s _ => s
  | _ => 0

def packetsReceived : Op → Nat
  | .packets _ r => r
  | _ => 0

def bytesSent : Op → Nat
  | .sent r => r.toNat
  | _ => 0

def bytesReceived : Op → Nat
  | .received r => r.toNat
  | _ => 0

/-- The reports there should be, the latest first; numbers have 32 bits. -/
def reports : List Op → List Report
  | [] => []
  | .finish e r :: l =>
    ⟨e, r, since packetsSent l % 2 ^ 32, since packetsReceived l % 2 ^ 32, since bytesSent l % 2 ^ 32,
      since bytesReceived l % 2 ^ 32⟩ :: reports l
  | _ :: l => reports l

end Mflt.Spec.OtaSession
