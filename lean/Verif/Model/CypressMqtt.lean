import Verif.Spec.CypressMqtt

/-!
# Model of the MQTT demo for the Cypress kit

`examples/cypress/CY8CKIT-064S0S2-4343W/src/mqtt_demo_memfault.c`. Simplifications: the network and the MQTT library are scripts;
connecting with its own retries is one step; delays, logs and what is received are left out; the packetizer is any machine (its model
is `Model/Packetizer`).
-/

namespace Mflt.CypressMqtt

open Spec.CypressMqtt

/-- What happens in one round of the loop: whether the TLS connection is made, whether the MQTT connection is made, the results of
publishing, and whether closing works. -/
structure Round where
  tls : Bool
  mqtt : Bool
  publishes : List Bool
  close : Bool

/-- The variables: the packetizer, `mfltLen` and `xIsConnectionEstablished`, mqtt_demo_memfault.c:461-470. -/
structure St (S : Type) where
  source : S
  len : Nat
  established : Bool

/-- `memfault_packetizer_get_chunk`, memfault_data_packetizer.c:376-400: the chunk, and the length that is left in the variable. -/
def getChunk {S : Type} (p : Packetizer S) (s : S) (len : Nat) : Option (Bytes × S) × Nat :=
  if !p.more s then (none, len)
  else if len < 9 then (none, 0)
  else (some (p.chunk s len), (p.chunk s len).1.length)

/-- The loop that publishes, mqtt_demo_memfault.c:512-528: events, packetizer, `mfltLen`, status. `none`: the script ends before. -/
def sendAll {S : Type} (p : Packetizer S) (size : Nat) : List Bool → S → Nat → Option (List Ev × S × Nat × Bool)
  | [], s, len =>
    match getChunk p s len with
    | (none, len) => some ([], s, len, true)
    | (some _, _) => none
  | ok :: outs, s, len =>
    match getChunk p s len with
    | (none, len) => some ([], s, len, true)
    | (some (b, s), len) =>
      if ok then (sendAll p size outs s size).map fun r => (.publish b true :: r.1, r.2)
      else some ([.publish b false], s, len, false)

/-- The end of a round, mqtt_demo_memfault.c:531-551. -/
def finish (established status close : Bool) : List Ev × Bool :=
  ((if status then [.disconnect] else []) ++ (if established then [.close] else []), status && (!established || close))

/-- One round, mqtt_demo_memfault.c:497-551: events, variables, status. -/
def round {S : Type} (p : Packetizer S) (size : Nat) (a : Round) (st : St S) : Option (List Ev × St S × Bool) :=
  let established := st.established || a.tls
  if a.tls && a.mqtt then
    (sendAll p size a.publishes st.source st.len).map fun r =>
      let f := finish established r.2.2.2 a.close
      (.connect true :: (r.1 ++ f.1), ⟨r.2.1, r.2.2.1, established⟩, f.2)
  else
    let f := finish established false a.close
    some (.connect a.tls :: f.1, { st with established }, f.2)

/-- `RunCoreMqttMemfaultDemo`, mqtt_demo_memfault.c:491-580, from the round number `n` on: events, and whether it is successful. -/
def run {S : Type} (p : Packetizer S) (size : Nat) : List Round → St S → Nat → Option (List Ev × Bool)
  | [], _, _ => none
  | a :: l, st, n =>
    (round p size a st).bind fun r =>
      if r.2.2 then some (r.1, true)
      else if 3 ≤ n then some (r.1, false)
      else (run p size l r.2.1 (n + 1)).map fun q => (r.1 ++ q.1, q.2)

/-- The demo with a buffer of `size` bytes, mqtt_demo_memfault.c:467-470. -/
def demo {S : Type} (p : Packetizer S) (size : Nat) (script : List Round) (source : S) : Option (List Ev × Bool) :=
  run p size script ⟨source, size, false⟩ 0

end Mflt.CypressMqtt
