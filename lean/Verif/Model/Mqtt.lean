import Verif.Spec.Mqtt

/-!
# Model of the MQTT transport of the ESP32 demo application

`examples/esp32/apps/memfault_demo_app/main/app_memfault_transport_mqtt.c`. The packetizer is a queue of messages,
each a list of chunks of at most 1024 bytes (its own model is `Model/Packetizer.lean`). Simplifications: the MQTT library
is scripted; metrics and logs are left out; there is always a chunk if data is available.
-/

namespace Mflt.Mqtt

open Spec.Mqtt

/-- The variables of the file, app_memfault_transport_mqtt.c:26-34: `client`: `s_mqtt_client` is not NULL; `sem`: the
binary semaphore `s_mqtt_connected`; `topic`: `s_topic_string`; the packetizer (`queue`, and `pos` chunks of the first
message were read), and whether the library's client has a connection (`up`). -/
structure St where
  client : Bool
  up : Bool
  sem : Bool
  topic : List Char
  queue : List (List Bytes)
  pos : Nat
  log : List Ev
  deriving Repr, DecidableEq

/-- At start, app_memfault_transport_mqtt.c:26-34, 128-135. -/
def fresh : St := ⟨false, false, false, [], [], 0, []⟩

/-- What the library does during one call: `esp_mqtt_client_init` gives a client; the result of registering the event
handler; that of `esp_mqtt_client_start`; the connection is there within 10 s; the results of the publishes (those not
listed are 1); the broker is connected again before the client is destroyed. `serial`: the device's serial number. -/
structure Env where
  init : Bool
  register : Int
  start : Int
  connects : Bool
  publishes : List Int
  again : Bool
  serial : List Char
  deriving Repr, DecidableEq

/-- `prv_close_client`, app_memfault_transport_mqtt.c:52-65, after the handler (36-50) was called once more or not. -/
def close (e : Env) (s : St) : St :=
  { s with client := false, up := false, sem := s.sem || (e.again && e.register == 0) }

/-- `prv_create_client`, app_memfault_transport_mqtt.c:67-109. A semaphore that was given before is taken without
waiting. -/
def createClient (e : Env) (s : St) : Int × St :=
  if s.client then (0, s)
  else if !e.init then (-1, { s with client := false })
  else
    let s := { s with client := true, up := false }
    if e.start ≠ 0 then (-1, s)
    else if s.sem then (0, { s with sem := false })
    else if e.connects && e.register == 0 then (0, { s with up := true })
    else (-1, close e s)

/-- `prv_build_topic_string`, app_memfault_transport_mqtt.c:117-126: `snprintf` into 128 bytes, once. -/
def buildTopic (e : Env) (s : St) : St :=
  if s.topic.length > 0 then s
  else { s with topic := ("memfault/my_project/".toList ++ e.serial ++ "/chunks".toList).take 127 }

/-- `memfault_packetizer_get_chunk`: the next chunk; with the last one of a message it is deleted. -/
def getChunk (s : St) : Option (Bytes × St) :=
  match s.queue with
  | [] => none
  | m :: ms =>
    match m[s.pos]? with
    | none => none
    | some c => some (c, if s.pos + 1 = m.length then { s with queue := ms, pos := 0 } else { s with pos := s.pos + 1 })

/-- The loop of `app_memfault_transport_send_chunks`, app_memfault_transport_mqtt.c:147-167. `none`: the loop does not
end, or there is no chunk. -/
def sendLoop : Nat → List Int → Int → St → Option (Int × St)
  | 0, _, _, _ => none
  | fuel + 1, rs, rv, s =>
    if s.queue = [] then some (rv, s)
    else
      (getChunk s).bind fun (c, s) =>
        let rv := rs.headD 1
        let s := { s with log := s.log ++ [.publish s.up s.topic c rv] }
        if rv < 0 then some (rv, { s with pos := 0 }) else sendLoop fuel rs.tail rv s

/-- `app_memfault_transport_send_chunks`, app_memfault_transport_mqtt.c:137-171. -/
def sendChunks (e : Env) (s : St) : Option St :=
  let (rv, s) := createClient e s
  if rv ≠ 0 then some { s with log := s.log ++ [.returned rv] }
  else
    let s := buildTopic e s
    (sendLoop ((s.queue.map List.length).sum + 1) e.publishes rv s).map fun (rv, s) =>
      let s := close e s
      { s with log := s.log ++ [.returned rv] }

/-- What happens: a message is recorded, or the application sends. -/
inductive Action
  | message (m : List Bytes)
  | send (e : Env)
  deriving Repr, DecidableEq

def step (s : St) : Action → Option St
  | .message m => some { s with queue := s.queue ++ [m] }
  | .send e => sendChunks e s

/-- A run from a state. -/
def run : St → List Action → Option St
  | s, [] => some s
  | s, a :: as => (step s a).bind fun s => run s as

end Mflt.Mqtt
