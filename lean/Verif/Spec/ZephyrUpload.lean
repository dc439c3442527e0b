import Verif.Model.ZephyrUpload
import Verif.Spec.HttpRequest

/-
What is expected of connections and uploads.
-/
namespace Mflt.Spec.ZephyrUpload

open Mflt.ZephyrUpload (Act Op Net Env)
open Mflt.Spec.HttpRequest (Request parse text)
open Mflt.Spec.Http (decimal IsDigit)

/-- The descriptors and the address lists that are held after what was asked for; `none` if something
was given back that was not held. -/
def held : List Act → List Nat × List Nat → Option (List Nat × List Nat)
  | [], h => some h
  | .opened fd :: t, h => held t (fd :: h.1, h.2)
  | .closed fd :: t, h =>
    if 0 ≤ fd ∧ fd.toNat ∈ h.1 then held t (h.1.erase fd.toNat, h.2) else none
  | .looked i :: t, h => held t (h.1, i :: h.2)
  | .freed i :: t, h => if i ∈ h.2 then held t (h.1, h.2.erase i) else none

/-- Calls for which the port keeps track of what it holds: lookups fail with a negative number,
`connect_socket` does not fail, and neither does an upload. -/
def ConnFine : Op → Prop
  | .open n | .create n | .configure n | .ota n => n.dns ≤ 0
  | .connect n => 0 ≤ n.connect
  | .close => True
  | .post available n uploaded => n.dns ≤ 0 ∧ (available = true → uploaded = true)

/-- What a server reads from a connection: posts of chunks for this device, one after the other. -/
inductive Reads (e : Env) : Bytes → List Bytes → Prop where
  | nothing : Reads e [] []
  | post (request d rest : Bytes) (r : Request) (ds : List Bytes) (length : Bytes)
      (hparse : ∀ body, parse (request ++ body) = some (r, body))
      (hmethod : r.method = text "POST")
      (htarget : r.target = text "/api/v0/chunks/" ++ e.info.serial)
      (hlength : (text "Content-Length", length) ∈ r.fields)
      (hkey : (text "Memfault-Project-Key", e.cfg.apiKey) ∈ r.fields)
      (hdigits : ∀ c ∈ length, IsDigit c) (hvalue : decimal length = d.length)
      (hrest : Reads e rest ds) :
      Reads e (request ++ d ++ rest) (d :: ds)

/-- What is taken from a packetizer in a row. -/
inductive Chunks {π : Type} (take : π → Bytes → π → Prop) : π → List Bytes → π → Prop where
  | nil (p : π) : Chunks take p [] p
  | cons {p q r : π} {d : Bytes} {ds : List Bytes} (h : take p d q) (t : Chunks take q ds r) :
      Chunks take p (d :: ds) r

/-- The pieces of a message that a packetizer gives until it says that the message is over. -/
inductive Pieces {π : Type} (next : π → Option (Bytes × Bool) × π) : π → List Bytes → π → Prop where
  | done {p q : π} (h : next p = (none, q)) : Pieces next p [] q
  | last {p q : π} {d : Bytes} (h : next p = (some (d, true), q)) : Pieces next p [d] q
  | more {p q r : π} {d : Bytes} {ds : List Bytes} (h : next p = (some (d, false), q))
      (t : Pieces next q ds r) : Pieces next p (d :: ds) r

/-- A packetizer whose messages have the length it says, and less than `fuel` pieces. -/
def Honest {π : Type} (src : Mflt.ZephyrUpload.Source π) (fuel : Nat) : Prop :=
  ∀ p n q, src.begin p = (some n, q) → n < 2 ^ 31 ∧
    ∃ pieces r, Pieces src.next q pieces r ∧ pieces.flatten.length = n ∧ pieces.length < fuel

/-- A message is taken from the packetizer as a whole. -/
def TakesMessage {π : Type} (src : Mflt.ZephyrUpload.Source π) (p : π) (d : Bytes) (r : π) : Prop :=
  ∃ q pieces, src.begin p = (some d.length, q) ∧ Pieces src.next q pieces r ∧ pieces.flatten = d

/-- What arrives as an answer is not the beginning of some response that is cut. -/
def NotCut (answer : Mflt.ZephyrOta.Sock) : Prop :=
  ∀ r : Mflt.Spec.Http.Response, r.Ok → ∀ k < r.bytes.length, answer.incoming ≠ r.bytes.take k

/-- No `send` fails, and there are enough for `n` bytes however few each of them takes. -/
def Goes (sends : List Mflt.ZephyrUpload.SendRes) (n : Nat) : Prop :=
  Mflt.ZephyrUpload.SendRes.fail ∉ sends ∧
    n ≤ sends.countP fun r => match r with
      | .sent _ => true
      | _ => false

end Mflt.Spec.ZephyrUpload
