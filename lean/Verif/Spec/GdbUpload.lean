/-!
# Sending a coredump with GDB

The user asks GDB for a coredump of the device. It is sent to the server, with the program if the server does not have it
yet. Before the first time the user is asked whether they agree to this.
-/

namespace Mflt.Spec.GdbUpload

abbrev Text := List Char
abbrev Byte := BitVec 8

/-- What can be seen. -/
inductive Event where
  /-- The user was asked, and what they typed. -/
  | answer (text : Text)
  /-- The program was sent. -/
  | program (data : List Byte)
  /-- The program that was sent is the one of a version. -/
  | symbols (version : Text)
  /-- A coredump was sent, from a device with a version. -/
  | coredump (key version : Text) (data : List Byte)
  deriving Repr, DecidableEq

/-- Does the event carry data of the user to the server? -/
def Event.Sends : Event → Prop
  | .answer _ => False
  | _ => True

/-- One use of the command. `none` for an answer of the server: it could not be reached. -/
structure Run where
  /-- What the user types if they are asked. -/
  answer : Text
  /-- The settings can be written. -/
  canSave : Bool
  /-- The arguments are right. -/
  argsOk : Bool
  /-- A project key was given. -/
  key : Option Text
  /-- The user is logged in, with a project. -/
  loggedIn : Bool
  /-- `--no-symbols`. -/
  noSymbols : Bool
  /-- The memory of the device, if there is a device. -/
  memory : Option (List Byte)
  /-- The program, its version, and its hash in hexadecimal. -/
  program : List Byte
  version : Text
  hash : Text
  /-- The server says that it has the program. -/
  hasSymbols : Option Bool
  /-- The status of the three requests with which the program is sent. -/
  prepare : Option Nat
  put : Option Nat
  register : Option Nat
  /-- The project key, from the server; the inner `none`: an error. -/
  serverKey : Option (Option Text)

/-- The status of a request that was done. -/
def good (s : Nat) : Prop := 200 ≤ s ∧ s < 300

end Mflt.Spec.GdbUpload
