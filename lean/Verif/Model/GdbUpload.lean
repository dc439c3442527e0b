import Verif.Spec.GdbUpload

/-!
# Model of `memfault coredump` of the GDB script

`scripts/memfault_gdb.py`: permission and uploads. What is captured is in `Model/GdbCoredump`. Simplifications: only the
letters of ASCII become an upper case `Y`; an empty project key is no key; if the server cannot be reached for the last
request this is not told from an error; printing and analytics are left out.
-/

namespace Mflt.GdbUpload

open Spec.GdbUpload

/-- `"Y" not in y.upper()`, memfault_gdb.py:1405. -/
def agrees (y : Text) : Bool := y.any fun c => c == 'y' || c == 'Y'

/-- `_check_permission`, memfault_gdb.py:1384-1414, with `settings_load` and `settings_save`, 1126-1141: the events, what is
stored, and whether the command goes on. -/
def permission (allowed : Bool) (r : Run) : List Event × Bool × Bool :=
  if allowed then ([], true, true)
  else if !agrees r.answer then ([.answer r.answer], false, false)
  else if r.canSave then ([.answer r.answer], true, true)
  else ([.answer r.answer], false, false)

/-- `_check_http_response`, memfault_gdb.py:861-863. -/
def isGood (s : Nat) : Bool := !(s < 200 || 300 ≤ s)

/-- `http_upload_symbol_file` with `http_upload_file`, memfault_gdb.py:909-960, and the handler of `HttpApiError`, 1015-1023.
Any other exception ends the command (`false`). -/
def uploadSymbols (r : Run) (version : Text) : List Event × Bool :=
  match r.prepare with
  | none => ([], false)
  | some a =>
    if !isGood a then ([], true)
    else
      match r.put with
      | none => ([], false)
      | some b =>
        if !isGood b then ([.program r.program], true)
        else
          match r.register with
          | none => ([.program r.program], false)
          | some c => (if isGood c then [.program r.program, .symbols version] else [.program r.program], true)

/-- `upload_symbols_if_needed`, memfault_gdb.py:996-1023. -/
def uploadIfNeeded (r : Run) (version : Text) : List Event × Bool :=
  match r.hasSymbols with
  | none => ([], false)
  | some true => ([], true)
  | some false => uploadSymbols r version

/-- The project key, memfault_gdb.py:1460-1470. -/
def projectKey (r : Run) : Option Text :=
  match r.key with
  | some k => some k
  | none =>
    match r.serverKey with
    | none => none
    | some k => k

/-- The rest of `_invoke` after the permission, memfault_gdb.py:1420-1476. -/
def uploads (r : Run) : List Event :=
  if !r.argsOk then []
  else if !r.loggedIn && r.key.isNone then []
  else
    match r.memory with
    | none => []
    | some data =>
      let version := r.version ++ "-md5+".toList ++ r.hash.take 8
      let s := if !r.noSymbols && r.loggedIn then uploadIfNeeded r version else ([], true)
      if s.2 then
        match projectKey r with
        | none => s.1
        | some k => s.1 ++ [.coredump k version data]
      else s.1

/-- `_invoke`, memfault_gdb.py:1416-1488: the events, and what is stored. -/
def command (allowed : Bool) (r : Run) : List Event × Bool :=
  let p := permission allowed r
  (p.1 ++ if p.2.2 then uploads r else [], p.2.1)

/-- The command, again and again. -/
def history : Bool → List Run → List Event
  | _, [] => []
  | allowed, r :: l => (command allowed r).1 ++ history (command allowed r).2 l

end Mflt.GdbUpload
