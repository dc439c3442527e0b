import Verif.Model.Mem

/-!
# Model of `components/demo/src/memfault_demo_shell.c`

Characters are bytes. Command handlers are not modelled: calling one is an observable event with
its arguments. The command table is the list of names the loop `MEMFAULT_SHELL_FOR_EACH_COMMAND`
walks over (core commands followed by extensions). `memfault_shell_help_handler` is not modelled.
-/

namespace Mflt.Shell

/-- What the shell does to the outside. -/
inductive Ev
  /-- `send_char` of the implementation. -/
  | send (c : UInt8)
  /-- `command->handler(argc, argv)`: index of the command and its arguments. -/
  | run (command : Nat) (args : List Bytes)
  deriving Repr, DecidableEq

/-- `MEMFAULT_DEMO_SHELL_RX_BUFFER_SIZE` (default_config.h:545) and the names of the commands. -/
structure Config where
  size : Nat
  commands : List Bytes

/-- `s_mflt_shell`, memfault_demo_shell.c:41-51. `booted` is `send_char != NULL`. -/
structure State where
  booted : Bool
  rxSize : Nat
  eolIgnore : UInt8
  buf : Bytes
  deriving Repr, DecidableEq

/-- Zero-initialised memory. -/
def State.init (c : Config) : State :=
  { booted := false, rxSize := 0, eolIgnore := 0, buf := List.replicate c.size 0 }

/-- `prv_echo`, memfault_demo_shell.c:64-75, once the shell is booted (`prv_send_char`,
memfault_demo_shell.c:57-62). -/
def echo (c : UInt8) : List Ev :=
  if c = 10 then [.send 13, .send 10]
  else if c = 8 then [.send 8, .send 32, .send 8]
  else [.send c]

/-- `prv_echo_str`, memfault_demo_shell.c:90-94. -/
def echoStr (s : Bytes) : List Ev := s.flatMap echo

/-- `MEMFAULT_SHELL_PROMPT`, memfault_demo_shell.c:20: "mflt> ". -/
def prompt : Bytes := [109, 102, 108, 116, 62, 32]

/-- "Unknown command: ", memfault_demo_shell.c:136. -/
def unknownText : Bytes :=
  [85, 110, 107, 110, 111, 119, 110, 32, 99, 111, 109, 109, 97, 110, 100, 58, 32]

/-- "Type 'help' to list all commands\n", memfault_demo_shell.c:139. -/
def hintText : Bytes :=
  [84, 121, 112, 101, 32, 39, 104, 101, 108, 112, 39, 32, 116, 111, 32, 108, 105, 115, 116, 32, 97,
   108, 108, 32, 99, 111, 109, 109, 97, 110, 100, 115, 10]

/-- The C string at an index of a buffer; `none` when it is not terminated inside the buffer. -/
def strAt (buf : Bytes) (i : Nat) : Option Bytes :=
  if (0 : UInt8) ∈ buf.drop i then some ((buf.drop i).takeWhile (· ≠ 0)) else none

/-- The strings at several indices. -/
def strsAt (buf : Bytes) : List Nat → Option (List Bytes)
  | [] => some []
  | i :: is =>
    match strAt buf i with
    | none => none
    | some s =>
      match strsAt buf is with
      | none => none
      | some ss => some (s :: ss)

/-- `prv_find_command`, memfault_demo_shell.c:100-107: the index of the first command of that
name. -/
def find (commands : List Bytes) (name : Bytes) : Option Nat :=
  match commands with
  | [] => none
  | c :: cs => if c = name then some 0 else (find cs name).map (· + 1)

/-- The argument loop of `prv_process`, memfault_demo_shell.c:117-129. `next` is `next_arg`, `argv`
the indices stored in `argv`. The first argument bounds the number of rounds. `none` is an access
outside the buffer, or a loop that is not over by then. -/
def argLoop (rx : Nat) : Nat → Nat → Bytes → Option Nat → List Nat → Option (Bytes × List Nat)
  | 0, _, _, _, _ => none
  | f + 1, i, buf, next, argv =>
    if i < rx ∧ argv.length < 16 then
      match buf[i]? with
      | none => none
      | some c =>
        if c = 32 ∨ c = 10 ∨ i = rx - 1 then
          match next with
          | some a => argLoop rx f (i + 1) (buf.set i 0) none (argv ++ [a])
          | none => argLoop rx f (i + 1) (buf.set i 0) none argv
        else
          match next with
          | some a => argLoop rx f (i + 1) buf (some a) argv
          | none => argLoop rx f (i + 1) buf (some i) argv
    else some (buf, argv)

/-- The part of `prv_process` that acts on the arguments, memfault_demo_shell.c:135-144. -/
def dispatch (c : Config) (args : List Bytes) : List Ev :=
  match args with
  | [] => []
  | name :: _ =>
    match find c.commands name with
    | none => echoStr unknownText ++ echoStr name ++ echo 10 ++ echoStr hintText
    | some k => [.run k args]

/-- `prv_process`, memfault_demo_shell.c:109-148. -/
def process (c : Config) (s : State) : Option (List Ev × State) :=
  match s.buf[s.rxSize - 1]? with
  | none => none
  | some last =>
    if last ≠ 10 ∧ ¬ c.size ≤ s.rxSize then some ([], s)
    else
      match argLoop s.rxSize (s.rxSize + 1) 0 s.buf none [] with
      | none => none
      | some (buf, argv) =>
        match strsAt buf argv with
        | none => none
        | some args =>
          some ((if s.rxSize = c.size then echo 10 else []) ++ dispatch c args ++ echoStr prompt,
            { s with buf := List.replicate c.size 0, rxSize := 0 })

/-- `memfault_demo_shell_boot`, memfault_demo_shell.c:150-155. -/
def boot (c : Config) (_ : State) : List Ev × State :=
  (echoStr (10 :: prompt),
   { booted := true, eolIgnore := 0, rxSize := 0, buf := List.replicate c.size 0 })

/-- `prv_should_ignore_eol_char`, memfault_demo_shell.c:167-184. -/
def shouldIgnore (s : State) (ch : UInt8) : Bool × State :=
  if s.eolIgnore ≠ 0 then (ch == s.eolIgnore, s)
  else if ch = 13 then (false, { s with eolIgnore := 10 })
  else if ch = 10 then (false, { s with eolIgnore := 13 })
  else (false, s)

/-- `memfault_demo_shell_receive_char`, memfault_demo_shell.c:186-211. -/
def receive (c : Config) (s : State) (ch : UInt8) : Option (List Ev × State) :=
  match shouldIgnore s ch with
  | (ignore, s) =>
    if ignore = true ∨ c.size ≤ s.rxSize ∨ s.booted = false then some ([], s)
    else if ch = 8 ∧ s.rxSize = 0 then some ([], s)
    else if ch = 8 then
      if s.rxSize - 1 < s.buf.length then
        some (echo 8, { s with rxSize := s.rxSize - 1, buf := s.buf.set (s.rxSize - 1) 0 })
      else none
    else
      let ch := if ch = 13 then 10 else ch
      if s.rxSize < s.buf.length then
        match process c { s with rxSize := s.rxSize + 1, buf := s.buf.set s.rxSize ch } with
        | none => none
        | some (out, s) => some (echo ch ++ out, s)
      else none

/-- Characters one after the other. -/
def receiveAll (c : Config) : State → Bytes → Option (List Ev × State)
  | s, [] => some ([], s)
  | s, ch :: chs =>
    match receive c s ch with
    | none => none
    | some (out, s) =>
      match receiveAll c s chs with
      | none => none
      | some (outs, s) => some (out ++ outs, s)

end Mflt.Shell
