import Verif.Spec.ArduinoLibrary

/-!
# Model of the script that makes an Arduino library of the SDK

`scripts/create_arduino_library.py`. `none`: an exception. Simplifications: a directory is there if a file is in it; the
directory of the library is not there yet; white space is that of ASCII; the port has no `src/memfault-firmware-sdk` of
its own; download and extraction are left out.
-/

namespace Mflt.ArduinoLibrary

open Spec.ArduinoLibrary

/-- `\s`. -/
def isSpace (c : Char) : Bool := c == ' ' || c == '\t' || c == '\n' || c == '\r' || c.toNat == 11 || c.toNat == 12

/-- Does the expression match here, create_arduino_library.py:127? -/
def matchHere (s : Text) : Bool :=
  "#include".toList.isPrefixOf s &&
    match s.drop 8 with
    | [] => false
    | w :: r => isSpace w && "\"memfault/".toList.isPrefixOf r

/-- `header_regex.sub`, create_arduino_library.py:131-133. `skip`: characters of a match that are still to be left out. -/
def sub : Nat → Text → Text
  | _, [] => []
  | 0, c :: s =>
    if matchHere (c :: s) then "#include \"memfault-firmware-sdk/components/include/memfault/".toList ++ sub 18 s
    else c :: sub 0 s
  | skip + 1, _ :: s => sub skip s

/-- A glob `**` and `*` take no hidden parts. -/
def hidden (p : Path) : Bool := p.any fun x => x.head? == some '.'

/-- `files_to_patch`, create_arduino_library.py:116-121. The last pattern is not recursive: `**` is one part. -/
def toPatch (p : Path) : Bool :=
  !hidden p && (".c".toList.isSuffixOf (p.getLastD []) || ".h".toList.isSuffixOf (p.getLastD []) ||
    (p.length == 5 && p.drop 1 == ["include".toList, "memfault".toList, "metrics".toList, "heartbeat_config.def".toList]))

/-- Is a file in a directory? -/
def inDir (d : Path) (f : File) : Bool := d.isPrefixOf f.1 && d.length < f.1.length

/-- The files of the port, create_arduino_library.py:85-91. A port that is not there is only logged. -/
def portFiles (sdk : List File) : Option Path → List File
  | none => []
  | some q => (sdk.filter (inDir ("ports".toList :: q))).map fun f => (f.1.drop (q.length + 1), f.2)

/-- Is a file in a directory of `ports` that is removed, create_arduino_library.py:97-106? -/
def otherPort (f : File) : Bool :=
  match f.1 with
  | a :: b :: _ :: _ => a == "ports".toList && !(b == "panics".toList)
  | _ => false

/-- The directories that are removed, create_arduino_library.py:110. -/
def removeList : List Text := [".circleci".toList, "examples".toList, "tests".toList]

/-- The files that are moved up, create_arduino_library.py:139-143: old and new name. -/
def moveList : List (Text × Text) :=
  [("LICENSE".toList, "LICENSE.txt".toList), ("VERSION".toList, "VERSION".toList),
    ("CHANGELOG.md".toList, "CHANGELOG.md".toList)]

/-- `arduinoify_memfault_sdk`, create_arduino_library.py:69-147: the files of the library. A directory to remove or a file
to move that is not there is an exception. -/
def arduinoify (sdk : List File) (port : Option Path) : Option (List File) :=
  let copied := portFiles sdk port
  let sdk := sdk.filter fun f => !otherPort f
  if removeList.any fun d => !(sdk.any (inDir [d])) then none
  else
    let sdk := sdk.filter fun f => !(removeList.any fun d => inDir [d] f)
    let sdk := sdk.map fun f => if toPatch f.1 then (f.1, sub 0 f.2) else f
    if moveList.any fun m => !(sdk.any fun f => f.1 == [m.1]) then none
    else
      some ((copied.filter fun f => !(moveList.any fun m => f.1 == [m.2])) ++
        (sdk.map fun f =>
          match moveList.find? fun m => f.1 == [m.1] with
          | some m => ([m.2], f.2)
          | none => ("src".toList :: "memfault-firmware-sdk".toList :: f.1, f.2)))

end Mflt.ArduinoLibrary
