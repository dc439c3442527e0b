import Verif.Spec.CmsisPack

/-!
# Model of the script that makes a CMSIS pack

`scripts/cmsis_pack_bundle.py`. `none`: an exception. Paths are lists of parts. Simplifications: the XML parser and writer
are left out, and a `&`, `<` or `"` in a path is an error; no backslash or colon is in a path; digits are those of ASCII;
the environment variables for the repository and the base release are not set; the archive and the index are left out. The
files below a directory are the environment.
-/

namespace Mflt.CmsisPack

open Spec.CmsisPack

/-- `\d`. -/
def isDigit (c : Char) : Bool := '0' ≤ c && c ≤ '9'

/-- A part of the expression that stands for itself. -/
def strip (w s : Text) : Option Text := if w.isPrefixOf s then some (s.drop w.length) else none

/-- `(\d+)`. -/
def number (s : Text) : Option (Text × Text) :=
  if s.takeWhile isDigit = [] then none else some (s.takeWhile isDigit, s.dropWhile isDigit)

/-- `.`. -/
def anyChar : Text → Option Text
  | [] => none
  | c :: s => if c = '\n' then none else some s

/-- The expression for the version, cmsis_pack_bundle.py:228, at one place, and the text of line 230. -/
def versionHere (s : Text) : Option Text :=
  (anyChar s).bind fun s => (strip "major = ".toList s).bind fun s => (number s).bind fun a =>
    (strip ", ".toList a.2).bind fun s => (anyChar s).bind fun s => (strip "minor = ".toList s).bind fun s =>
      (number s).bind fun b => (strip ", ".toList b.2).bind fun s => (anyChar s).bind fun s =>
        (strip "patch = ".toList s).bind fun s => (number s).map fun c => a.1 ++ '.' :: b.1 ++ '.' :: c.1

/-- `re.search`, cmsis_pack_bundle.py:228. -/
def findVersion : Text → Option Text
  | [] => none
  | c :: s => (versionHere (c :: s)).or (findVersion s)

/-- `sdk_version`, cmsis_pack_bundle.py:220-230. `env`: the variable `SDK_VERSION`, if it is set. -/
def sdkVersion (env : Option Text) (header : Text) : Option Text :=
  match env with
  | some (c :: v) => some (c :: v)
  | _ => findVersion header

/-- `"/".join`. -/
def join : Path → Text
  | [] => []
  | p :: l => match l with
    | [] => p
    | _ :: _ => p ++ '/' :: join l

/-- `get_file_element`, cmsis_pack_bundle.py:96-110: the name in the description. -/
def fileName (base file : Path) : Option Text :=
  let n := join (file.drop base.length)
  if n.any fun c => c = '&' ∨ c = '<' ∨ c = '"' then none else some n

/-- `fnmatch`, cmsis_pack_bundle.py:113-128: `*` also takes slashes. `deep`: the pattern is `**/*.c`. -/
def isMatch (deep : Bool) (root file : Path) : Bool :=
  root.isPrefixOf file && ".c".toList.isSuffixOf (file.getLastD []) &&
    (if deep then root.length + 2 ≤ file.length else root.length + 1 ≤ file.length)

/-- The loops over the files, cmsis_pack_bundle.py:131-139. -/
def names (base : Path) : List Path → Option (List Text)
  | [] => some []
  | f :: l => (fileName base f).bind fun n => (names base l).map fun r => n :: r

/-- The directories with the patterns, cmsis_pack_bundle.py:262-288, in order. -/
def dirs (sdk : Path) (comps : List Text) (port : Option Path) : List (Bool × Path) :=
  comps.map (fun c => (true, sdk ++ ["components".toList, c])) ++
    match port with
    | none => []
    | some q => (false, sdk ++ "ports".toList :: q) ::
      if q = ["dialog".toList, "da1469x".toList] then [(true, sdk ++ ["ports".toList, "freertos".toList])] else []

/-- The files of the description, cmsis_pack_bundle.py:262-288. -/
def files (below : Path → List Path) (sdk : Path) (comps : List Text) (port : Option Path) : Option (List Text) :=
  names sdk ((dirs sdk comps port).flatMap fun d => (below d.2).filter (isMatch d.1 d.2))

/-- `get_latest_pdsc`, cmsis_pack_bundle.py:142-160, on the code of the answer and the releases in it. -/
def getLatest (skip : Bool) (code : Nat) (text : List Release) : Option (Option (List Release)) :=
  if code = 404 || skip then some none
  else if 400 ≤ code then none
  else some (some text)

/-- The releases of the description, cmsis_pack_bundle.py:290-313. -/
def releases (r : Run) (code : Nat) (text : List Release) : Option (List Release) :=
  (getLatest r.skip code text).map fun old => ⟨r.version, r.date⟩ :: old.getD []

/-- One use of the script and the upload of what it wrote, cmsis_pack_bundle.py:290-344. `pub`: the description on the
server. After an exception or with `--pack-only` (line 340) it stays. -/
def publish (pub : Option (List Release)) (r : Run) : Option (List Release) :=
  let code := match r.status with
    | some c => c
    | none => if pub = none then 404 else 200
  match releases r code (pub.getD []) with
  | none => pub
  | some l => if r.packOnly then pub else some l

end Mflt.CmsisPack
