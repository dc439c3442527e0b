/-!
# Eclipse projects

An Eclipse project is an XML file. Its element `linkedResources` has links: names in the project for files elsewhere. A
location is given from the directory of the project: `PARENT-2-PROJECT_LOC/a/b` is `a/b` two directories up. The build
settings (`.cproject`) are tools with options.
-/

namespace Mflt.Spec.EclipsePatch

abbrev Text := List Char

/-- A path from the root directory: its parts. -/
abbrev Path := List Text

/-- An XML element: tag, attributes, text and the elements in it. White space between elements is left out. -/
inductive Xml
  | node (tag : Text) (attrs : List (Text × Text)) (text : Option Text) (children : List Xml)

def Xml.tag : Xml → Text
  | .node t _ _ _ => t

def Xml.children : Xml → List Xml
  | .node _ _ _ c => c

def Xml.text : Xml → Option Text
  | .node _ _ t _ => t

/-- A text has a word in it. -/
def Has (w s : Text) : Prop := ∃ a b, s = a ++ w ++ b

/-- The tag of the element with the links. -/
def resources : Text := "linkedResources".toList

mutual
/-- An element without the elements `linkedResources`. -/
def without : Xml → Xml
  | .node t a x c => .node t a x (withoutAll c)
def withoutAll : List Xml → List Xml
  | [] => []
  | e :: l => if e.tag = resources then withoutAll l else without e :: withoutAll l
end

mutual
/-- What is in the elements `linkedResources` below an element, in order. -/
def links : Xml → List Xml
  | .node _ _ _ c => linksAll c
def linksAll : List Xml → List Xml
  | [] => []
  | e :: l => (if e.tag = resources then e.children else links e) ++ linksAll l
end

mutual
/-- How many elements `linkedResources` are below an element. -/
def count : Xml → Nat
  | .node _ _ _ c => countAll c
def countAll : List Xml → Nat
  | [] => 0
  | e :: l => (if e.tag = resources then 1 else 0) + count e + countAll l
end

/-- A link: a name, a kind (1: file, 2: directory) and a location. -/
def link (name kind location : Text) : Xml :=
  .node "link".toList [] none [.node "name".toList [] (some name) [], .node "type".toList [] (some kind) [],
    .node "locationURI".toList [] (some location) []]

/-- A path as text. -/
def render : Path → Text
  | [] => []
  | p :: l => '/' :: p ++ render l

/-- A location seen from a project is a path: `k` directories up and down again. -/
def Points (project : Path) (location : Text) (path : Path) : Prop :=
  ∃ k rest, location = "PARENT-".toList ++ (toString k).toList ++ "-PROJECT_LOC".toList ++ render rest ∧
    k ≤ project.length ∧ path = project.take (project.length - k) ++ rest

/-- An option of a tool: identifier, name, value and list of values. -/
structure Opt where
  id : Text
  name : Text
  value : Text
  values : List Text
  deriving Repr, DecidableEq

structure Tool where
  id : Text
  opts : List Opt
  deriving Repr, DecidableEq

/-- The identifiers of the options with include paths, in three development environments. -/
def IncludeOption (o : Opt) : Prop :=
  "ilg.gnuarmeclipse.managedbuild.cross.option.c.compiler.include.paths".toList <+: o.id ∨
    "gnu.c.compiler.option.include.paths".toList <+: o.id ∨
    "com.st.stm32cube.ide.mcu.gnu.managedbuild.tool.c.compiler.option.includepaths".toList <+: o.id

/-- The flags of the linker in Dialog's environment. -/
def FlagsOption (o : Opt) : Prop :=
  "ilg.gnuarmeclipse.managedbuild.cross.option.c.linker.other".toList <+: o.id ∧ "Other linker flags".toList <+: o.name

/-- The flags of the linker in ST's environment. -/
def StFlags (o : Opt) : Prop :=
  "com.st.stm32cube.ide.mcu.gnu.managedbuild.tool.c.linker.option.otherflags".toList <+: o.id

/-- ST's linker. -/
def StLinker (t : Tool) : Prop := "com.st.stm32cube.ide.mcu.gnu.managedbuild.tool.c.linker".toList <+: t.id

/-- The two include paths of the SDK. -/
def sdkIncludes : List Text :=
  ["\"${workspace_loc:/${ProjName}/memfault_includes/components/include}\"".toList,
    "\"${workspace_loc:/${ProjName}/memfault_includes/ports/include}\"".toList]

/-- What may become of an option: include paths end with those of the SDK, once, after the others; the flags of the linker
have the one for a build id; the rest stays. -/
structure Changed (o o' : Opt) : Prop where
  id : o'.id = o.id
  name : o'.name = o.name
  includes : IncludeOption o → ∃ own : Text → Bool, (∀ v, own v = true ↔ ¬ Has "memfault_includes".toList v) ∧
    o'.values = o.values.filter own ++ sdkIncludes
  others : ¬ IncludeOption o → o'.values = o.values
  flags : FlagsOption o → (Has "-Wl,--build-id".toList o.value → o'.value = o.value) ∧
    (¬ Has "-Wl,--build-id".toList o.value → o'.value = o.value ++ " -Wl,--build-id".toList)
  value : ¬ FlagsOption o → o'.value = o.value

/-- Two lists match, element by element. -/
def Match (r : α → β → Prop) (l : List α) (l' : List β) : Prop :=
  l'.length = l.length ∧ ∀ (i : Nat) x, l[i]? = some x → ∃ y, l'[i]? = some y ∧ r x y

/-- What may become of a tool: ST's linker without any flags gets the one for a build id. -/
def Patched (t t' : Tool) : Prop :=
  t'.id = t.id ∧ ∃ new opts, t'.opts = new ++ opts ∧ Match Changed t.opts opts ∧
    (StLinker t → (∀ o ∈ t.opts, ¬ StFlags o) → ∃ o, new = [o] ∧ StFlags o ∧ o.values = ["-Wl,--build-id".toList]) ∧
    (¬ StLinker t ∨ (∃ o ∈ t.opts, StFlags o) → new = [])

end Mflt.Spec.EclipsePatch
