import Verif.Spec.BuildId

/-!
# Model of `scripts/mflt-build-id/src/mflt_build_id/__init__.py`

The script that puts a build id into an ELF file. pyelftools, which parses the file, is described by the
structures below; SHA1 and CRC32 are parameters. `none`: an exception. What is printed is left out but for
the id itself. 32-bit machines: numbers packed with "I" below 2^32.
-/

namespace Mflt.BuildIdScript

/-- A section header: SHF_ALLOC, SHF_EXECINSTR and SHF_WRITE of `sh_flags`, whether `sh_type` is SHT_NOBITS,
`sh_addr`, `sh_offset`, `sh_size`. -/
structure Section where
  alloc : Bool
  exec : Bool
  write : Bool
  nobits : Bool
  addr : Nat
  offset : Nat
  size : Nat
  deriving Repr, DecidableEq

/-- An entry of the symbol table: the name (`none` if it is not terminated, __init__.py:106-111), `st_value` and
`st_size`. -/
structure Symbol where
  name : Option String
  value : Nat
  size : Nat
  deriving Repr, DecidableEq

/-- The file and what pyelftools finds in it: sections, symbols, the GNU build id as text. Simplification: the
headers, the symbols and the note are not changed by a change of the contents of other sections. -/
structure Elf where
  file : Bytes
  sections : List Section
  symbols : List Symbol
  gnu : Option Bytes
  littleEndian : Bool
  deriving Repr, DecidableEq

/-- `section.data()` of pyelftools. -/
def sectionData (e : Elf) (s : Section) : Bytes :=
  if s.nobits then List.replicate s.size 0 else (e.file.drop s.offset).take s.size

/-- `SectionType`, __init__.py:62-66. -/
inductive SectionType where
  | text
  | data
  | bss
  | unallocated
  deriving Repr, DecidableEq

/-- `get_section_type`, __init__.py:191-202, with `section_in_binary`, :77-81. -/
def sectionType (s : Section) : SectionType :=
  if !s.alloc then .unallocated
  else if s.exec || !s.write then .text
  else if !s.nobits then .data
  else .bss

/-- `find_section_for_address_range`, __init__.py:161-180. -/
def findSection (e : Elf) (lo hi : Nat) : Option Section :=
  e.sections.find? fun s =>
    s.alloc && decide (s.addr ≤ lo ∧ lo < s.addr + s.size) && decide (s.addr ≤ hi ∧ hi ≤ s.addr + s.size)

/-- `find_symbol_and_section`, __init__.py:143-159, with an exception if it finds no symbol, as all callers
have it (:278-279, :319-320, :343-344, :432-433). -/
def findSymbol (e : Elf) (name : Option String) : Option (Symbol × Section) :=
  match e.symbols.find? (fun y => decide (y.name = name)) with
  | none => none
  | some y => (findSection e y.value (y.value + y.size)).map fun s => (y, s)

/-- `get_symbol_data`, __init__.py:186-189, with `get_symbol_offset_in_sector`, :182-184. -/
def symbolData (e : Elf) (y : Symbol) (s : Section) : Bytes :=
  ((sectionData e s).drop (y.value - s.addr)).take y.size

/-- `struct.pack("<I", n)`. -/
def packLe (n : Nat) : Option Bytes :=
  if n < 2 ^ 32 then
    some [UInt8.ofNat (n % 256), UInt8.ofNat (n / 256 % 256), UInt8.ofNat (n / 65536 % 256),
      UInt8.ofNat (n / 16777216 % 256)]
  else none

/-- What `_generate_build_id`, __init__.py:232-261, and `_generate_crc32_build_id`, :394-428, add for one
section in the binary. `symbol`: the section with the symbol and the place of the symbol in it, with the
bytes that are taken instead of its contents (`instead`) and its length (`len`). -/
def sectionInput (e : Elf) (symbol : Option (Section × Nat)) (instead : Bytes) (len : Nat) (s : Section) :
    Option Bytes :=
  match packLe s.addr with
  | none => none
  | some start =>
    if sectionType s = .bss then (packLe s.size).map fun l => start ++ l
    else
      let data := sectionData e s
      match symbol with
      | some (y, offset) =>
        if y.addr = s.addr then some (start ++ (data.take offset ++ instead ++ data.drop (offset + len)))
        else some (start ++ data)
      | none => some (start ++ data)

/-- The loops of `_generate_build_id`, __init__.py:236-259, and `_generate_crc32_build_id`, :402-426. -/
def inputLoop (e : Elf) (symbol : Option (Section × Nat)) (instead : Bytes) (len : Nat) :
    List Section → Option Bytes
  | [] => some []
  | s :: rest =>
    if !s.alloc then inputLoop e symbol instead len rest
    else
      match sectionInput e symbol instead len s with
      | none => none
      | some b => (inputLoop e symbol instead len rest).map fun r => b ++ r

/-- What `_generate_build_id` hashes, __init__.py:232-261. -/
def sha1Input (e : Elf) (symbol : Option (Section × Nat)) : Option Bytes :=
  inputLoop e symbol (1 :: List.replicate 19 0) 20 e.sections

/-- What `_generate_crc32_build_id` hashes, __init__.py:394-428. A CRC32 that is continued is the one of all
the bytes. -/
def crcInput (e : Elf) (y : Section) (offset : Nat) : Option Bytes :=
  inputLoop e (some (y, offset)) [] 4 e.sections

/-- `fh.seek(offset)`, `fh.write(d)` on the file. -/
def patch (e : Elf) (offset : Nat) (d : Bytes) : Elf :=
  let f := e.file ++ List.replicate (offset - e.file.length) 0
  { e with file := f.take offset ++ d ++ f.drop (offset + d.length) }

/-- `MemfaultBuildIdTypes`, __init__.py:205-209. -/
inductive Kind where
  | none
  | gnu
  | memfault
  deriving Repr, DecidableEq

/-- What `_write_and_return_build_info` returns: the type, the id as text, the short length. -/
structure Info where
  kind : Kind
  id : Option Bytes
  shortLen : Option Nat
  deriving Repr, DecidableEq

/-- `_write_and_return_build_info`, __init__.py:314-378. -/
def writeInfo (sha1 : Bytes → Bytes) (dumpOnly : Bool) (e : Elf) : Option (Elf × Info) :=
  match findSymbol e (some "g_memfault_build_id") with
  | none => none
  | some (y, s) =>
    match (symbolData e y s)[2]?, (symbolData e y s)[0]? with
    | some l, some t =>
      let shortLen := if l = 0 then none else some l.toNat
      if t = 2 then e.gnu.map fun g => (e, ⟨.gnu, some g, shortLen⟩)
      else
        match findSymbol e (some "g_memfault_sdk_derived_build_id") with
        | none => none
        | some (y', s') =>
          if t = 3 then some (e, ⟨.memfault, some (Spec.BuildId.hex (symbolData e y' s')), shortLen⟩)
          else if t ≠ 1 then none
          else if dumpOnly then some (e, ⟨.none, none, none⟩)
          else
            match sha1Input e none with
            | none => none
            | some input =>
              let e1 := patch e (s.offset + (y.value - s.addr)) [3]
              let e2 := patch e1 (s'.offset + (y'.value - s'.addr)) (sha1 input)
              some (e2, ⟨.memfault, some (Spec.BuildId.hex (sha1 input)), shortLen⟩)
    | _, _ => none

/-- `dump_build_info`, __init__.py:387-392: the text. -/
def dumpInfo (sha1 : Bytes → Bytes) (n : Nat) (e : Elf) : Option Bytes :=
  match writeInfo sha1 true e with
  | some (_, ⟨_, some id, _⟩) => some (id.take n)
  | _ => none

/-- `get_build_info`, __init__.py:471-475, of a file for which nothing but a `BuildIdError` is raised; the
result without type and id stands for it. -/
def buildInfo (sha1 : Bytes → Bytes) (e : Elf) : Option Info := (writeInfo sha1 true e).map (·.2)

/-- `check_or_update_sha1_build_id`, __init__.py:276-312: the file and the hash. -/
def updateSha1 (sha1 : Bytes → Bytes) (name : Option String) (dumpOnly : Bool) (e : Elf) : Option (Elf × Bytes) :=
  match findSymbol e name with
  | none => none
  | some (y, s) =>
    if y.size ≠ 20 then none
    else
      match sha1Input e (some (s, y.value - s.addr)) with
      | none => none
      | some input =>
        if symbolData e y s = sha1 input then some (e, sha1 input)
        else if dumpOnly then some (e, sha1 input)
        else some (patch e (s.offset + (y.value - s.addr)) (sha1 input), sha1 input)

/-- `struct.pack` and `struct.unpack` with the byte order of the file, __init__.py:445-449, 461. -/
def packCrc (e : Elf) (c : BitVec 32) : Bytes :=
  let b := [UInt8.ofNat (c.toNat % 256), UInt8.ofNat (c.toNat / 256 % 256), UInt8.ofNat (c.toNat / 65536 % 256),
    UInt8.ofNat (c.toNat / 16777216 % 256)]
  if e.littleEndian then b else b.reverse

/-- `check_or_update_crc_build_id`, __init__.py:430-469. -/
def updateCrc (crc32 : Bytes → BitVec 32) (name : Option String) (dumpOnly : Bool) (e : Elf) : Option Elf :=
  match findSymbol e name with
  | none => none
  | some (y, s) =>
    if sectionType s ≠ .text ∧ sectionType s ≠ .data then none
    else
      match crcInput e s (y.value - s.addr) with
      | none => none
      | some input =>
        let current := ((sectionData e s).drop (y.value - s.addr)).take 4
        if current.length ≠ 4 then none
        else if current = packCrc e (crc32 input) then some e
        else if dumpOnly then some e
        else some (patch e (s.offset + (y.value - s.addr)) (packCrc e (crc32 input)))

/-- The options of the command line, `main`, __init__.py:478-494. -/
structure Args where
  dump : Option Nat := none
  crc : Option String := none
  sha1 : Option String := none
  deriving Repr, DecidableEq

/-- `main`, __init__.py:496-510: the file afterwards. An empty name counts as none, and 0 as false. -/
def main (sha1 : Bytes → Bytes) (crc32 : Bytes → BitVec 32) (a : Args) (e : Elf) : Option Elf :=
  let given (o : Option String) : Bool := o.isSome && o != some ""
  let dumpOnly : Bool := a.dump.isSome && a.dump != some 0
  if given a.sha1 && given a.crc then none
  else if given a.sha1 then (updateSha1 sha1 a.sha1 dumpOnly e).map (·.1)
  else if given a.crc then updateCrc crc32 a.sha1 dumpOnly e
  else
    match a.dump with
    | none => if a.crc.isNone then (writeInfo sha1 false e).map (·.1) else some e
    | some n => (dumpInfo sha1 n e).map fun _ => e

end Mflt.BuildIdScript
