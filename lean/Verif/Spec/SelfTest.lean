import Verif.Model.SelfTest

/-!
# Specification: the self test

Which device information is acceptable, and which tests are selected. From the model only records are
used.
-/

namespace Mflt.Spec.SelfTest

open Mflt.SelfTest (Results)

/-- The bytes of a text of ASCII characters. -/
def ascii (s : String) : Bytes := s.toList.map fun c => UInt8.ofNat c.toNat

/-- `[-a-zA-Z0-9_]` -/
def serialChars : Bytes :=
  ascii "abcdefghijklmnopqrstuvwxyzABCDEFGHIJKLMNOPQRSTUVWXYZ0123456789-_"

/-- `[-a-zA-Z0-9_\.\+:]` -/
def versionChars : Bytes := serialChars ++ ascii ".+:"

/-- The printable characters. -/
def printable : Bytes :=
  serialChars ++ ascii " !\"#$%&'()*+,./:;<=>?@[\\]^`{|}~"

/-- Memory that begins with the C string `s`. -/
def Holds (mem s : Bytes) : Prop := 0 ∉ s ∧ ∃ rest, mem = s ++ 0 :: rest

/-- A field that can be examined: a null pointer, a C string, or at least `max + 1` bytes. -/
def Readable (max : Nat) (f : Option Bytes) : Prop :=
  ∀ mem, f = some mem → (∃ s, Holds mem s) ∨ max < mem.length

/-- A valid field: a C string of 1 to `max` characters, each one of `chars`. -/
def Valid (max : Nat) (chars : Bytes) (f : Option Bytes) : Prop :=
  ∃ mem s, f = some mem ∧ Holds mem s ∧ 1 ≤ s.length ∧ s.length ≤ max ∧ ∀ c ∈ s, c ∈ chars

/-- The selected tests that have an outcome, by bit of the flags, with what they return: all of them
but the export line (3), which is to be looked at, and the reboot (4). -/
def selected (flags : Nat) (t : Results) : List Nat :=
  [(0, t.deviceInfo), (1, t.componentBoot), (2, t.coredumpRegions), (5, t.rebootVerify), (6, t.time),
    (7, t.coredumpStorage), (8, t.capacity)].filterMap fun x =>
    if flags.testBit x.1 then some x.2 else none

/-- What the command line's argument selects. -/
def flagOf (arg : Bytes) : Nat :=
  if arg = ascii "reboot" then 16
  else if arg = ascii "reboot_verify" then 32
  else if arg = ascii "coredump_storage" then 128
  else 0x14f

end Mflt.Spec.SelfTest
