/-!
# The settings of an application

Seven settings that are kept over restarts: texts and 32-bit numbers. A setting that was never set has a default value.
-/

namespace Mflt.Spec.Settings

abbrev Bytes := List (BitVec 8)

/-- The value of a setting: a text (without a terminator) or a number. -/
inductive Value
  | text (s : Bytes)
  | number (v : BitVec 32)
  deriving Repr, DecidableEq

/-- The defaults that depend on the build. -/
structure Build where
  projectKey : Bytes
  chunksHost : Bytes
  deviceHost : Bytes
  deriving Repr, DecidableEq

/-- The default values: SSID, password, project key, LED brightness, LED interval, chunks host, device host. -/
def initial (d : Build) : Nat → Option Value
  | 0 => some (.text [])
  | 1 => some (.text [])
  | 2 => some (.text d.projectKey)
  | 3 => some (.number 5)
  | 4 => some (.number 500)
  | 5 => some (.text d.chunksHost)
  | 6 => some (.text d.deviceHost)
  | _ => none

/-- What happens to the settings: one is set with a result (0: success), the storage is found unusable and erased, or the
device restarts. -/
inductive Ev
  | set (key : Nat) (v : Value) (result : Int)
  | erased
  | restarted
  deriving Repr, DecidableEq

/-- The values setting `key` can have after a history (the latest event first): the last value that was set with success,
any that was tried since then, the default if there is none. -/
def possible (d : Build) (key : Nat) : List Ev → List Value
  | [] => (initial d key).toList
  | .erased :: _ => (initial d key).toList
  | .restarted :: l => possible d key l
  | .set k v r :: l => if k = key then (if r = 0 then [v] else v :: possible d key l) else possible d key l

/-- The text in a buffer: what is before the first 0, which has to be there. -/
def text : Bytes → Option Bytes
  | [] => none
  | b :: l => if b = 0 then some [] else (text l).map (b :: ·)

/-- The number in the first four bytes, little-endian. -/
def number : Bytes → Option (BitVec 32)
  | b0 :: b1 :: b2 :: b3 :: _ =>
    some (BitVec.ofNat 32 (b0.toNat + 256 * b1.toNat + 65536 * b2.toNat + 16777216 * b3.toNat))
  | _ => none

/-- A buffer holds a value. -/
def Holds (buf : Bytes) : Value → Prop
  | .text s => text buf = some s
  | .number v => number buf = some v

/-- A text that can be given to C: no byte is 0. -/
def Plain : Value → Prop
  | .text s => 0 ∉ s
  | .number _ => True

def isText : Value → Bool
  | .text _ => true
  | .number _ => false

/-- A value that may be given for a setting: of the kind of its default, and texts without a 0. -/
def Valid (d : Build) (key : Nat) (v : Value) : Prop :=
  Plain v ∧ ∀ w, initial d key = some w → isText v = isText w

end Mflt.Spec.Settings
