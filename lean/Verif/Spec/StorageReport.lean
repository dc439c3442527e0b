import Verif.Spec.CoredumpStorage
import Verif.Spec.BuildId
import Verif.Spec.Http

/-! # Specification: what the test of a coredump storage reports -/

namespace Mflt.Spec.StorageReport

open BuildId (hex)
open Http (decimal IsDigit)

def text (s : String) : Bytes := s.toList.map fun c => UInt8.ofNat c.toNat

/-- Four bytes, the highest one first. -/
def word (n : Nat) : Bytes := [UInt8.ofNat (n / 16777216), UInt8.ofNat (n / 65536), UInt8.ofNat (n / 256), UInt8.ofNat n]

/-- Three lines that tell of a failure of kind `why` while storage function `op` was tested, at `offset`, with `size` bytes. -/
def Tells (why op : String) (offset size : Nat) (lines : List Bytes) : Prop :=
  ∃ n, decimal n = size ∧ (∀ c ∈ n, IsDigit c) ∧ n ≠ [] ∧
    lines = [text "Coredump Storage Verification Failed",
      text why ++ text " memfault_platform_coredump_storage_" ++ text op ++ text "() test",
      text "Storage offset: 0x" ++ hex (word offset) ++ text ", " ++ text op ++ text " size: " ++ n]

/-- A line with bytes in hexadecimal. -/
def bytesLine (what : String) (bs : Bytes) : Bytes := text what ++ text ": " ++ hex bs

def passed : List Bytes := [text "Coredump Storage Verification Passed"]

/-- A byte of an erased storage. -/
def Erased (b : UInt8) : Prop := b = 0x00 ∨ b = 0xff

end Mflt.Spec.StorageReport
