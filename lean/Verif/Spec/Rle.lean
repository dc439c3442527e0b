import Verif.Spec.Varint

/-!
# Specification: the run-length format of util/rle.h

A stream is a sequence of groups. Each starts with a signed (zig-zag varint) count: if it is
positive, the next byte is repeated that many times; otherwise that many bytes follow literally.
-/

namespace Mflt.Spec.Rle

open Varint

/-- Expand a stream; the first argument bounds the number of groups, `none` is a malformed stream. -/
def expandN : Nat → Bytes → Option Bytes
  | _, [] => some []
  | 0, _ => none
  | fuel + 1, bs => do
    let (n, r) ← decode bs
    let count := unzigzag n
    if 0 < count then
      match r with
      | [] => none
      | b :: r => do
        let tail ← expandN fuel r
        return List.replicate count.toNat b ++ tail
    else if (-count).toNat ≤ r.length then do
      let tail ← expandN fuel (r.drop (-count).toNat)
      return r.take (-count).toNat ++ tail
    else none

/-- Expand a whole stream (every group has at least one byte). -/
def expand (bs : Bytes) : Option Bytes := expandN bs.length bs

end Mflt.Spec.Rle
