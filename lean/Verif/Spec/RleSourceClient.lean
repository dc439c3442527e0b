import Verif.Model.DataSourceRle

/-! # The user of the RLE data source: read it from the beginning, one piece after the other -/

namespace Mflt.DataSourceRle

/-- Read pieces of the given sizes one after the other, starting at `off`. Returns the pieces;
`none` if any read fails. -/
def readSeq (msg : Bytes) : State → Nat → List Nat → Option (List Bytes × State)
  | s, _, [] => some ([], s)
  | s, off, n :: ns => do
    let (ok, out, s) ← readMsg msg s off n
    if ok then
      let (outs, s) ← readSeq msg s (off + n) ns
      return (out :: outs, s)
    else none

end Mflt.DataSourceRle
