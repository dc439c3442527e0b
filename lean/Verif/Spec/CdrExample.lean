/-!
# The recording of the example application

The recording is the text "hello cdr!". A message with it is its description followed by this text.
-/

namespace Mflt.Spec.CdrExample

abbrev Bytes := List (BitVec 8)

/-- "hello cdr!" -/
def hello : Bytes := [0x68, 0x65, 0x6c, 0x6c, 0x6f, 0x20, 0x63, 0x64, 0x72, 0x21]

/-- What happens: a recording is staged; the packetizer begins with the next message, takes the next `n` bytes of it (into
a buffer with these contents), or gives the message up. -/
inductive Op
  | stage
  | begin
  | take (buf : Bytes)
  | abort
  deriving Repr, DecidableEq

end Mflt.Spec.CdrExample
