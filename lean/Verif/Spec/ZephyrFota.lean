import Verif.Model.ZephyrFota

/-!
What someone who starts an update relies on. Only the environment (`Env`, `Net`, `Op`, ...) and the outcomes are shared
with the model.
-/
namespace Mflt.Spec.ZephyrFota

/-- The part of an image that is in the flash when blocks of `block` bytes are written as they get full. -/
def fullBlocks (block : Nat) (image : Bytes) : Bytes := image.take (image.length - image.length % block)

/-- The largest image for which 100 times its size is an `int`. -/
def maxImage : Nat := 21474836

/-- The root certificates of the service: DigiCert Global Root G2, Amazon Root CA 1, DigiCert Global Root CA. -/
def rootCerts : List Nat := [1001, 1002, 1003]

/-- Trying the certificates one after the other with these results, until one of them works (0) or a download is
running already: the results that are used. -/
def tried : List Int → List Int
  | [] => []
  | r :: rs => if r = 0 ∨ r = -114 then [r] else r :: tried rs

end Mflt.Spec.ZephyrFota
