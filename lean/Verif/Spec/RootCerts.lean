import Verif.Model.RootCerts

/-! # Specification: root certificates -/

namespace Mflt.Spec.RootCerts

/-- The tags of the certificates Memfault's servers need, and the tag that is not used any more. -/
def tags : List Nat := [1001, 1002, 1003]
def deprecated : Nat := 1004

/-- The texts of the three certificates, in the order of their tags. -/
structure Texts where
  digicertG2 : Bytes
  amazonCa1 : Bytes
  digicertCa : Bytes
  deriving Repr, DecidableEq

/-- Text, not bytes: no 0 in it. -/
def Texts.plain (t : Texts) : Prop := 0 ∉ t.digicertG2 ∧ 0 ∉ t.amazonCa1 ∧ 0 ∉ t.digicertCa

/-- The texts in memory, as string literals. -/
def Texts.literals (t : Texts) : Mflt.RootCerts.Certs :=
  ⟨t.digicertG2 ++ [0], t.amazonCa1 ++ [0], t.digicertCa ++ [0]⟩

/-- All three are stored. -/
def Installed (t : Texts) (store : Nat → Option Bytes) : Prop :=
  store 1001 = some t.digicertG2 ∧ store 1002 = some t.amazonCa1 ∧ store 1003 = some t.digicertCa

/-- The server has to show a certificate for this host that one of the three roots has signed. -/
def Verified (host : Bytes) (s : Mflt.RootCerts.Socket) : Prop :=
  s.tags = some tags ∧ s.verify = some 2 ∧ s.hostname = some host

end Mflt.Spec.RootCerts
