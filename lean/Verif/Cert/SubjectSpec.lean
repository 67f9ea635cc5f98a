import Verif.CB.OidSpec
import Verif.Cert.Utf8Spec
/-!
# Distinguished names (X.501, RFC 5280 4.1.2.4) of strings
-/
namespace Verif.Spec.Subject
open Verif Verif.Spec.DER Verif.Spec.Utf8

/-- The characters of PrintableString (X.680 41.4): letters, digits, space and `' ( ) + , - . / : = ?`. -/
def PrintableChar (b : Byte) : Prop :=
  (0x41 ≤ b.toNat ∧ b.toNat ≤ 0x5a) ∨ (0x61 ≤ b.toNat ∧ b.toNat ≤ 0x7a) ∨ (0x30 ≤ b.toNat ∧ b.toNat ≤ 0x39) ∨
  b ∈ ([0x20, 0x27, 0x28, 0x29, 0x2b, 0x2c, 0x2d, 0x2e, 0x2f, 0x3a, 0x3d, 0x3f] : List Byte)

instance (b : Byte) : Decidable (PrintableChar b) := inferInstanceAs (Decidable (_ ∨ _))

/-- `DirectoryString`: PrintableString where possible, UTF8String otherwise. -/
def directoryString (s : Bytes) : Bytes := if ∀ b ∈ s, PrintableChar b then elem 0x13 s else elem 0x0c s

/-- `AttributeTypeAndValue` with the type 2.5.4.`k` of X.520. -/
def attr (k : Byte) (s : Bytes) : Bytes := elem 0x30 (elem 0x06 [0x55, 0x04, k] ++ directoryString s)

/-- `RDNSequence`: in each set the attributes of one type. -/
def name (rdns : List (Byte × List Bytes)) : Bytes :=
  elem 0x30 (rdns.flatMap fun r => elem 0x31 (r.2.flatMap (attr r.1)))

/-- X.690 11.6: the elements of a SET OF in ascending order, as octet strings. -/
def AscendingSet (es : List Bytes) : Prop := es.Pairwise fun a b => a.map BitVec.toNat ≤ b.map BitVec.toNat

end Verif.Spec.Subject
