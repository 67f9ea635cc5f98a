import Verif.CB.Spec
/-!
# BIT STRING contents octets, X.690 8.6 and 11.2
-/
namespace Verif.Spec.DER

/-- `c` are the contents octets of the bit string made of the first `nbits` bits of `data`: an initial octet counting
the unused bits, 0 to 7 (8.6.2.2), zero for an empty bit string (8.6.2.3), and those unused bits are zero
(11.2.1). -/
def IsBitString (data : Bytes) (nbits : Nat) (c : Bytes) : Prop :=
  ∃ pad : Byte, c = pad :: data ∧ pad.toNat ≤ 7 ∧ nbits + pad.toNat = 8 * data.length ∧
    beNat data % 2 ^ pad.toNat = 0

end Verif.Spec.DER
