import Verif.Sm2.Spec
/-!
# Key exchange of the SM2 standard (GB/T 32918.3), written independently of the code
-/
namespace Verif.Spec.SM2
open Verif Sm2

/-- `x̄ = 2^w + (x & (2^w - 1))` with `w = ⌈⌈log₂ n⌉ / 2⌉ - 1 = 127` (GB/T 32918.3, 6.1 A4). -/
def xbar (x : ℕ) : ℕ := 2 ^ 127 + x % 2 ^ 127

/-- The shared point computed by the party with static private key `d`, ephemeral private key `r`, ephemeral x-coordinate
`x`, from the other side's static key `P` and ephemeral key `R` with x-coordinate `x'` (GB/T 32918.3, 6.1 A5-A7, h = 1). -/
def sharedPoint (d r x : ℕ) (P R : Pt) (x' : ℕ) : Pt := ((d + xbar x * r) % n) • (P + xbar x' • R)

/-- The agreed key of `klen` bytes (GB/T 32918.3, 6.1 A8): `KDF(xU ‖ yU ‖ ZA ‖ ZB, klen)`. -/
def exKey (xU yU : ℕ) (zA zB : Bytes) (klen : ℕ) : Bytes := kdf (fe xU ++ fe yU ++ zA ++ zB) klen

/-- The confirmation hashes (GB/T 32918.3, 6.1 A9/A10, B8): first byte 2 for `S1 = SB`, 3 for `S2 = SA`; `R1 = (x1, y1)` is
the initiator's ephemeral key, `R2 = (x2, y2)` the responder's. -/
def exTag (b : Byte) (xU yU : ℕ) (zA zB : Bytes) (x1 y1 x2 y2 : ℕ) : Bytes :=
  SM3.hash (b :: (fe yU ++ SM3.hash (fe xU ++ zA ++ zB ++ fe x1 ++ fe y1 ++ fe x2 ++ fe y2)))

end Verif.Spec.SM2
