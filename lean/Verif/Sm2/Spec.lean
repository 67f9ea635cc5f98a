import Verif.Sm3.Spec
import Verif.Sm2.Curve
/-!
# The SM2 standard (GB/T 32918.2, .3, .4, .5), written independently of the code

Points are Mathlib's `WeierstrassCurve.Affine.Point` of `y² = x³ - 3x + b` over `ZMod p` with its group law; `Pt`, `p`,
`n`, `G` come from `Verif.Sm2.Curve`, where the numbers are those of GB/T 32918.5 and `a = p - 3`.
-/
namespace Verif.Spec.SM2
open Verif Sm2

/-- Affine coordinates as numbers in `[0, p)`; `none` for the point at infinity. -/
def coords : Pt → Option (ℕ × ℕ)
  | .zero => none
  | .some x y _ => some (x.val, y.val)

/-- A field element as 32 bytes (GB/T 32918.1, 4.2.6). -/
def fe (v : ℕ) : Bytes := toBE 32 v

/-- Curve coefficient `a` (GB/T 32918.5). -/
def a : ℕ := 0xFFFFFFFEFFFFFFFFFFFFFFFFFFFFFFFFFFFFFFFF00000000FFFFFFFFFFFFFFFC
/-- Curve coefficient `b` (GB/T 32918.5). -/
def b : ℕ := 0x28E9FA9E9D9F5E344D5A9E4BCF6509A7F39789F515AB8F92DDBCBD414D940E93
/-- The generator's x coordinate (GB/T 32918.5). -/
def gx : ℕ := 0x32C4AE2C1F1981195F9904466A39C9948FE30BBFF2660BE1715A4589334C74C7
/-- The generator's y coordinate (GB/T 32918.5). -/
def gy : ℕ := 0xBC3736A2F4F6779C59BDCEE36B692153D0A9877CC62A474002DF32E52139F0A0

/-- The bytes hashed into `Z` (GB/T 32918.2, 5.5): the bit length of the id in two bytes, the id, `a`, `b`, the
generator and the public key. -/
def zInput (id : Bytes) (x y : ℕ) : Bytes :=
  toBE 2 (8 * id.length) ++ id ++ fe a ++ fe b ++ fe gx ++ fe gy ++ fe x ++ fe y

/-- `Z` (GB/T 32918.2, 5.5). -/
def Z (id : Bytes) (x y : ℕ) : Bytes := SM3.hash (zInput id x y)

/-- `e = H(Z ‖ M)` as a number (GB/T 32918.2, 6.1 A1-A2). -/
def e (id M : Bytes) (x y : ℕ) : ℕ := beNat (SM3.hash (Z id x y ++ M))

/-- Verification of `(r, s)` for message `M` under the public key `P` of user `id` (GB/T 32918.2, 7.1). -/
def Accepts (P : Pt) (id M : Bytes) (r s : ℤ) : Prop :=
  ∃ xP yP, coords P = some (xP, yP) ∧ 1 ≤ r ∧ r < n ∧ 1 ≤ s ∧ s < n ∧ (r + s) % n ≠ 0 ∧
    ∃ x1 y1, coords (s • G + ((r + s) % n) • P) = some (x1, y1) ∧ r = ((e id M xP yP : ℤ) + x1) % n

/-- `(r, s)` is the signature with private key `d` and nonce `k` (GB/T 32918.2, 6.1 A3-A7). -/
def IsSignature (d : ℕ) (id M : Bytes) (k : ℕ) (r s : ℤ) : Prop :=
  1 ≤ k ∧ k < n ∧ ∃ xP yP x1 y1, coords (d • G) = some (xP, yP) ∧ coords (k • G) = some (x1, y1) ∧
    r = ((e id M xP yP : ℤ) + x1) % n ∧ r ≠ 0 ∧ r + k ≠ n ∧
    s ≠ 0 ∧ 0 ≤ s ∧ s < n ∧ ((1 + d) * s) % n = (k - r * d) % n

/-- The key stream of the standard's KDF (GB/T 32918.4, 5.4.3): `klen` bytes of `H(z‖1) ‖ H(z‖2) ‖ …`. -/
def kdf (z : Bytes) (klen : ℕ) : Bytes :=
  ((List.range ((klen + 31) / 32)).flatMap fun i => SM3.hash (z ++ toBE 4 (i + 1))).take klen

/-- `C1, C2, C3` encrypt `M` to the public key `P` with nonce `k` (GB/T 32918.4, 6.1). -/
def IsCiphertext (P : Pt) (M : Bytes) (k : ℕ) (c1 c2 c3 : Bytes) : Prop :=
  1 ≤ k ∧ k < n ∧ ∃ x1 y1 x2 y2, coords (k • G) = some (x1, y1) ∧ coords (k • P) = some (x2, y2) ∧
    c1 = 4 :: (fe x1 ++ fe y1) ∧
    kdf (fe x2 ++ fe y2) M.length ≠ List.replicate M.length 0 ∧
    c2 = List.zipWith (· ^^^ ·) M (kdf (fe x2 ++ fe y2) M.length) ∧
    c3 = SM3.hash (fe x2 ++ M ++ fe y2)

end Verif.Spec.SM2
