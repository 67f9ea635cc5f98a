import Verif.Base.Basic
/-!
# GM/T 0002-2012 (SM4), written from the standard and independent of the model

The S-box is given by its algebraic description (affine map, inversion in
GF(2^8) = GF(2)[x]/(x^8+x^7+x^6+x^5+x^4+x^2+1), affine map), CK by its arithmetic rule, the round
functions by the recurrences of the standard.
-/
namespace Verif.Spec.SM4
open Verif

/-- Multiplication in GF(2)[x]/(0x1f5) on numbers below 256 (shift and add over the bits of `b`). -/
def gmul (a b : Nat) : Nat :=
  ((List.range 8).foldl (fun (s : Nat × Nat) i =>
    let acc := if b.testBit i then s.1 ^^^ s.2 else s.1
    let a2 := 2 * s.2
    (acc, if a2 < 256 then a2 else a2 ^^^ 0x1f5)) (0, a)).1

/-- Field inverse as `y^254 = y^2·y^4·…·y^128` (with `0 ↦ 0`). -/
def ginv (y : Nat) : Nat :=
  let y2 := gmul y y
  let y4 := gmul y2 y2
  let y8 := gmul y4 y4
  let y16 := gmul y8 y8
  let y32 := gmul y16 y16
  let y64 := gmul y32 y32
  let y128 := gmul y64 y64
  gmul y2 (gmul y4 (gmul y8 (gmul y16 (gmul y32 (gmul y64 y128)))))

/-- Parity of the 8 low bits. -/
def parity (x : Nat) : Nat := (List.range 8).foldl (fun p i => p + (x >>> i) % 2) 0 % 2

/-- Rotation of an 8-bit number. -/
def rot8 (x k : Nat) : Nat := ((x <<< k) ||| (x >>> (8 - k))) % 256

/-- Circulant matrix with row `0xa7` applied to the bits of `x`. -/
def circ (x : Nat) : Nat := (List.range 8).foldl (fun r i => r + parity (x &&& rot8 0xa7 i) <<< i) 0

/-- S-box: `A·(A·x + c)⁻¹ + c` with `c = 0xd3`. -/
def S (x : Nat) : Nat := circ (ginv (circ x ^^^ 0xd3)) ^^^ 0xd3

/-- Non-linear transform τ: the S-box on each of the four bytes. -/
def tau (a : Word) : Word :=
  BitVec.ofNat 32 (S (a.toNat / 2 ^ 24 % 256) * 2 ^ 24 + S (a.toNat / 2 ^ 16 % 256) * 2 ^ 16
    + S (a.toNat / 2 ^ 8 % 256) * 2 ^ 8 + S (a.toNat % 256))

/-- Round transform T = L ∘ τ, L(B) = B ⊕ (B<<<2) ⊕ (B<<<10) ⊕ (B<<<18) ⊕ (B<<<24). -/
def T (a : Word) : Word :=
  let b := tau a
  b ^^^ b.rotateLeft 2 ^^^ b.rotateLeft 10 ^^^ b.rotateLeft 18 ^^^ b.rotateLeft 24

/-- Key transform T' with L'(B) = B ⊕ (B<<<13) ⊕ (B<<<23). -/
def T' (a : Word) : Word :=
  let b := tau a
  b ^^^ b.rotateLeft 13 ^^^ b.rotateLeft 23

/-- System parameter FK. -/
def FK : Nat → Word
  | 0 => 0xa3b1bac6 | 1 => 0x56aa3350 | 2 => 0x677d9197 | _ => 0xb27022dc

/-- CK_i: byte `j` is `(4 i + j) · 7 mod 256`. -/
def CK (i : Nat) : Word :=
  BitVec.ofNat 32 ((4 * i) * 7 % 256 * 2 ^ 24 + (4 * i + 1) * 7 % 256 * 2 ^ 16
    + (4 * i + 2) * 7 % 256 * 2 ^ 8 + (4 * i + 3) * 7 % 256)

/-- Word `i` (0..3) of a 16-byte string. -/
def word (b : Bytes) (i : Nat) : Word := BitVec.ofNat 32 (beNat ((b.drop (4 * i)).take 4))

/-- Key schedule: `K_0..K_3 = MK ⊕ FK`, `K_{i+4} = K_i ⊕ T'(K_{i+1} ⊕ K_{i+2} ⊕ K_{i+3} ⊕ CK_i)`. -/
def K (key : Bytes) : Nat → Word
  | 0 => word key 0 ^^^ FK 0
  | 1 => word key 1 ^^^ FK 1
  | 2 => word key 2 ^^^ FK 2
  | 3 => word key 3 ^^^ FK 3
  | i + 4 => K key i ^^^ T' (K key (i + 1) ^^^ K key (i + 2) ^^^ K key (i + 3) ^^^ CK i)

/-- Round key `rk_i = K_{i+4}`. -/
def rk (key : Bytes) (i : Nat) : Word := K key (i + 4)

/-- Encryption recurrence `X_{i+4} = X_i ⊕ T(X_{i+1} ⊕ X_{i+2} ⊕ X_{i+3} ⊕ rk_i)`. -/
def X (rk : Nat → Word) (inp : Bytes) : Nat → Word
  | 0 => word inp 0
  | 1 => word inp 1
  | 2 => word inp 2
  | 3 => word inp 3
  | i + 4 => X rk inp i ^^^ T (X rk inp (i + 1) ^^^ X rk inp (i + 2) ^^^ X rk inp (i + 3) ^^^ rk i)

/-- The output `(X_35, X_34, X_33, X_32)` for given round keys, as 16 bytes. -/
def crypt (rk : Nat → Word) (inp : Bytes) : Bytes :=
  toBE 4 (X rk inp 35).toNat ++ toBE 4 (X rk inp 34).toNat ++ toBE 4 (X rk inp 33).toNat
    ++ toBE 4 (X rk inp 32).toNat

/-- SM4 encryption of one block. -/
def encrypt (key blk : Bytes) : Bytes := crypt (rk key) blk

/-- SM4 decryption of one block: round keys in reverse order. -/
def decrypt (key blk : Bytes) : Bytes := crypt (fun i => rk key (31 - i)) blk

/-- Block `i` of a byte string. -/
def blk (bs : Bytes) (i : Nat) : Bytes := (bs.drop (16 * i)).take 16

/-- Bytewise xor. -/
def xor (a b : Bytes) : Bytes := List.zipWith (· ^^^ ·) a b

end Verif.Spec.SM4
