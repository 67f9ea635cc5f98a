import Verif.Base.Basic
/-!
# GM/T 0004-2012 (SM3), written from the standard and independent of the model
-/
namespace Verif.Spec.SM3
open Verif

/-- Constant T_j (section 4.2). -/
def T (j : Nat) : Word := if j < 16 then 0x79cc4519 else 0x7a879d8a

/-- Boolean function FF_j (section 4.3). -/
def FF (j : Nat) (X Y Z : Word) : Word :=
  if j < 16 then X ^^^ Y ^^^ Z else (X &&& Y) ||| (X &&& Z) ||| (Y &&& Z)

/-- Boolean function GG_j (section 4.3). -/
def GG (j : Nat) (X Y Z : Word) : Word :=
  if j < 16 then X ^^^ Y ^^^ Z else (X &&& Y) ||| (~~~X &&& Z)

/-- Permutations P0, P1 (section 4.4). -/
def P0 (X : Word) : Word := X ^^^ X.rotateLeft 9 ^^^ X.rotateLeft 17
/-- See `P0`. -/
def P1 (X : Word) : Word := X ^^^ X.rotateLeft 15 ^^^ X.rotateLeft 23

/-- Message expansion (section 5.3.2): `W_0..W_15` are the block's words,
`W_j = P1(W_{j-16} ⊕ W_{j-9} ⊕ (W_{j-3} <<< 15)) ⊕ (W_{j-13} <<< 7) ⊕ W_{j-6}`. -/
def W (B : Bytes) (j : Nat) : Word :=
  if j < 16 then BitVec.ofNat 32 (beNat ((B.drop (4 * j)).take 4))
  else P1 (W B (j - 16) ^^^ W B (j - 9) ^^^ (W B (j - 3)).rotateLeft 15)
    ^^^ (W B (j - 13)).rotateLeft 7 ^^^ W B (j - 6)
termination_by j
decreasing_by all_goals omega

/-- `W'_j = W_j ⊕ W_{j+4}`. -/
def W' (B : Bytes) (j : Nat) : Word := W B j ^^^ W B (j + 4)

/-- Registers ABCDEFGH. -/
abbrev Regs := Word × Word × Word × Word × Word × Word × Word × Word

/-- One step `j` of the compression function CF (section 5.3.3). -/
def step (B : Bytes) (r : Regs) (j : Nat) : Regs :=
  let (A, B', C, D, E, F, G, H) := r
  let SS1 := (A.rotateLeft 12 + E + (T j).rotateLeft (j % 32)).rotateLeft 7
  let SS2 := SS1 ^^^ A.rotateLeft 12
  let TT1 := FF j A B' C + D + SS2 + W' B j
  let TT2 := GG j E F G + H + SS1 + W B j
  (TT1, A, B'.rotateLeft 9, C, P0 TT2, E, F.rotateLeft 19, G)

/-- Componentwise xor. -/
def xorRegs : Regs → Regs → Regs
  | (a, b, c, d, e, f, g, h), (a', b', c', d', e', f', g', h') =>
    (a ^^^ a', b ^^^ b', c ^^^ c', d ^^^ d', e ^^^ e', f ^^^ f', g ^^^ g', h ^^^ h')

/-- Compression function `V_{i+1} = CF(V_i, B_i) = ABCDEFGH ⊕ V_i`. -/
def CF (V : Regs) (B : Bytes) : Regs := xorRegs ((List.range 64).foldl (step B) V) V

/-- Initial value (section 4.1). -/
def IV : Regs :=
  (0x7380166f, 0x4914b2b9, 0x172442d7, 0xda8a0600, 0xa96f30bc, 0x163138aa, 0xe38dee4d, 0xb0fb0e4e)

/-- Padding (section 5.2): bit 1, then `k` zero bits with `l + 1 + k ≡ 448 mod 512`, then the 64-bit
big-endian bit length; on byte strings that is `0x80`, zero bytes to 56 mod 64, 8 bytes. -/
def pad (m : Bytes) : Bytes :=
  m ++ [0x80] ++ List.replicate ((119 - m.length % 64) % 64) 0 ++ toBE 8 (8 * m.length)

/-- Iteration (section 5.3.1): `V 0 = IV`, `V (i+1) = CF (V i) (block i)`. -/
def V (m' : Bytes) : Nat → Regs
  | 0 => IV
  | i + 1 => CF (V m' i) ((m'.drop (64 * i)).take 64)

/-- Registers as 32 bytes. -/
def outBytes : Regs → Bytes
  | (a, b, c, d, e, f, g, h) =>
    toBE 4 a.toNat ++ toBE 4 b.toNat ++ toBE 4 c.toNat ++ toBE 4 d.toNat ++
    toBE 4 e.toNat ++ toBE 4 f.toNat ++ toBE 4 g.toNat ++ toBE 4 h.toNat

/-- The SM3 hash value. (The standard defines it for messages of fewer than 2^64 bits; beyond that
`toBE 8` keeps the low 64 bits of the length.) -/
def hash (m : Bytes) : Bytes := outBytes (V (pad m) ((pad m).length / 64))

end Verif.Spec.SM3
