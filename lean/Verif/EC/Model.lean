import Verif.Base.Basic
import Mathlib.Data.Int.GCD
/-!
# Model of Go's crypto/elliptic generic curve code, and of util/bigint.go, util/ec.go

/repo/go.mod asks for Go 1.12. `P256V1Curve` embeds `*elliptic.CurveParams` (/repo/sm2/sm2.go:43-46), so `Add`,
`ScalarMult`, `ScalarBaseMult` and `IsOnCurve` are the generic big.Int routines of Go 1.12 crypto/elliptic/elliptic.go,
which assume `a = -3`. They are transcribed here line by line; the text is the standard library's, not the repo's, so
it belongs to the trusted base. A `*big.Int` is an `Int`; `Mod` is the Euclidean remainder; `Bytes` gives the bytes of
the absolute value. Not modelled: the later Go releases' panic on points that are not on the curve.
-/
namespace Verif.EC
open Verif

/-- `x.Bytes()` of a `*big.Int`: the absolute value, big-endian, no leading zeros. -/
def intBytes (x : Int) : Bytes := natBytes x.natAbs

/-- `new(big.Int).ModInverse(g, n)` for `n > 0`: `none` when Go returns nil because `g` has no inverse mod `n`, else
the inverse in `[0, n)` (the standard library's documented contract). -/
def modInverse (g n : Int) : Option Int :=
  if Int.gcd (g % n) n = 1 then some (Int.gcdA (g % n) n % n) else none

/-- `util.ModInverse` (/repo/util/bigint.go:23-27): `var z big.Int; z.ModInverse(x, y); return &z`. Without an inverse
`z` keeps its value 0. -/
def utilModInverse (x y : Int) : Int := (modInverse x y).getD 0

/-- `util.IsEcPointInfinity` (/repo/util/ec.go:5-10). -/
def isEcPointInfinity (p : Int × Int) : Bool := p.1 = 0 && p.2 = 0

/-- `elliptic.CurveParams` (Go crypto/elliptic), the fields used. -/
structure CurveParams where
  P : Int
  N : Int
  B : Int
  Gx : Int
  Gy : Int
  bitSize : Nat

/-- A point in Jacobian coordinates as the generic code passes it around. -/
structure Jac where
  x : Int
  y : Int
  z : Int
  deriving DecidableEq, Repr

/-- `if v.Sign() == -1 { v.Add(v, curve.P) }` (elliptic.go, several places). -/
def fixSign (c : CurveParams) (v : Int) : Int := if v < 0 then v + c.P else v

/-- `IsOnCurve` (Go 1.12 elliptic.go): `y² = x³ - 3x + b`. -/
def isOnCurve (c : CurveParams) (x y : Int) : Bool :=
  let y2 := y * y % c.P
  let x3 := x * x * x
  let threeX := x * 2 + x
  decide ((x3 - threeX + c.B) % c.P = y2)

/-- `zForAffine` (Go 1.12 elliptic.go; the same text is `ZForAffine`, /repo/util/ec.go:12-18). -/
def zForAffine (x y : Int) : Int := if x ≠ 0 ∨ y ≠ 0 then 1 else 0

/-- `affineFromJacobian` (Go 1.12 elliptic.go). A nil inverse would be dereferenced: panic. -/
def affineFromJacobian (c : CurveParams) (p : Jac) : Res (Int × Int) :=
  if p.z = 0 then .ok (0, 0)
  else
    match modInverse p.z c.P with
    | none => .panic
    | some zinv =>
      let zinvsq := zinv * zinv
      let xOut := p.x * zinvsq % c.P
      let zinvsq := zinvsq * zinv
      let yOut := p.y * zinvsq % c.P
      .ok (xOut, yOut)

/-- `doubleJacobian` (Go 1.12 elliptic.go, dbl-2001-b). -/
def doubleJacobian (c : CurveParams) (p : Jac) : Jac :=
  let delta := p.z * p.z % c.P
  let gamma := p.y * p.y % c.P
  let alpha := fixSign c (p.x - delta)
  let alpha2 := p.x + delta
  let alpha := alpha * alpha2
  let alpha2 := alpha
  let alpha := alpha * 2
  let alpha := alpha + alpha2
  let beta := p.x * gamma
  let x3 := alpha * alpha
  let beta8 := beta * 8 % c.P
  let x3 := x3 - beta8
  let x3 := fixSign c x3
  let x3 := x3 % c.P
  let z3 := p.y + p.z
  let z3 := z3 * z3
  let z3 := fixSign c (z3 - gamma)
  let z3 := fixSign c (z3 - delta)
  let z3 := z3 % c.P
  let beta := beta * 4
  let beta := fixSign c (beta - x3)
  let y3 := alpha * beta
  let gamma := gamma * gamma
  let gamma := gamma * 8
  let gamma := gamma % c.P
  let y3 := fixSign c (y3 - gamma)
  let y3 := y3 % c.P
  ⟨x3, y3, z3⟩

/-- `addJacobian` (Go 1.12 elliptic.go, add-2007-bl). -/
def addJacobian (c : CurveParams) (p q : Jac) : Jac :=
  if p.z = 0 then q
  else if q.z = 0 then p
  else
    let z1z1 := p.z * p.z % c.P
    let z2z2 := q.z * q.z % c.P
    let u1 := p.x * z2z2 % c.P
    let u2 := q.x * z1z1 % c.P
    let h := u2 - u1
    let xEqual := h = 0
    let h := fixSign c h
    let i := h * 2
    let i := i * i
    let j := h * i
    let s1 := p.y * q.z * z2z2 % c.P
    let s2 := q.y * p.z * z1z1 % c.P
    let r := fixSign c (s2 - s1)
    let yEqual := r = 0
    if xEqual ∧ yEqual then doubleJacobian c p
    else
      let r := r * 2
      let v := u1 * i
      let x3 := (r * r - j - v - v) % c.P
      let v := v - x3
      let y3 := r * v
      let s1 := s1 * j * 2
      let y3 := (y3 - s1) % c.P
      let z3 := p.z + q.z
      let z3 := (z3 * z3 - z1z1 - z2z2) * h % c.P
      ⟨x3, y3, z3⟩

/-- `Add` (Go 1.12 elliptic.go). -/
def add (c : CurveParams) (p q : Int × Int) : Res (Int × Int) :=
  affineFromJacobian c (addJacobian c ⟨p.1, p.2, zForAffine p.1 p.2⟩ ⟨q.1, q.2, zForAffine q.1 q.2⟩)

/-- The inner loop of `ScalarMult`: `n` more bits of one scalar byte, highest first. -/
def scalarBits (c : CurveParams) (b : Int × Int) : Nat → Byte → Jac → Jac
  | 0, _, s => s
  | n + 1, byte, s =>
    let s := doubleJacobian c s
    let s := if byte &&& 0x80 = 0x80 then addJacobian c ⟨b.1, b.2, 1⟩ s else s
    scalarBits c b n (byte <<< 1) s

/-- `ScalarMult` (Go 1.12 elliptic.go). The base point enters with `z = 1`, even when it is (0, 0). -/
def scalarMult (c : CurveParams) (b : Int × Int) (k : Bytes) : Res (Int × Int) :=
  affineFromJacobian c (k.foldl (fun s byte => scalarBits c b 8 byte s) ⟨0, 0, 0⟩)

/-- `ScalarBaseMult` (Go 1.12 elliptic.go). -/
def scalarBaseMult (c : CurveParams) (k : Bytes) : Res (Int × Int) := scalarMult c (c.Gx, c.Gy) k

/-- `copy(buf[off:], src)` for `off ≤ len(buf)`. -/
def copyAt (buf : Bytes) (off : Nat) (src : Bytes) : Bytes :=
  buf.take off ++ src.take (buf.length - off) ++ buf.drop (off + src.length)

/-- `elliptic.Marshal` (Go 1.12 elliptic.go). A slice bound below 0 panics. -/
def marshal (c : CurveParams) (p : Int × Int) : Res Bytes :=
  let byteLen := (c.bitSize + 7) >>> 3
  let ret : Bytes := 4 :: List.replicate (2 * byteLen) 0
  let xBytes := intBytes p.1
  if 1 + byteLen < xBytes.length then .panic
  else
    let ret := copyAt ret (1 + byteLen - xBytes.length) xBytes
    let yBytes := intBytes p.2
    if 1 + 2 * byteLen < yBytes.length then .panic
    else .ok (copyAt ret (1 + 2 * byteLen - yBytes.length) yBytes)

/-- `elliptic.Unmarshal` (Go 1.12 elliptic.go); `none` is `nil, nil`. -/
def unmarshal (c : CurveParams) (data : Bytes) : Option (Int × Int) :=
  let byteLen := (c.bitSize + 7) >>> 3
  if data.length ≠ 1 + 2 * byteLen then none
  else if data.head? ≠ some 4 then none
  else
    let x : Int := beNat ((data.drop 1).take byteLen)
    let y : Int := beNat (data.drop (1 + byteLen))
    if x ≥ c.P ∨ y ≥ c.P then none
    else if !isOnCurve c x y then none
    else some (x, y)

/-- `elliptic.GenerateKey` (Go 1.12 elliptic.go). The argument `reads` lists what successive `io.ReadFull(rand, priv)`
calls deliver: 32 bytes each (`byteLen` bytes), or `none` for an error. `mask[bitSize%8]` is 0xff for a bit size
divisible by 8, the only case modelled. `loop` when the tape ends before a key is found. -/
def generateKey (c : CurveParams) : List (Option Bytes) → Res (Bytes × (Int × Int))
  | [] => .loop
  | none :: _ => .err "rand"
  | some raw :: rest =>
    let priv := raw.modify 1 (· ^^^ 0x42)
    if (beNat priv : Int) ≥ c.N then generateKey c rest
    else do
      let p ← scalarBaseMult c priv
      .ok (priv, p)

end Verif.EC
