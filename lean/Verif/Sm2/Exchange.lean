import Verif.Sm2.Model
import Mathlib.Data.Int.Bitwise
/-!
# Model of /repo/sm2/keyexchange.go

Conventions as in `Verif.Sm2.Model`. `digest` is one SM3 object that is reset before every use.
-/
namespace Verif.Sm2
open Verif EC

/-- `ExchangeResult` (/repo/sm2/keyexchange.go:13-17); `S1` of the initiator is nil, here empty. -/
structure ExchangeResult where
  Key : Bytes
  S1 : Bytes
  S2 : Bytes
  deriving DecidableEq, Repr

/-- `reduce` (/repo/sm2/keyexchange.go:19-26). `Int.land` is `And` of `math/big` (two's complement); `SetBit(z, w, 1)` of
a number that is not negative is `Int.lor` with `1 << w`, and the result of the `And` is not negative. -/
def reduce (x : Int) (w : ℕ) : Int :=
  let result : Int := 1 * 2 ^ w
  let result := result - 1
  let result := Int.land x result
  Int.lor result (2 ^ w)

/-- `calculateU` (/repo/sm2/keyexchange.go:28-43). -/
def calculateU (w : ℕ) (selfStaticPriv selfEphemeralPriv : PrivateKey) (selfEphemeralPub otherStaticPub otherEphemeralPub : PublicKey) :
    Res (Int × Int) := do
  let x1 := reduce selfEphemeralPub.X w
  let x2 := reduce otherEphemeralPub.X w
  let tA := x1 * selfEphemeralPriv.D
  let tA := selfStaticPriv.D + tA
  let k1 := sm2H * tA
  let k1 := k1 % cv.N
  let k2 := k1 * x2
  let k2 := k2 % cv.N
  let p1 ← scalarMult cv (otherStaticPub.X, otherStaticPub.Y) (intBytes k1)
  let p2 ← scalarMult cv (otherEphemeralPub.X, otherEphemeralPub.Y) (intBytes k2)
  EC.add cv p1 p2

/-- The state of the loop of `kdfForExch`. -/
structure ExchState where
  buf : Bytes
  rv : Bytes
  off : Nat
  ct : BitVec 32

/-- One pass of the loop of `kdfForExch` (/repo/sm2/keyexchange.go:58-73). -/
def kdfForExchBody (bufSize : Nat) (uxBytes uyBytes za zb : Bytes) (s : ExchState) : Res (ExchState ⊕ Bytes) :=
  if s.off < s.rv.length then do
    let ct := s.ct + 1
    let buf := copyAt s.buf 0 (put32 ct)
    let b4 ← slice buf 0 4
    let tmp ← hashOf [uxBytes, uyBytes, za, zb, b4]
    let t ← slice tmp 0 bufSize
    let buf := copyAt buf 0 t
    let copyLen : Nat := s.rv.length - s.off
    let src ← slice buf 0 copyLen
    let rv := copyAt s.rv s.off src
    .ok (.inl ⟨buf, rv, s.off + copyLen, ct⟩)
  else .ok (.inr s.rv)

/-- `kdfForExch` (/repo/sm2/keyexchange.go:45-75). `(keyBits+7)/8` truncates towards zero. For `keyBits` above 2^63 - 8 the
addition wraps in Go and `make` panics; here the slice of `buf` panics. `BlockSize()` of SM3 is 16 (/repo/sm3/sm3.go:12,
56-58). -/
def kdfForExch (ux uy : Int) (za zb : Bytes) (keyBits : Int) : Res Bytes := do
  let blockSize := 16
  let bufSize := if 4 < blockSize then blockSize else 4
  let buf : Bytes := List.replicate bufSize 0
  let rv ← makeBytes (Int.tdiv (keyBits + 7) 8)
  forLoop (kdfForExchBody bufSize (intBytes ux) (intBytes uy) za zb) (rv.length + 2) ⟨buf, rv, 0, 0⟩

/-- `calculateInnerHash` (/repo/sm2/keyexchange.go:77-87). -/
def calculateInnerHash (ux : Int) (za zb : Bytes) (p1x p1y p2x p2y : Int) : Res Bytes :=
  hashOf [intBytes ux, za, zb, intBytes p1x, intBytes p1y, intBytes p2x, intBytes p2y]

/-- `s1` (/repo/sm2/keyexchange.go:89-95). -/
def s1 (uy : Int) (innerHash : Bytes) : Res Bytes := hashOf [[0x02], intBytes uy, innerHash]

/-- `s2` (/repo/sm2/keyexchange.go:97-103). -/
def s2 (uy : Int) (innerHash : Bytes) : Res Bytes := hashOf [[0x03], intBytes uy, innerHash]

/-- The part of `CalculateKeyWithConfirmation` for the initiator (/repo/sm2/keyexchange.go:127-135). -/
def initiatorPart (keyBits : Int) (tag : Bytes) (u : Int × Int) (za zb : Bytes) (self other : PublicKey) : Res ExchangeResult := do
  let rv ← kdfForExch u.1 u.2 za zb keyBits
  let innerHash ← calculateInnerHash u.1 za zb self.X self.Y other.X other.Y
  let t1 ← s1 u.2 innerHash
  if t1 ≠ tag then .err "confirmation tag mismatch"
  else do
    let t2 ← s2 u.2 innerHash
    .ok ⟨rv, [], t2⟩

/-- The part of `CalculateKeyWithConfirmation` for the responder (/repo/sm2/keyexchange.go:137-142). -/
def responderPart (keyBits : Int) (u : Int × Int) (za zb : Bytes) (self other : PublicKey) : Res ExchangeResult := do
  let rv ← kdfForExch u.1 u.2 zb za keyBits
  let innerHash ← calculateInnerHash u.1 zb za other.X other.Y self.X self.Y
  let t1 ← s1 u.2 innerHash
  let t2 ← s2 u.2 innerHash
  .ok ⟨rv, t1, t2⟩

/-- `CalculateKeyWithConfirmation` (/repo/sm2/keyexchange.go:105-144); `none` is nil. -/
def calculateKeyWithConfirmation (initiator : Bool) (keyBits : Int) (confirmationTag : Option Bytes)
    (selfStaticPriv selfEphemeralPriv : PrivateKey) (selfId : Option Bytes)
    (otherStaticPub otherEphemeralPub : PublicKey) (otherId : Option Bytes) : Res ExchangeResult :=
  let selfId := selfId.getD []
  let otherId := otherId.getD []
  if initiator = true ∧ confirmationTag = none then .err "if initiating, confirmationTag must be set"
  else do
    let selfStaticPub ← calculatePubKey selfStaticPriv
    let za ← getZ selfStaticPub.X selfStaticPub.Y selfId
    let zb ← getZ otherStaticPub.X otherStaticPub.Y otherId
    let w := cv.bitSize / 2 - 1
    let selfEphemeralPub ← calculatePubKey selfEphemeralPriv
    let u ← calculateU w selfStaticPriv selfEphemeralPriv selfEphemeralPub otherStaticPub otherEphemeralPub
    if initiator then initiatorPart keyBits (confirmationTag.getD []) u za zb selfEphemeralPub otherEphemeralPub
    else responderPart keyBits u za zb selfEphemeralPub otherEphemeralPub

/-- `ResponderConfirm` (/repo/sm2/keyexchange.go:146-148). -/
def responderConfirm (responderS2 initiatorS2 : Bytes) : Bool := decide (responderS2 = initiatorS2)

end Verif.Sm2
