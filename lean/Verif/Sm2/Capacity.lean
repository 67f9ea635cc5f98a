import Verif.Sm2.Model
/-!
# `Decrypt` and `MarshalCipher` on slices with spare capacity

Go checks `in[a:b]` against the capacity of `in`. Here a slice is its bytes and the bytes behind it up to its capacity.
-/
namespace Verif.Sm2
open Verif.EC

/-- Go `s[lo:hi]` for a slice with the bytes `s` and, behind it, `spare` up to its capacity. -/
def sliceCap (s spare : Bytes) (lo hi : Int) : Res Bytes :=
  if 0 ≤ lo ∧ lo ≤ hi ∧ hi ≤ s.length + spare.length then .ok (((s ++ spare).drop lo.toNat).take (hi - lo).toNat) else .panic

/-- /repo/sm2/sm2.go:319-332. -/
def splitCipherCap (c1Len : Int) (inp spare : Bytes) (cipherTextType : Int) : Res (Bytes × Bytes) := do
  let c3Len : Int := (Sm3.size : Int)
  let c2Len : Int := (inp.length : Int) - c1Len - c3Len
  let c2 ← makeBytes c2Len
  let c3 ← makeBytes c3Len
  if cipherTextType = C1C2C3 then do
    let a ← sliceCap inp spare c1Len (c1Len + c2Len)
    let b ← sliceCap inp spare (c1Len + c2Len) inp.length
    .ok (copyAt c2 0 a, copyAt c3 0 b)
  else if cipherTextType = C1C3C2 then do
    let b ← sliceCap inp spare c1Len (c1Len + c3Len)
    let a ← sliceCap inp spare (c1Len + c3Len) inp.length
    .ok (copyAt c2 0 a, copyAt c3 0 b)
  else .err "unknown cipherTextType"

/-- `Decrypt` (/repo/sm2/sm2.go:308-346). -/
def decryptCap (priv : PrivateKey) (inp spare : Bytes) (cipherTextType : Int) : Res Bytes := do
  let c1Len : Int := ((((cv.bitSize + 7) >>> 3) * 2 + 1 : Nat) : Int)
  let c1 ← sliceCap inp spare 0 c1Len
  match unmarshal cv c1 with
  | none => .panic
  | some c1p => do
    let s ← scalarMult cv c1p (intBytes sm2H)
    if isEcPointInfinity s then .err "[h]C1 at infinity"
    else do
      let c1p ← scalarMult cv c1p (intBytes priv.D)
      let cc ← splitCipherCap c1Len inp spare cipherTextType
      let c2 ← kdf c1p.1 c1p.2 cc.1
      let xb ← bigIntTo32Bytes c1p.1
      let yb ← bigIntTo32Bytes c1p.2
      let newC3 ← hashOf [xb, c2, yb]
      if newC3 = cc.2 then .ok c2 else .err "invalid cipher text"

/-- `MarshalCipher` (/repo/sm2/sm2.go:348-385). -/
def marshalCipherCap (inp spare : Bytes) (cipherTextType : Int) : Res Bytes := do
  let byteLen : Int := (((cv.bitSize + 7) >>> 3 : Nat) : Int)
  let c2Len : Int := (inp.length : Int) - (1 + byteLen * 2) - (Sm3.size : Int)
  let c2 ← makeBytes c2Len
  let c3 ← makeBytes (Sm3.size : Int)
  let pos : Int := 1
  let c1x ← sliceCap inp spare pos (pos + byteLen)
  let pos := pos + byteLen
  let c1y ← sliceCap inp spare pos (pos + byteLen)
  let pos := pos + byteLen
  let nc1x : Int := beNat c1x
  let nc1y : Int := beNat c1y
  if cipherTextType = C1C2C3 then do
    let a ← sliceCap inp spare pos (pos + c2Len)
    let c2 := copyAt c2 0 a
    let pos := pos + c2Len
    let b ← sliceCap inp spare pos (pos + (Sm3.size : Int))
    let c3 := copyAt c3 0 b
    .ok (Der.marshalSequence (Der.marshalInt nc1x ++ Der.marshalInt nc1y ++ Der.marshalOctets c2 ++ Der.marshalOctets c3))
  else if cipherTextType = C1C3C2 then do
    let b ← sliceCap inp spare pos (pos + (Sm3.size : Int))
    let c3 := copyAt c3 0 b
    let pos := pos + (Sm3.size : Int)
    let a ← sliceCap inp spare pos (pos + c2Len)
    let c2 := copyAt c2 0 a
    .ok (Der.marshalSequence (Der.marshalInt nc1x ++ Der.marshalInt nc1y ++ Der.marshalOctets c3 ++ Der.marshalOctets c2))
  else .err "unknown cipherTextType"

end Verif.Sm2
