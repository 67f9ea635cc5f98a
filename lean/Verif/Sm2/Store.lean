import Verif.EC.Store
import Verif.Sm2.Exchange
/-!
# /repo/sm2/sm2.go and /repo/sm2/keyexchange.go on numbers in memory

`Verif.Sm2.Model` and `Verif.Sm2.Exchange` with pointers instead of numbers (see `Verif.EC.Store`): keys point to their numbers, a
curve is copied by value and its copies point to the same numbers, and the package has its own curve and `sm2H`. The parts of the
functions that work on byte strings are those of the models. `BitSize`, an `int` of the shared struct, is a constant here.
-/
namespace Verif.Sm2.Store
open Verif EC EC.Store

/-- `P256V1Curve` (/repo/sm2/sm2.go:43-46). -/
structure SmCurve extends CurvePtrs where
  A : Ptr
  deriving DecidableEq, Repr

/-- The variables of the package (/repo/sm2/sm2.go:33-38). -/
structure Globals where
  curve : SmCurve
  H : Ptr

/-- `PublicKey` (/repo/sm2/sm2.go:48-51). -/
structure PubKey where
  X : Ptr
  Y : Ptr
  curve : SmCurve

/-- `PrivateKey` (/repo/sm2/sm2.go:53-56). -/
structure PrivKey where
  D : Ptr
  curve : SmCurve

/-- A loop `for { … }`. -/
def forLoopM {σ α : Type} (body : σ → M (σ ⊕ α)) : Nat → σ → M α
  | 0, _ => lift .loop
  | fuel + 1, s => do
    match ← body s with
    | .inl s' => forLoopM body fuel s'
    | .inr a => pure a

/-- `GetSm2P256V1` (/repo/sm2/sm2.go:95-97). -/
def getSm2P256V1 (g : Globals) : SmCurve := g.curve

/-- `new(big.Int).SetBytes(b)`, `new(big.Int).SetInt64(v)`. -/
def newInt (v : Int) : M Ptr := do
  let z ← new
  bSetInt z v

/-- `elliptic.GenerateKey` (Go 1.12 elliptic.go). -/
def ellipticGenerateKey (c : CurvePtrs) : Tape → M (Bytes × Ptr × Ptr)
  | [] => lift .loop
  | none :: _ => lift (.err "rand")
  | some raw :: rest => do
    let priv := raw.modify 1 (· ^^^ 0x42)
    let t ← newInt (beNat priv)
    let a ← get t
    let b ← get c.N
    if a ≥ b then ellipticGenerateKey c rest
    else do
      let p ← scalarBaseMultM c priv
      pure (priv, p)

/-- `GenerateKey` (/repo/sm2/sm2.go:99-112). -/
def generateKey (g : Globals) (tape : Tape) : M (PrivKey × PubKey) := do
  let r ← ellipticGenerateKey g.curve.toCurvePtrs tape
  let d ← newInt (beNat r.1)
  pure (⟨d, g.curve⟩, ⟨r.2.1, r.2.2, g.curve⟩)

/-- `RawBytesToPublicKey` (/repo/sm2/sm2.go:114-123). -/
def rawBytesToPublicKey (g : Globals) (bytes : Bytes) : M PubKey :=
  if bytes.length ≠ keyBytes * 2 then lift (.err "Public key raw bytes length must be 64")
  else do
    let x ← newInt (beNat (bytes.take keyBytes))
    let y ← newInt (beNat (bytes.drop keyBytes))
    pure ⟨x, y, g.curve⟩

/-- `RawBytesToPrivateKey` (/repo/sm2/sm2.go:125-133). -/
def rawBytesToPrivateKey (g : Globals) (bytes : Bytes) : M PrivKey :=
  if bytes.length ≠ keyBytes then lift (.err "Private key raw bytes length must be 32")
  else do
    let d ← newInt (beNat bytes)
    pure ⟨d, g.curve⟩

/-- `CalculatePubKey` (/repo/sm2/sm2.go:182-187). -/
def calculatePubKey (priv : PrivKey) : M PubKey := do
  let d ← get priv.D
  let p ← scalarBaseMultM priv.curve.toCurvePtrs (intBytes d)
  pure ⟨p.1, p.2, priv.curve⟩

/-- The loop of `rand.Int` (Go 1.12 crypto/rand/util.go); `b` bits of the first byte are kept. -/
def randLoop (n max : Ptr) (b : Nat) : Tape → M (Ptr × Tape)
  | [] => lift .loop
  | none :: _ => lift (.err "rand")
  | some bytes :: rest => do
    let _ ← bSetInt n (beNat (bytes.modify 0 (· &&& BitVec.ofNat 8 (2 ^ b - 1))))
    let v ← get n
    let mx ← get max
    if v < mx then pure (n, rest) else randLoop n max b rest

/-- `rand.Int` (Go 1.12 crypto/rand/util.go). -/
def randInt (max : Ptr) (tape : Tape) : M (Ptr × Tape) := do
  let n ← newInt 1
  let _ ← bSub n max n
  let v ← get n
  let bitLen := v.natAbs.log2 + 1
  let b := if bitLen % 8 = 0 then 8 else bitLen % 8
  randLoop n max b tape

/-- `nextK` (/repo/sm2/sm2.go:189-202). -/
def nextK (tape : Tape) (max : Ptr) : M (Ptr × Tape) := do
  let intOne ← newInt 1
  forLoopM (fun t => do
    let r ← randInt max t
    let k ← get r.1
    let one ← get intOne
    if k ≥ one then pure (.inr r) else pure (.inl r.2)) (tape.length + 1) tape

/-- The loop of `Encrypt` (/repo/sm2/sm2.go:268-282). -/
def encryptLoop (pub : PubKey) (inp : Bytes) (tape : Tape) : M (Bytes × Bytes × (Ptr × Ptr)) :=
  forLoopM (fun (s : Tape × Bytes) => do
    let r ← nextK s.1 pub.curve.N
    let k ← get r.1
    let kBytes := intBytes k
    let c1p ← scalarBaseMultM pub.curve.toCurvePtrs kBytes
    let c1x ← get c1p.1
    let c1y ← get c1p.2
    let c1 ← lift (marshal cv (c1x, c1y))
    let kPB ← scalarMultM pub.curve.toCurvePtrs pub.X pub.Y kBytes
    let kx ← get kPB.1
    let ky ← get kPB.2
    let c2 ← lift (kdf kx ky s.2)
    if !notEncrypted c2 inp then pure (.inr (c1, c2, kPB)) else pure (.inl (r.2, c2))) (tape.length + 1) (tape, inp)

/-- `Encrypt` (/repo/sm2/sm2.go:262-306). -/
def encrypt (pub : PubKey) (inp : Bytes) (cipherTextType : Int) (tape : Tape) : M Bytes := do
  let r ← encryptLoop pub inp tape
  let x ← get r.2.2.1
  let y ← get r.2.2.2
  let xb ← lift (bigIntTo32Bytes x)
  let yb ← lift (bigIntTo32Bytes y)
  let c3 ← lift (hashOf [xb, inp, yb])
  let c1 := r.1
  let c2 := r.2.1
  let result : Bytes := List.replicate (c1.length + c2.length + c3.length) 0
  if cipherTextType = C1C2C3 then
    pure (copyAt (copyAt (copyAt result 0 c1) c1.length c2) (c1.length + c2.length) c3)
  else if cipherTextType = C1C3C2 then
    pure (copyAt (copyAt (copyAt result 0 c1) c1.length c3) (c1.length + c3.length) c2)
  else lift (.err "unknown cipherTextType")

/-- `IsOnCurve` (Go 1.12 elliptic.go). -/
def isOnCurveM (c : CurvePtrs) (x y : Ptr) : M Bool := do
  let y2 ← new
  let _ ← bMul y2 y y
  let _ ← bMod y2 y2 c.P
  let x3 ← new
  let _ ← bMul x3 x x
  let _ ← bMul x3 x3 x
  let threeX ← new
  let _ ← bLsh threeX x 1
  let _ ← bAdd threeX threeX x
  let _ ← bSub x3 x3 threeX
  let _ ← bAdd x3 x3 c.B
  let _ ← bMod x3 x3 c.P
  let a ← get x3
  let b ← get y2
  pure (decide (a = b))

/-- `elliptic.Unmarshal` (Go 1.12 elliptic.go). -/
def unmarshalM (c : CurvePtrs) (data : Bytes) : M (Option (Ptr × Ptr)) := do
  let byteLen := (cv.bitSize + 7) >>> 3
  if data.length ≠ 1 + 2 * byteLen then pure none
  else if data.head? ≠ some 4 then pure none
  else do
    let x ← newInt (beNat ((data.drop 1).take byteLen))
    let y ← newInt (beNat (data.drop (1 + byteLen)))
    let xv ← get x
    let yv ← get y
    let p ← get c.P
    if xv ≥ p ∨ yv ≥ p then pure none
    else do
      let on ← isOnCurveM c x y
      if !on then pure none
      else pure (some (x, y))

/-- The part of `Decrypt` behind `Unmarshal` (/repo/sm2/sm2.go:313-346). -/
def decryptPoint (g : Globals) (priv : PrivKey) (c1p : Ptr × Ptr) (c1Len : Int) (inp : Bytes) (cipherTextType : Int) : M Bytes := do
  let h ← get g.H
  let s ← scalarMultM priv.curve.toCurvePtrs c1p.1 c1p.2 (intBytes h)
  let inf ← uIsInfinity s.1 s.2
  if inf then lift (.err "[h]C1 at infinity")
  else do
    let d ← get priv.D
    let c1p ← scalarMultM priv.curve.toCurvePtrs c1p.1 c1p.2 (intBytes d)
    let x ← get c1p.1
    let y ← get c1p.2
    lift (decryptRest (x, y) c1Len inp cipherTextType)

/-- `Decrypt` (/repo/sm2/sm2.go:308-346). -/
def decrypt (g : Globals) (priv : PrivKey) (inp : Bytes) (cipherTextType : Int) : M Bytes := do
  let c1Len : Int := ((((cv.bitSize + 7) >>> 3) * 2 + 1 : Nat) : Int)
  let c1 ← lift (slice inp 0 c1Len)
  match ← unmarshalM priv.curve.toCurvePtrs c1 with
  | none => lift .panic
  | some c1p => decryptPoint g priv c1p c1Len inp cipherTextType

/-- The chunks of `getZ` (/repo/sm2/sm2.go:441-459), from the numbers. -/
def zChunksOf (a b gx gy pubX pubY : Int) (userId : Bytes) : Res (List Bytes) := do
  let userIdLen : BitVec 16 := BitVec.ofNat 16 (userId.length * 8)
  let userIdLenBytes : Bytes := toBE 2 userIdLen.toNat
  let a ← bigIntTo32Bytes a
  let b ← bigIntTo32Bytes b
  let gx ← bigIntTo32Bytes gx
  let gy ← bigIntTo32Bytes gy
  let px ← bigIntTo32Bytes pubX
  let py ← bigIntTo32Bytes pubY
  .ok ([userIdLenBytes] ++ (if userId.length > 0 then [userId] else []) ++ [a, b, gx, gy, px, py])

/-- `getZ` (/repo/sm2/sm2.go:441-459). -/
def getZ (curve : SmCurve) (pubX pubY : Ptr) (userId : Bytes) : M Bytes := do
  let a ← get curve.A
  let b ← get curve.B
  let gx ← get curve.Gx
  let gy ← get curve.Gy
  let px ← get pubX
  let py ← get pubY
  let cs ← lift (zChunksOf a b gx gy px py userId)
  lift (hashOf cs)

/-- `calculateE` (/repo/sm2/sm2.go:461-469). -/
def calculateE (curve : SmCurve) (pubX pubY : Ptr) (userId src : Bytes) : M Ptr := do
  let z ← getZ curve pubX pubY userId
  let eHash ← lift (hashOf [z, src])
  newInt (beNat eHash)

/-- `MarshalSign` (/repo/sm2/sm2.go:471-477). -/
def marshalSign (r s : Ptr) : M Bytes := do
  let a ← get r
  let b ← get s
  lift (Sm2.marshalSign a b)

/-- `UnmarshalSign` (/repo/sm2/sm2.go:479-486); asn1.Unmarshal makes new numbers. -/
def unmarshalSign (sign : Bytes) : M (Ptr × Ptr) := do
  let rs ← lift (Sm2.unmarshalSign sign)
  let r ← newInt rs.1
  let s ← newInt rs.2
  pure (r, s)

/-- The inner loop of `SignToRS` (/repo/sm2/sm2.go:501-515). -/
def signInner (priv : PrivKey) (e intZero : Ptr) (tape : Tape) : M (Ptr × Ptr × Tape) :=
  forLoopM (fun t => do
    let kt ← nextK t priv.curve.N
    let k ← get kt.1
    let px ← scalarBaseMultM priv.curve.toCurvePtrs (intBytes k)
    let r ← uAdd e px.1
    let r ← uMod r priv.curve.N
    let rk ← new
    let rk ← bSet rk r
    let rk ← bAdd rk rk kt.1
    let rv ← get r
    let zero ← get intZero
    let rkv ← get rk
    let nv ← get priv.curve.N
    if rv ≠ zero ∧ rkv ≠ nv then pure (.inr (kt.1, r, kt.2)) else pure (.inl kt.2)) (tape.length + 1) tape

/-- `SignToRS` (/repo/sm2/sm2.go:488-531). -/
def signToRS (priv : PrivKey) (userId : Option Bytes) (inp : Bytes) (tape : Tape) : M (Ptr × Ptr) := do
  let d ← get priv.D
  let pub ← scalarBaseMultM priv.curve.toCurvePtrs (intBytes d)
  let userId := userId.getD defaultUserId
  let e ← calculateE priv.curve pub.1 pub.2 userId inp
  let intZero ← newInt 0
  let intOne ← newInt 1
  forLoopM (fun t => do
    let krt ← signInner priv e intZero t
    let dPlus1ModN ← uAdd priv.D intOne
    let dPlus1ModN ← uModInverse dPlus1ModN priv.curve.N
    let s ← uMul krt.2.1 priv.D
    let s ← uSub krt.1 s
    let s ← uMod s priv.curve.N
    let s ← uMul dPlus1ModN s
    let s ← uMod s priv.curve.N
    let sv ← get s
    let zero ← get intZero
    if sv ≠ zero then pure (.inr (krt.2.1, s)) else pure (.inl krt.2.2)) (tape.length + 1) tape

/-- `Sign` (/repo/sm2/sm2.go:534-541). -/
def sign (priv : PrivKey) (userId : Option Bytes) (inp : Bytes) (tape : Tape) : M Bytes := do
  let rs ← signToRS priv userId inp tape
  marshalSign rs.1 rs.2

/-- `VerifyByRS` (/repo/sm2/sm2.go:543-575). -/
def verifyByRS (pub : PubKey) (userId : Option Bytes) (src : Bytes) (r s : Ptr) : M Bool := do
  let intOne ← newInt 1
  let one ← get intOne
  let rv ← get r
  let nv ← get pub.curve.N
  if rv < one ∨ rv ≥ nv then pure false
  else do
    let sv ← get s
    if sv < one ∨ sv ≥ nv then pure false
    else do
      let userId := userId.getD defaultUserId
      let e ← calculateE pub.curve pub.X pub.Y userId src
      let intZero ← newInt 0
      let t ← uAdd r s
      let t ← uMod t pub.curve.N
      let tv ← get t
      let zero ← get intZero
      if tv = zero then pure false
      else do
        let sv ← get s
        let sg ← scalarBaseMultM pub.curve.toCurvePtrs (intBytes sv)
        let tp ← scalarMultM pub.curve.toCurvePtrs pub.X pub.Y (intBytes tv)
        let q ← addM pub.curve.toCurvePtrs sg.1 sg.2 tp.1 tp.2
        let inf ← uIsInfinity q.1 q.2
        if inf then pure false
        else do
          let expectedR ← uAdd e q.1
          let expectedR ← uMod expectedR pub.curve.N
          let a ← get expectedR
          let b ← get r
          pure (decide (a = b))

/-- `Verify` (/repo/sm2/sm2.go:578-585). -/
def verify (pub : PubKey) (userId : Option Bytes) (src sign : Bytes) : M Bool := do
  match ← attempt (unmarshalSign sign) with
  | none => pure false
  | some rs => verifyByRS pub userId src rs.1 rs.2

/-- `reduce` (/repo/sm2/keyexchange.go:19-26). -/
def reduce (x : Ptr) (w : ℕ) : M Ptr := do
  let intOne ← newInt 1
  let result ← uLsh intOne w
  let result ← uSub result intOne
  let result ← uAnd x result
  let result ← uSetBit result w
  pure result

/-- `calculateU` (/repo/sm2/keyexchange.go:28-43). -/
def calculateU (g : Globals) (w : ℕ) (selfStaticPriv selfEphemeralPriv : PrivKey) (selfEphemeralPub otherStaticPub otherEphemeralPub : PubKey) :
    M (Ptr × Ptr) := do
  let x1 ← reduce selfEphemeralPub.X w
  let x2 ← reduce otherEphemeralPub.X w
  let tA ← uMul x1 selfEphemeralPriv.D
  let tA ← uAdd selfStaticPriv.D tA
  let k1 ← uMul g.H tA
  let k1 ← uMod k1 selfStaticPriv.curve.N
  let k2 ← uMul k1 x2
  let k2 ← uMod k2 selfStaticPriv.curve.N
  let k1v ← get k1
  let p1 ← scalarMultM selfStaticPriv.curve.toCurvePtrs otherStaticPub.X otherStaticPub.Y (intBytes k1v)
  let k2v ← get k2
  let p2 ← scalarMultM selfStaticPriv.curve.toCurvePtrs otherEphemeralPub.X otherEphemeralPub.Y (intBytes k2v)
  addM selfStaticPriv.curve.toCurvePtrs p1.1 p1.2 p2.1 p2.2

/-- The numbers of a public key. -/
def readPub (pub : PubKey) : M PublicKey := do
  let x ← get pub.X
  let y ← get pub.Y
  pure ⟨x, y⟩

/-- `CalculateKeyWithConfirmation` (/repo/sm2/keyexchange.go:105-144). -/
def calculateKeyWithConfirmation (g : Globals) (initiator : Bool) (keyBits : Int) (confirmationTag : Option Bytes)
    (selfStaticPriv selfEphemeralPriv : PrivKey) (selfId : Option Bytes)
    (otherStaticPub otherEphemeralPub : PubKey) (otherId : Option Bytes) : M ExchangeResult := do
  let selfId := selfId.getD []
  let otherId := otherId.getD []
  if initiator = true ∧ confirmationTag = none then lift (.err "if initiating, confirmationTag must be set")
  else do
    let selfStaticPub ← calculatePubKey selfStaticPriv
    let za ← getZ selfStaticPriv.curve selfStaticPub.X selfStaticPub.Y selfId
    let zb ← getZ selfStaticPriv.curve otherStaticPub.X otherStaticPub.Y otherId
    let w := cv.bitSize / 2 - 1
    let selfEphemeralPub ← calculatePubKey selfEphemeralPriv
    let u ← calculateU g w selfStaticPriv selfEphemeralPriv selfEphemeralPub otherStaticPub otherEphemeralPub
    let ux ← get u.1
    let uy ← get u.2
    let self ← readPub selfEphemeralPub
    let other ← readPub otherEphemeralPub
    if initiator then lift (initiatorPart keyBits (confirmationTag.getD []) (ux, uy) za zb self other)
    else lift (responderPart keyBits (ux, uy) za zb self other)

end Verif.Sm2.Store
