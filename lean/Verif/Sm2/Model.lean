import Verif.Sm3.Model
import Verif.Der.Model
import Verif.Sm2.Curve
/-!
# Model of /repo/sm2/sm2.go

Function by function. General conventions:

* a `*big.Int` is an `Int` (no nil pointers: every `*big.Int` field of a key is set);
* the `Curve` field of a key is always `sm2P256V1`, the only value the package creates, so keys carry their numbers only;
* `digest` objects: each use in the code begins with `Reset` (or is a new object), and `Reset` gives the state of `New`
  (theorem `C03_reset_any`), so a use is modelled by `hashOf` the list of the chunks written;
* random numbers: `Tape` lists the outcomes of successive reads of the random source;
* loops without a bound in the code run on a fuel that never is the limiting factor (one more than the length of the
  tape; each pass consumes at least one read). A tape that ends first gives `Res.loop`.
-/
namespace Verif.Sm2
open Verif EC

/-- Successive `io.ReadFull(rand, buf)` outcomes: the bytes delivered, or `none` for an error. -/
abbrev Tape := List (Option Bytes)

/-- A loop `for { … }`: `body` either continues with a new state or leaves the loop with a value. -/
def forLoop {σ α : Type} (body : σ → Res (σ ⊕ α)) : Nat → σ → Res α
  | 0, _ => .loop
  | fuel + 1, s => do
    match ← body s with
    | .inl s' => forLoop body fuel s'
    | .inr a => .ok a

/-- `digest.Reset(); digest.Write(c₁); …; digest.Write(cₖ); digest.Sum(nil)` on an SM3 object. -/
def hashOf (chunks : List Bytes) : Res Bytes := do
  let d ← chunks.foldlM (fun d c => Sm3.write d c) Sm3.new
  let r ← Sm3.sumMethod d []
  .ok r.1

/-- `KeyBytes` (/repo/sm2/sm2.go:19-23). -/
def keyBytes : Nat := (256 + 7) / 8
/-- `UnCompress` (/repo/sm2/sm2.go:22). -/
def unCompress : Byte := 0x04
/-- `C1C2C3` (/repo/sm2/sm2.go:29); a layout is an `int32`. -/
def C1C2C3 : Int := 1
/-- `C1C3C2` (/repo/sm2/sm2.go:31). -/
def C1C3C2 : Int := 2
/-- `sm2H` (/repo/sm2/sm2.go:35). -/
def sm2H : Int := 1
/-- `sm2SignDefaultUserId` (/repo/sm2/sm2.go:36-38). -/
def defaultUserId : Bytes :=
  [0x31, 0x32, 0x33, 0x34, 0x35, 0x36, 0x37, 0x38, 0x31, 0x32, 0x33, 0x34, 0x35, 0x36, 0x37, 0x38]

/-- `PublicKey` (/repo/sm2/sm2.go:48-51). -/
structure PublicKey where
  X : Int
  Y : Int
  deriving DecidableEq, Repr

/-- `PrivateKey` (/repo/sm2/sm2.go:53-56). -/
structure PrivateKey where
  D : Int
  deriving DecidableEq, Repr

/-- `GenerateKey` (/repo/sm2/sm2.go:99-112). -/
def generateKey (tape : Tape) : Res (PrivateKey × PublicKey) := do
  let r ← EC.generateKey cv tape
  .ok (⟨(beNat r.1 : Int)⟩, ⟨r.2.1, r.2.2⟩)

/-- `RawBytesToPublicKey` (/repo/sm2/sm2.go:114-123). -/
def rawBytesToPublicKey (bytes : Bytes) : Res PublicKey :=
  if bytes.length ≠ keyBytes * 2 then .err "Public key raw bytes length must be 64"
  else .ok ⟨(beNat (bytes.take keyBytes) : Int), (beNat (bytes.drop keyBytes) : Int)⟩

/-- `RawBytesToPrivateKey` (/repo/sm2/sm2.go:125-133). -/
def rawBytesToPrivateKey (bytes : Bytes) : Res PrivateKey :=
  if bytes.length ≠ keyBytes then .err "Private key raw bytes length must be 32"
  else .ok ⟨(beNat bytes : Int)⟩

/-- `bigIntTo32Bytes` (/repo/sm2/sm2.go:211-219). `make` with a negative size panics. -/
def bigIntTo32Bytes (bn : Int) : Res Bytes :=
  let byteArr := intBytes bn
  let byteArrLen := byteArr.length
  if byteArrLen = keyBytes then .ok byteArr
  else if keyBytes < byteArrLen then .panic
  else .ok (List.replicate (keyBytes - byteArrLen) 0 ++ byteArr)

/-- `GetUnCompressBytes` (/repo/sm2/sm2.go:135-159). -/
def PublicKey.getUnCompressBytes (pub : PublicKey) : Res Bytes := do
  let xBytes ← bigIntTo32Bytes pub.X
  let yBytes ← bigIntTo32Bytes pub.Y
  let xl := xBytes.length
  let yl := yBytes.length
  let raw : Bytes := unCompress :: List.replicate (keyBytes * 2) 0
  let raw :=
    if xl > keyBytes then copyAt raw 1 (xBytes.drop (xl - keyBytes))
    else if xl < keyBytes then copyAt raw (1 + (keyBytes - xl)) xBytes
    else copyAt raw 1 xBytes
  let raw :=
    if yl > keyBytes then copyAt raw (1 + keyBytes) (yBytes.drop (yl - keyBytes))
    else if yl < keyBytes then copyAt raw (1 + keyBytes + (keyBytes - yl)) yBytes
    else copyAt raw (1 + keyBytes) yBytes
  .ok raw

/-- `(pub *PublicKey) GetRawBytes` (/repo/sm2/sm2.go:161-164). -/
def PublicKey.getRawBytes (pub : PublicKey) : Res Bytes := do
  let raw ← pub.getUnCompressBytes
  .ok (raw.drop 1)

/-- `(pri *PrivateKey) GetRawBytes` (/repo/sm2/sm2.go:166-180). -/
def PrivateKey.getRawBytes (pri : PrivateKey) : Res Bytes := do
  let dBytes ← bigIntTo32Bytes pri.D
  let dl := dBytes.length
  if dl > keyBytes then .ok (copyAt (List.replicate keyBytes 0) 0 (dBytes.drop (dl - keyBytes)))
  else if dl < keyBytes then .ok (copyAt (List.replicate keyBytes 0) (keyBytes - dl) dBytes)
  else .ok dBytes

/-- `CalculatePubKey` (/repo/sm2/sm2.go:182-187). -/
def calculatePubKey (priv : PrivateKey) : Res PublicKey := do
  let p ← scalarBaseMult cv (intBytes priv.D)
  .ok ⟨p.1, p.2⟩

/-- `rand.Int` (Go 1.12 crypto/rand/util.go) for `max > 1`: reads as many bytes as `max-1` has, masks the highest one,
rejects values not below `max`. -/
def randInt (max : Int) : Tape → Res (Int × Tape)
  | [] => .loop
  | none :: _ => .err "rand"
  | some bytes :: rest =>
    let bitLen := (max - 1).natAbs.log2 + 1
    let b := if bitLen % 8 = 0 then 8 else bitLen % 8
    let v : Int := beNat (bytes.modify 0 (· &&& BitVec.ofNat 8 (2 ^ b - 1)))
    if v < max then .ok (v, rest) else randInt max rest

/-- `nextK` (/repo/sm2/sm2.go:189-202). -/
def nextK (tape : Tape) (max : Int) : Res (Int × Tape) :=
  forLoop (fun t => do
    let r ← randInt max t
    if r.1 ≥ 1 then .ok (.inr r) else .ok (.inl r.2)) (tape.length + 1) tape

/-- `xor` (/repo/sm2/sm2.go:204-208): `data[i] ^= kdfOut[i]` for `i < dRemaining`. -/
def xor (data kdfOut : Bytes) (dRemaining : Nat) : Res Bytes :=
  if dRemaining ≤ data.length ∧ dRemaining ≤ kdfOut.length then
    .ok (List.zipWith (· ^^^ ·) (data.take dRemaining) kdfOut ++ data.drop dRemaining)
  else .panic

/-- `kdf` (/repo/sm2/sm2.go:221-250): the new contents of `encData`. -/
def kdf (c1x c1y : Int) (encData : Bytes) : Res Bytes := do
  let bufSize := if 4 < Sm3.size then Sm3.size else 4
  let encDataLen := encData.length
  let c1xBytes ← bigIntTo32Bytes c1x
  let c1yBytes ← bigIntTo32Bytes c1y
  forLoop (fun (s : Bytes × Nat × BitVec 32) => do
    let (data, off, ct) := s
    if off < encDataLen then
      let ct := ct + 1
      let tmp ← hashOf [c1xBytes, c1yBytes, put32 ct]
      let buf := tmp.take bufSize
      let xorLen := encDataLen - off
      let xorLen := if xorLen > Sm3.size then Sm3.size else xorLen
      let d ← xor (data.drop off) buf xorLen
      .ok (.inl (data.take off ++ d, off + xorLen, ct))
    else .ok (.inr data)) (encDataLen + 1) (encData, 0, 0)

/-- `notEncrypted` (/repo/sm2/sm2.go:252-260); the two slices have the same length in its only use. -/
def notEncrypted (encData inp : Bytes) : Bool := decide (encData = inp)

/-- The loop of `Encrypt` (/repo/sm2/sm2.go:268-282); the state is the tape and `c2`. -/
def encryptLoop (pub : PublicKey) (inp : Bytes) (tape : Tape) : Res (Bytes × Bytes × (Int × Int)) :=
  forLoop (fun (s : Tape × Bytes) => do
    let r ← nextK s.1 cv.N
    let kBytes := intBytes r.1
    let c1p ← scalarBaseMult cv kBytes
    let c1 ← marshal cv c1p
    let kPB ← scalarMult cv (pub.X, pub.Y) kBytes
    let c2 ← kdf kPB.1 kPB.2 s.2
    if !notEncrypted c2 inp then .ok (.inr (c1, c2, kPB)) else .ok (.inl (r.2, c2))) (tape.length + 1) (tape, inp)

/-- `Encrypt` (/repo/sm2/sm2.go:262-306). -/
def encrypt (pub : PublicKey) (inp : Bytes) (cipherTextType : Int) (tape : Tape) : Res Bytes := do
  let (c1, c2, kPB) ← encryptLoop pub inp tape
  let xb ← bigIntTo32Bytes kPB.1
  let yb ← bigIntTo32Bytes kPB.2
  let c3 ← hashOf [xb, inp, yb]
  let c1Len := c1.length
  let c2Len := c2.length
  let c3Len := c3.length
  let result : Bytes := List.replicate (c1Len + c2Len + c3Len) 0
  if cipherTextType = C1C2C3 then
    .ok (copyAt (copyAt (copyAt result 0 c1) c1Len c2) (c1Len + c2Len) c3)
  else if cipherTextType = C1C3C2 then
    .ok (copyAt (copyAt (copyAt result 0 c1) c1Len c3) (c1Len + c3Len) c2)
  else .err "unknown cipherTextType"

/-- `s[lo:hi]` on a slice whose capacity is its length: panics unless `lo ≤ hi ≤ len(s)`. -/
def slice (s : Bytes) (lo hi : Int) : Res Bytes :=
  if 0 ≤ lo ∧ lo ≤ hi ∧ hi ≤ s.length then .ok ((s.drop lo.toNat).take (hi - lo).toNat) else .panic

/-- `make([]byte, n)`: panics for a negative size. -/
def makeBytes (n : Int) : Res Bytes := if n < 0 then .panic else .ok (List.replicate n.toNat 0)

/-- The `C2` and `C3` parts in `Decrypt` (/repo/sm2/sm2.go:319-332). -/
def splitCipher (c1Len : Int) (inp : Bytes) (cipherTextType : Int) : Res (Bytes × Bytes) := do
  let c3Len : Int := (Sm3.size : Int)
  let c2Len : Int := (inp.length : Int) - c1Len - c3Len
  let c2 ← makeBytes c2Len
  let c3 ← makeBytes c3Len
  if cipherTextType = C1C2C3 then do
    let a ← slice inp c1Len (c1Len + c2Len)
    let b ← slice inp (c1Len + c2Len) inp.length
    .ok (copyAt c2 0 a, copyAt c3 0 b)
  else if cipherTextType = C1C3C2 then do
    let b ← slice inp c1Len (c1Len + c3Len)
    let a ← slice inp (c1Len + c3Len) inp.length
    .ok (copyAt c2 0 a, copyAt c3 0 b)
  else .err "unknown cipherTextType"

/-- The end of `Decrypt` (/repo/sm2/sm2.go:319-346), after the shared point `c1p` is computed. -/
def decryptRest (c1p : Int × Int) (c1Len : Int) (inp : Bytes) (cipherTextType : Int) : Res Bytes := do
  let cc ← splitCipher c1Len inp cipherTextType
  let c2 ← kdf c1p.1 c1p.2 cc.1
  let xb ← bigIntTo32Bytes c1p.1
  let yb ← bigIntTo32Bytes c1p.2
  let newC3 ← hashOf [xb, c2, yb]
  if newC3 = cc.2 then .ok c2 else .err "invalid cipher text"

/-- `Decrypt` (/repo/sm2/sm2.go:308-346). A nil point from `Unmarshal` is dereferenced by `ScalarMult`: panic.
Slice bounds are checked against the length of `in`; Go checks `in[:c1Len]` against its capacity. The outcome is the same
(`Verif.Sm2.Capacity` and theorem `C46_capacity`). -/
def decrypt (priv : PrivateKey) (inp : Bytes) (cipherTextType : Int) : Res Bytes := do
  let c1Len : Int := ((((cv.bitSize + 7) >>> 3) * 2 + 1 : Nat) : Int)
  let c1 ← slice inp 0 c1Len
  match unmarshal cv c1 with
  | none => .panic
  | some c1p => do
    let s ← scalarMult cv c1p (intBytes sm2H)
    if isEcPointInfinity s then .err "[h]C1 at infinity"
    else do
      let c1p ← scalarMult cv c1p (intBytes priv.D)
      decryptRest c1p c1Len inp cipherTextType

/-- `MarshalCipher` (/repo/sm2/sm2.go:348-385). -/
def marshalCipher (inp : Bytes) (cipherTextType : Int) : Res Bytes := do
  let byteLen : Int := (((cv.bitSize + 7) >>> 3 : Nat) : Int)
  let c2Len : Int := (inp.length : Int) - (1 + byteLen * 2) - (Sm3.size : Int)
  let c2 ← makeBytes c2Len
  let c3 ← makeBytes (Sm3.size : Int)
  let pos : Int := 1
  let c1x ← slice inp pos (pos + byteLen)
  let pos := pos + byteLen
  let c1y ← slice inp pos (pos + byteLen)
  let pos := pos + byteLen
  let nc1x : Int := beNat c1x
  let nc1y : Int := beNat c1y
  if cipherTextType = C1C2C3 then do
    let a ← slice inp pos (pos + c2Len)
    let c2 := copyAt c2 0 a
    let pos := pos + c2Len
    let b ← slice inp pos (pos + (Sm3.size : Int))
    let c3 := copyAt c3 0 b
    .ok (Der.marshalSequence (Der.marshalInt nc1x ++ Der.marshalInt nc1y ++ Der.marshalOctets c2 ++ Der.marshalOctets c3))
  else if cipherTextType = C1C3C2 then do
    let b ← slice inp pos (pos + (Sm3.size : Int))
    let c3 := copyAt c3 0 b
    let pos := pos + (Sm3.size : Int)
    let a ← slice inp pos (pos + c2Len)
    let c2 := copyAt c2 0 a
    .ok (Der.marshalSequence (Der.marshalInt nc1x ++ Der.marshalInt nc1y ++ Der.marshalOctets c3 ++ Der.marshalOctets c2))
  else .err "unknown cipherTextType"

/-- `asn1.Unmarshal` into a struct of two integers and two octet strings (`sm2CipherC1C2C3`, `sm2CipherC1C3C2`,
/repo/sm2/sm2.go:62-72); what follows the fields inside the SEQUENCE and what follows the SEQUENCE is ignored. -/
def unmarshalFields (inp : Bytes) : Res (Int × Int × Bytes × Bytes) := do
  let sq ← Der.fieldSequence inp
  let x ← Der.fieldInt sq.1
  let y ← Der.fieldInt x.2
  let a ← Der.fieldOctets y.2
  let b ← Der.fieldOctets a.2
  .ok (x.1, y.1, a.1, b.1)

/-- `UnmarshalCipher` (/repo/sm2/sm2.go:387-439); `first` and `second` are the two octet strings in the order of the
struct, which is also the order of the result. -/
def unmarshalCipher (inp : Bytes) (cipherTextType : Int) : Res Bytes :=
  if cipherTextType = C1C2C3 ∨ cipherTextType = C1C3C2 then do
    let (x, y, first, second) ← unmarshalFields inp
    let c1xBytes ← bigIntTo32Bytes x
    let c1yBytes ← bigIntTo32Bytes y
    let result : Bytes := unCompress :: List.replicate (c1xBytes.length + c1yBytes.length + first.length + second.length) 0
    let result := copyAt result 1 c1xBytes
    let result := copyAt result (1 + c1xBytes.length) c1yBytes
    let result := copyAt result (1 + c1xBytes.length + c1yBytes.length) first
    let result := copyAt result (1 + c1xBytes.length + c1yBytes.length + first.length) second
    .ok result
  else .err "unknown cipherTextType"

/-- The chunks written by `getZ` (/repo/sm2/sm2.go:441-459). `uint16(len(userId) * 8)` wraps. -/
def zChunks (pubX pubY : Int) (userId : Bytes) : Res (List Bytes) := do
  let userIdLen : BitVec 16 := BitVec.ofNat 16 (userId.length * 8)
  let userIdLenBytes : Bytes := toBE 2 userIdLen.toNat
  let a ← bigIntTo32Bytes sm2P256V1.A
  let b ← bigIntTo32Bytes cv.B
  let gx ← bigIntTo32Bytes cv.Gx
  let gy ← bigIntTo32Bytes cv.Gy
  let px ← bigIntTo32Bytes pubX
  let py ← bigIntTo32Bytes pubY
  .ok ([userIdLenBytes] ++ (if userId.length > 0 then [userId] else []) ++ [a, b, gx, gy, px, py])

/-- `getZ` (/repo/sm2/sm2.go:441-459). The order of a panic of `Write` and one of `bigIntTo32Bytes` is not kept. -/
def getZ (pubX pubY : Int) (userId : Bytes) : Res Bytes := do
  let cs ← zChunks pubX pubY userId
  hashOf cs

/-- `calculateE` (/repo/sm2/sm2.go:461-469). -/
def calculateE (pubX pubY : Int) (userId src : Bytes) : Res Int := do
  let z ← getZ pubX pubY userId
  let eHash ← hashOf [z, src]
  .ok (beNat eHash : Int)

/-- `MarshalSign` (/repo/sm2/sm2.go:471-477). -/
def marshalSign (r s : Int) : Res Bytes :=
  .ok (Der.marshalSequence (Der.marshalInt r ++ Der.marshalInt s))

/-- `UnmarshalSign` (/repo/sm2/sm2.go:479-486). -/
def unmarshalSign (sign : Bytes) : Res (Int × Int) := do
  let sq ← Der.fieldSequence sign
  let r ← Der.fieldInt sq.1
  let s ← Der.fieldInt r.2
  .ok (r.1, s.1)

/-- The inner loop of `SignToRS` (/repo/sm2/sm2.go:501-515): the nonce, `r` and the rest of the tape. -/
def signInner (e : Int) (tape : Tape) : Res (Int × Int × Tape) :=
  forLoop (fun t => do
    let kt ← nextK t cv.N
    let px ← scalarBaseMult cv (intBytes kt.1)
    let r := (e + px.1) % cv.N
    let rk := r + kt.1
    if r ≠ 0 ∧ rk ≠ cv.N then .ok (.inr (kt.1, r, kt.2)) else .ok (.inl kt.2)) (tape.length + 1) tape

/-- `SignToRS` (/repo/sm2/sm2.go:488-531); `userId = none` is nil. -/
def signToRS (priv : PrivateKey) (userId : Option Bytes) (inp : Bytes) (tape : Tape) : Res (Int × Int) := do
  let pub ← scalarBaseMult cv (intBytes priv.D)
  let userId := userId.getD defaultUserId
  let e ← calculateE pub.1 pub.2 userId inp
  forLoop (fun t => do
    let (k, r, t') ← signInner e t
    let dPlus1ModN := utilModInverse (priv.D + 1) cv.N
    let s := r * priv.D
    let s := k - s
    let s := s % cv.N
    let s := dPlus1ModN * s
    let s := s % cv.N
    if s ≠ 0 then .ok (.inr (r, s)) else .ok (.inl t')) (tape.length + 1) tape

/-- `Sign` (/repo/sm2/sm2.go:534-541). -/
def sign (priv : PrivateKey) (userId : Option Bytes) (inp : Bytes) (tape : Tape) : Res Bytes := do
  let rs ← signToRS priv userId inp tape
  marshalSign rs.1 rs.2

/-- `VerifyByRS` (/repo/sm2/sm2.go:543-575). -/
def verifyByRS (pub : PublicKey) (userId : Option Bytes) (src : Bytes) (r s : Int) : Res Bool := do
  if r < 1 ∨ r ≥ cv.N then .ok false
  else if s < 1 ∨ s ≥ cv.N then .ok false
  else do
    let userId := userId.getD defaultUserId
    let e ← calculateE pub.X pub.Y userId src
    let t := (r + s) % cv.N
    if t = 0 then .ok false
    else do
      let sg ← scalarBaseMult cv (intBytes s)
      let tp ← scalarMult cv (pub.X, pub.Y) (intBytes t)
      let q ← EC.add cv sg tp
      if isEcPointInfinity q then .ok false
      else .ok (decide ((e + q.1) % cv.N = r))

/-- `Verify` (/repo/sm2/sm2.go:578-585). -/
def verify (pub : PublicKey) (userId : Option Bytes) (src sig : Bytes) : Res Bool :=
  match unmarshalSign sig with
  | .ok rs => verifyByRS pub userId src rs.1 rs.2
  | .err _ => .ok false
  | .panic => .panic
  | .loop => .loop

end Verif.Sm2
