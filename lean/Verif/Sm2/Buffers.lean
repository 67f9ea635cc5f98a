import Verif.Sm2.Exchange
import Verif.Util.Heap
/-!
# The byte buffers of package sm2

The functions of sm2/sm2.go and sm2/keyexchange.go that take or return bytes once more, statement by statement on slices, so that it can be said which memory they read and write. Numbers are values here (their memory is
`Verif.Sm2.Store`); the digest object has memory of its own that no slice shows. `g` gives the spare capacity that the
run-time picks for a new slice of a length.

Simplification: a slice that a library function returns (`Bytes`, `Sum(nil)`, `elliptic.Marshal`, `asn1.Marshal`, an octet
string of `asn1.Unmarshal`) is new memory; so do the sources of these functions say.
-/
namespace Verif.Sm2.Buf
open Verif EC

/-- A program on byte memory: its outcome and, for every outcome, the memory afterwards. -/
def HM (α : Type) := Heap → Res α × Heap

/-- The rest of the program runs when the first part returned a value. -/
instance : Monad HM where
  pure a h := (.ok a, h)
  bind x f h := match x h with
    | (.ok a, h') => f a h'
    | (.err e, h') => (.err e, h')
    | (.panic, h') => (.panic, h')
    | (.loop, h') => (.loop, h')

variable {α : Type}

/-- A computation without memory. -/
def lift (r : Res α) : HM α := fun h => (r, h)

/-- New memory with the bytes `bs` and the spare capacity `k`. -/
def fresh (k : ℕ) (bs : Bytes) : HM Slice := fun h =>
  (.ok ⟨h.length, 0, bs.length, bs.length + k⟩, h ++ [bs ++ List.replicate k 0])

/-- Go `make([]byte, n)`. -/
def make (n : Int) : HM Slice := if n < 0 then lift .panic else fresh 0 (List.replicate n.toNat 0)

/-- Go `s[lo:hi]`. -/
def sub (s : Slice) (lo hi : Int) : HM Slice :=
  if 0 ≤ lo ∧ lo ≤ hi ∧ hi ≤ s.cap then lift (.ok ⟨s.arr, s.off + lo.toNat, (hi - lo).toNat, s.cap - lo.toNat⟩) else lift .panic

/-- All bytes of a slice, as a library function reads them. -/
def read (s : Slice) : HM Bytes := fun h => (.ok (s.get h), h)

/-- `bs` written to the beginning of `s`; the callers have `bs.length ≤ s.len`. -/
def store (s : Slice) (bs : Bytes) : HM Unit := fun h =>
  (.ok (), h.set s.arr (overwrite ((h[s.arr]?).getD []) s.off bs))

/-- Go `copy(dst, src)`. -/
def copy (dst src : Slice) : HM Unit := do
  let bs ← read src
  store dst (bs.take dst.len)

/-- Go `s[i]`. -/
def index (s : Slice) (i : ℕ) : HM Byte := fun h =>
  match (s.get h)[i]? with
  | some b => (.ok b, h)
  | none => (.panic, h)

/-- Go `s[i] = b`. -/
def setIndex (s : Slice) (i : ℕ) (b : Byte) : HM Unit :=
  if i < s.len then store ⟨s.arr, s.off + i, 1, s.cap - i⟩ [b] else lift .panic

/-- `binary.BigEndian.PutUint32(s, v)`: its first statement is `_ = s[3]`. -/
def putUint32 (s : Slice) (v : BitVec 32) : HM Unit := if 3 < s.len then store s (put32 v) else lift .panic

/-- Go `append(s, t...)`. -/
def append (g : ℕ → ℕ) (s t : Slice) : HM Slice := fun h =>
  let (h', r) := goAppend (g (s.len + t.len)) h s (t.get h)
  (.ok r, h')

/-- `digest.Reset()`, `Write` of every chunk, `Sum(nil)`. -/
def hash (g : ℕ → ℕ) (chunks : List Slice) : HM Slice := do
  let bs ← fun h => (.ok (chunks.map (Slice.get h)), h)
  let r ← lift (hashOf bs)
  fresh (g r.length) r

/-- A loop `for { … }`. -/
def forLoop {σ : Type} (body : σ → HM (σ ⊕ α)) : Nat → σ → HM α
  | 0, _ => lift .loop
  | fuel + 1, s => do
    match ← body s with
    | .inl s' => forLoop body fuel s'
    | .inr a => pure a

/-- `bigIntTo32Bytes` (/repo/sm2/sm2.go:211-219). -/
def bigIntTo32Bytes (g : ℕ → ℕ) (bn : Int) : HM Slice := do
  let byteArr ← fresh (g (intBytes bn).length) (intBytes bn)
  if byteArr.len = keyBytes then pure byteArr
  else do
    let z ← make ((keyBytes : Int) - byteArr.len)
    append g z byteArr

/-- `xor` (/repo/sm2/sm2.go:204-208), from index `i` on; the last argument is `dRemaining - i`. -/
def xor (data kdfOut : Slice) : ℕ → ℕ → HM Unit
  | _, 0 => pure ()
  | i, n + 1 => do
    let a ← index data i
    let b ← index kdfOut i
    setIndex data i (a ^^^ b)
    xor data kdfOut (i + 1) n

/-- One pass of the loop of `kdf` (/repo/sm2/sm2.go:233-249); the state is `off` and `ct`. -/
def kdfBody (g : ℕ → ℕ) (buf c1xBytes c1yBytes encData : Slice) (bufSize : ℕ) (s : ℕ × BitVec 32) : HM ((ℕ × BitVec 32) ⊕ Unit) := do
  let off := s.1
  if off < encData.len then do
    let ct := s.2 + 1
    putUint32 buf ct
    let b4 ← sub buf 0 4
    let tmp ← hash g [c1xBytes, c1yBytes, b4]
    let d ← sub buf 0 bufSize
    let t ← sub tmp 0 bufSize
    copy d t
    let xorLen := encData.len - off
    let xorLen := if xorLen > Sm3.size then Sm3.size else xorLen
    let e ← sub encData off encData.len
    xor e buf 0 xorLen
    pure (.inl (off + xorLen, ct))
  else pure (.inr ())

/-- `kdf` (/repo/sm2/sm2.go:221-250): writes to `encData`. -/
def kdf (g : ℕ → ℕ) (c1x c1y : Int) (encData : Slice) : HM Unit := do
  let bufSize := if 4 < Sm3.size then Sm3.size else 4
  let buf ← make bufSize
  let c1xBytes ← bigIntTo32Bytes g c1x
  let c1yBytes ← bigIntTo32Bytes g c1y
  forLoop (kdfBody g buf c1xBytes c1yBytes encData bufSize) (encData.len + 1) (0, 0)

/-- `notEncrypted` (/repo/sm2/sm2.go:252-260), from index `i` on; the last argument is `encDataLen - i`. -/
def notEncrypted (encData inp : Slice) : ℕ → ℕ → HM Bool
  | _, 0 => pure true
  | i, n + 1 => do
    let a ← index encData i
    let b ← index inp i
    if a ≠ b then pure false else notEncrypted encData inp (i + 1) n

/-- One pass of the loop of `Encrypt` (/repo/sm2/sm2.go:268-282). -/
def encryptBody (g : ℕ → ℕ) (pub : PublicKey) (inp c2 : Slice) (tape : Tape) : HM (Tape ⊕ (Slice × (Int × Int))) := do
  let r ← lift (nextK tape cv.N)
  let kBytes ← fresh (g (intBytes r.1).length) (intBytes r.1)
  let kb ← read kBytes
  let c1p ← lift (scalarBaseMult cv kb)
  let c1b ← lift (marshal cv c1p)
  let c1 ← fresh (g c1b.length) c1b
  let kb ← read kBytes
  let kPB ← lift (scalarMult cv (pub.X, pub.Y) kb)
  kdf g kPB.1 kPB.2 c2
  let ne ← notEncrypted c2 inp 0 c2.len
  if !ne then pure (.inr (c1, kPB)) else pure (.inl r.2)

/-- `Encrypt` (/repo/sm2/sm2.go:262-306). -/
def encrypt (g : ℕ → ℕ) (pub : PublicKey) (inp : Slice) (cipherTextType : Int) (tape : Tape) : HM Slice := do
  let c2 ← make inp.len
  copy c2 inp
  let (c1, kPB) ← forLoop (encryptBody g pub inp c2) (tape.length + 1) tape
  let xb ← bigIntTo32Bytes g kPB.1
  let yb ← bigIntTo32Bytes g kPB.2
  let c3 ← hash g [xb, inp, yb]
  let c1Len := c1.len
  let c2Len := c2.len
  let c3Len := c3.len
  let result ← make (c1Len + c2Len + c3Len : ℕ)
  if cipherTextType = C1C2C3 then do
    let d ← sub result 0 c1Len
    copy d c1
    let d ← sub result c1Len (c1Len + c2Len : ℕ)
    copy d c2
    let d ← sub result (c1Len + c2Len : ℕ) result.len
    copy d c3
    pure result
  else if cipherTextType = C1C3C2 then do
    let d ← sub result 0 c1Len
    copy d c1
    let d ← sub result c1Len (c1Len + c3Len : ℕ)
    copy d c3
    let d ← sub result (c1Len + c3Len : ℕ) result.len
    copy d c2
    pure result
  else lift (.err "unknown cipherTextType")

/-- The `C2` and `C3` parts in `Decrypt` (/repo/sm2/sm2.go:319-332). -/
def splitCipher (c1Len : Int) (inp : Slice) (cipherTextType : Int) : HM (Slice × Slice) := do
  let c3Len : Int := (Sm3.size : Int)
  let c2Len : Int := (inp.len : Int) - c1Len - c3Len
  let c2 ← make c2Len
  let c3 ← make c3Len
  if cipherTextType = C1C2C3 then do
    let a ← sub inp c1Len (c1Len + c2Len)
    copy c2 a
    let b ← sub inp (c1Len + c2Len) inp.len
    copy c3 b
    pure (c2, c3)
  else if cipherTextType = C1C3C2 then do
    let b ← sub inp c1Len (c1Len + c3Len)
    copy c3 b
    let a ← sub inp (c1Len + c3Len) inp.len
    copy c2 a
    pure (c2, c3)
  else lift (.err "unknown cipherTextType")

/-- The end of `Decrypt` (/repo/sm2/sm2.go:319-346). -/
def decryptRest (g : ℕ → ℕ) (c1p : Int × Int) (c1Len : Int) (inp : Slice) (cipherTextType : Int) : HM Slice := do
  let (c2, c3) ← splitCipher c1Len inp cipherTextType
  kdf g c1p.1 c1p.2 c2
  let xb ← bigIntTo32Bytes g c1p.1
  let yb ← bigIntTo32Bytes g c1p.2
  let newC3 ← hash g [xb, c2, yb]
  let x ← read newC3
  let y ← read c3
  if x = y then pure c2 else lift (.err "invalid cipher text")

/-- `Decrypt` (/repo/sm2/sm2.go:308-346). -/
def decrypt (g : ℕ → ℕ) (priv : PrivateKey) (inp : Slice) (cipherTextType : Int) : HM Slice := do
  let c1Len : Int := ((((cv.bitSize + 7) >>> 3) * 2 + 1 : Nat) : Int)
  let c1 ← make c1Len
  let s ← sub inp 0 c1Len
  copy c1 s
  let bs ← read c1
  match unmarshal cv bs with
  | none => lift .panic
  | some c1p => do
    let s ← lift (scalarMult cv c1p (intBytes sm2H))
    if isEcPointInfinity s then lift (.err "[h]C1 at infinity")
    else do
      let c1p ← lift (scalarMult cv c1p (intBytes priv.D))
      decryptRest g c1p c1Len inp cipherTextType

/-- `MarshalCipher` (/repo/sm2/sm2.go:348-385). -/
def marshalCipher (g : ℕ → ℕ) (inp : Slice) (cipherTextType : Int) : HM Slice := do
  let byteLen : Int := (((cv.bitSize + 7) >>> 3 : Nat) : Int)
  let c1x ← make byteLen
  let c1y ← make byteLen
  let c2Len : Int := (inp.len : Int) - (1 + byteLen * 2) - (Sm3.size : Int)
  let c2 ← make c2Len
  let c3 ← make (Sm3.size : Int)
  let pos : Int := 1
  let s ← sub inp pos (pos + byteLen)
  copy c1x s
  let pos := pos + byteLen
  let s ← sub inp pos (pos + byteLen)
  copy c1y s
  let pos := pos + byteLen
  let xb ← read c1x
  let yb ← read c1y
  let nc1x : Int := beNat xb
  let nc1y : Int := beNat yb
  if cipherTextType = C1C2C3 then do
    let a ← sub inp pos (pos + c2Len)
    copy c2 a
    let pos := pos + c2Len
    let b ← sub inp pos (pos + (Sm3.size : Int))
    copy c3 b
    let x2 ← read c2
    let x3 ← read c3
    let r := Der.marshalSequence (Der.marshalInt nc1x ++ Der.marshalInt nc1y ++ Der.marshalOctets x2 ++ Der.marshalOctets x3)
    fresh (g r.length) r
  else if cipherTextType = C1C3C2 then do
    let b ← sub inp pos (pos + (Sm3.size : Int))
    copy c3 b
    let pos := pos + (Sm3.size : Int)
    let a ← sub inp pos (pos + c2Len)
    copy c2 a
    let x3 ← read c3
    let x2 ← read c2
    let r := Der.marshalSequence (Der.marshalInt nc1x ++ Der.marshalInt nc1y ++ Der.marshalOctets x3 ++ Der.marshalOctets x2)
    fresh (g r.length) r
  else lift (.err "unknown cipherTextType")

/-- `UnmarshalCipher` (/repo/sm2/sm2.go:387-439); both branches, the octet strings in the order of the struct. -/
def unmarshalCipher (g : ℕ → ℕ) (inp : Slice) (cipherTextType : Int) : HM Slice :=
  if cipherTextType = C1C2C3 ∨ cipherTextType = C1C3C2 then do
    let bs ← read inp
    let f ← lift (unmarshalFields bs)
    let first ← fresh (g f.2.2.1.length) f.2.2.1
    let second ← fresh (g f.2.2.2.length) f.2.2.2
    let c1xBytes ← bigIntTo32Bytes g f.1
    let c1yBytes ← bigIntTo32Bytes g f.2.1
    let result ← make (1 + c1xBytes.len + c1yBytes.len + first.len + second.len : ℕ)
    let pos : ℕ := 0
    setIndex result pos unCompress
    let pos := pos + 1
    let d ← sub result pos (pos + c1xBytes.len : ℕ)
    copy d c1xBytes
    let pos := pos + c1xBytes.len
    let d ← sub result pos (pos + c1yBytes.len : ℕ)
    copy d c1yBytes
    let pos := pos + c1yBytes.len
    let d ← sub result pos (pos + first.len : ℕ)
    copy d first
    let pos := pos + first.len
    let d ← sub result pos (pos + second.len : ℕ)
    copy d second
    pure result
  else lift (.err "unknown cipherTextType")

/-- `GetUnCompressBytes` (/repo/sm2/sm2.go:135-159). -/
def getUnCompressBytes (g : ℕ → ℕ) (pub : PublicKey) : HM Slice := do
  let xBytes ← bigIntTo32Bytes g pub.X
  let yBytes ← bigIntTo32Bytes g pub.Y
  let xl := xBytes.len
  let yl := yBytes.len
  let raw ← make (1 + keyBytes * 2 : ℕ)
  setIndex raw 0 unCompress
  if xl > keyBytes then do
    let d ← sub raw 1 (1 + keyBytes : ℕ)
    let s ← sub xBytes (xl - keyBytes : ℕ) xBytes.len
    copy d s
  else if xl < keyBytes then do
    let d ← sub raw (1 + (keyBytes - xl) : ℕ) (1 + keyBytes : ℕ)
    copy d xBytes
  else do
    let d ← sub raw 1 (1 + keyBytes : ℕ)
    copy d xBytes
  if yl > keyBytes then do
    let d ← sub raw (1 + keyBytes : ℕ) raw.len
    let s ← sub yBytes (yl - keyBytes : ℕ) yBytes.len
    copy d s
  else if yl < keyBytes then do
    let d ← sub raw (1 + keyBytes + (keyBytes - yl) : ℕ) raw.len
    copy d yBytes
  else do
    let d ← sub raw (1 + keyBytes : ℕ) raw.len
    copy d yBytes
  pure raw

/-- `(pub *PublicKey) GetRawBytes` (/repo/sm2/sm2.go:161-164). -/
def getRawBytes (g : ℕ → ℕ) (pub : PublicKey) : HM Slice := do
  let raw ← getUnCompressBytes g pub
  sub raw 1 raw.len

/-- `(pri *PrivateKey) GetRawBytes` (/repo/sm2/sm2.go:166-180). -/
def getRawBytesPriv (g : ℕ → ℕ) (pri : PrivateKey) : HM Slice := do
  let dBytes ← bigIntTo32Bytes g pri.D
  let dl := dBytes.len
  if dl > keyBytes then do
    let raw ← make keyBytes
    let s ← sub dBytes (dl - keyBytes : ℕ) dBytes.len
    copy raw s
    pure raw
  else if dl < keyBytes then do
    let raw ← make keyBytes
    let d ← sub raw (keyBytes - dl : ℕ) raw.len
    copy d dBytes
    pure raw
  else pure dBytes

/-- `getZ` (/repo/sm2/sm2.go:441-459). An empty `userId` is not written. -/
def getZ (g : ℕ → ℕ) (pubX pubY : Int) (userId : Slice) : HM Slice := do
  let userIdLenBytes ← make 2
  store userIdLenBytes (toBE 2 (BitVec.ofNat 16 (userId.len * 8)).toNat)
  let a ← bigIntTo32Bytes g sm2P256V1.A
  let b ← bigIntTo32Bytes g cv.B
  let gx ← bigIntTo32Bytes g cv.Gx
  let gy ← bigIntTo32Bytes g cv.Gy
  let px ← bigIntTo32Bytes g pubX
  let py ← bigIntTo32Bytes g pubY
  hash g (userIdLenBytes :: (if userId.len > 0 then [userId] else []) ++ [a, b, gx, gy, px, py])

/-- `calculateE` (/repo/sm2/sm2.go:461-469). -/
def calculateE (g : ℕ → ℕ) (pubX pubY : Int) (userId src : Slice) : HM Int := do
  let z ← getZ g pubX pubY userId
  let eHash ← hash g [z, src]
  let bs ← read eHash
  pure (beNat bs : Int)

/-- `kdfForExch` (/repo/sm2/keyexchange.go:58-73), one pass of its loop; the state is `off` and `ct`. -/
def kdfForExchBody (g : ℕ → ℕ) (buf rv uxBytes uyBytes za zb : Slice) (bufSize : ℕ) (s : ℕ × BitVec 32) :
    HM ((ℕ × BitVec 32) ⊕ Unit) := do
  let off := s.1
  if off < rv.len then do
    let ct := s.2 + 1
    putUint32 buf ct
    let b4 ← sub buf 0 4
    let tmp ← hash g [uxBytes, uyBytes, za, zb, b4]
    let d ← sub buf 0 bufSize
    let t ← sub tmp 0 bufSize
    copy d t
    let copyLen := rv.len - off
    let d ← sub rv off (off + copyLen : ℕ)
    let t ← sub buf 0 copyLen
    copy d t
    pure (.inl (off + copyLen, ct))
  else pure (.inr ())

/-- `kdfForExch` (/repo/sm2/keyexchange.go:45-75). -/
def kdfForExch (g : ℕ → ℕ) (ux uy : Int) (za zb : Slice) (keyBits : Int) : HM Slice := do
  let blockSize : ℕ := 16
  let bufSize := if 4 < blockSize then blockSize else 4
  let buf ← make bufSize
  let rv ← make (Int.tdiv (keyBits + 7) 8)
  let uxBytes ← fresh (g (intBytes ux).length) (intBytes ux)
  let uyBytes ← fresh (g (intBytes uy).length) (intBytes uy)
  forLoop (kdfForExchBody g buf rv uxBytes uyBytes za zb bufSize) (rv.len + 2) (0, 0)
  pure rv

/-- `SignToRS` (/repo/sm2/sm2.go:488-531); `dflt` is `sm2SignDefaultUserId`. -/
def signToRS (g : ℕ → ℕ) (dflt : Slice) (priv : PrivateKey) (userId : Option Slice) (inp : Slice) (tape : Tape) : HM (Int × Int) := do
  let pub ← lift (scalarBaseMult cv (intBytes priv.D))
  let e ← calculateE g pub.1 pub.2 (userId.getD dflt) inp
  lift (Sm2.forLoop (fun t => do
    let (k, r, t') ← signInner e t
    let dPlus1ModN := utilModInverse (priv.D + 1) cv.N
    let s := r * priv.D
    let s := k - s
    let s := s % cv.N
    let s := dPlus1ModN * s
    let s := s % cv.N
    if s ≠ 0 then .ok (.inr (r, s)) else .ok (.inl t')) (tape.length + 1) tape)

/-- `Sign` (/repo/sm2/sm2.go:534-541). -/
def sign (g : ℕ → ℕ) (dflt : Slice) (priv : PrivateKey) (userId : Option Slice) (inp : Slice) (tape : Tape) : HM Slice := do
  let rs ← signToRS g dflt priv userId inp tape
  let r ← lift (marshalSign rs.1 rs.2)
  fresh (g r.length) r

/-- `VerifyByRS` (/repo/sm2/sm2.go:543-575). -/
def verifyByRS (g : ℕ → ℕ) (dflt : Slice) (pub : PublicKey) (userId : Option Slice) (src : Slice) (r s : Int) : HM Bool :=
  if r < 1 ∨ r ≥ cv.N then pure false
  else if s < 1 ∨ s ≥ cv.N then pure false
  else do
    let e ← calculateE g pub.X pub.Y (userId.getD dflt) src
    let t := (r + s) % cv.N
    if t = 0 then pure false
    else do
      let sg ← lift (scalarBaseMult cv (intBytes s))
      let tp ← lift (scalarMult cv (pub.X, pub.Y) (intBytes t))
      let q ← lift (EC.add cv sg tp)
      if isEcPointInfinity q then pure false
      else pure (decide ((e + q.1) % cv.N = r))

/-- `Verify` (/repo/sm2/sm2.go:578-585). -/
def verify (g : ℕ → ℕ) (dflt : Slice) (pub : PublicKey) (userId : Option Slice) (src sig : Slice) : HM Bool := do
  let bs ← read sig
  match unmarshalSign bs with
  | .ok rs => verifyByRS g dflt pub userId src rs.1 rs.2
  | .err _ => pure false
  | .panic => lift .panic
  | .loop => lift .loop

/-- `calculateInnerHash` (/repo/sm2/keyexchange.go:77-87). -/
def calculateInnerHash (g : ℕ → ℕ) (ux : Int) (za zb : Slice) (p1x p1y p2x p2y : Int) : HM Slice := do
  let u ← fresh (g (intBytes ux).length) (intBytes ux)
  let x1 ← fresh (g (intBytes p1x).length) (intBytes p1x)
  let y1 ← fresh (g (intBytes p1y).length) (intBytes p1y)
  let x2 ← fresh (g (intBytes p2x).length) (intBytes p2x)
  let y2 ← fresh (g (intBytes p2y).length) (intBytes p2y)
  hash g [u, za, zb, x1, y1, x2, y2]

/-- `s1` and `s2` (/repo/sm2/keyexchange.go:89-103), which differ in the first byte. -/
def tag (g : ℕ → ℕ) (first : Byte) (uy : Int) (innerHash : Slice) : HM Slice := do
  let b ← fresh 0 [first]
  let u ← fresh (g (intBytes uy).length) (intBytes uy)
  hash g [b, u, innerHash]

/-- `ExchangeResult` (/repo/sm2/keyexchange.go:13-17); `none` is nil. -/
structure Exchanged where
  Key : Slice
  S1 : Option Slice
  S2 : Slice

/-- A nil id is replaced by `make([]byte, 0)` (/repo/sm2/keyexchange.go:108-113). -/
def orEmpty : Option Slice → HM Slice
  | some s => pure s
  | none => make 0

/-- The bytes of a slice that can be nil. -/
def readOr : Option Slice → HM Bytes
  | some s => read s
  | none => pure []

/-- The part of `CalculateKeyWithConfirmation` for the initiator (/repo/sm2/keyexchange.go:127-135). -/
def initiatorPart (g : ℕ → ℕ) (keyBits : Int) (confirmationTag : Option Slice) (u : Int × Int) (za zb : Slice) (self other : PublicKey) :
    HM Exchanged := do
  let rv ← kdfForExch g u.1 u.2 za zb keyBits
  let innerHash ← calculateInnerHash g u.1 za zb self.X self.Y other.X other.Y
  let t1 ← tag g 0x02 u.2 innerHash
  let x ← read t1
  let y ← readOr confirmationTag
  if x ≠ y then lift (.err "confirmation tag mismatch")
  else do
    let t2 ← tag g 0x03 u.2 innerHash
    pure ⟨rv, none, t2⟩

/-- The part of `CalculateKeyWithConfirmation` for the responder (/repo/sm2/keyexchange.go:137-142). -/
def responderPart (g : ℕ → ℕ) (keyBits : Int) (u : Int × Int) (za zb : Slice) (self other : PublicKey) : HM Exchanged := do
  let rv ← kdfForExch g u.1 u.2 zb za keyBits
  let innerHash ← calculateInnerHash g u.1 zb za other.X other.Y self.X self.Y
  let t1 ← tag g 0x02 u.2 innerHash
  let t2 ← tag g 0x03 u.2 innerHash
  pure ⟨rv, some t1, t2⟩

/-- `CalculateKeyWithConfirmation` (/repo/sm2/keyexchange.go:105-144). -/
def calculateKeyWithConfirmation (g : ℕ → ℕ) (initiator : Bool) (keyBits : Int) (confirmationTag : Option Slice)
    (selfStaticPriv selfEphemeralPriv : PrivateKey) (selfId : Option Slice)
    (otherStaticPub otherEphemeralPub : PublicKey) (otherId : Option Slice) : HM Exchanged := do
  let selfId ← orEmpty selfId
  let otherId ← orEmpty otherId
  if initiator = true ∧ confirmationTag = none then lift (.err "if initiating, confirmationTag must be set")
  else do
    let selfStaticPub ← lift (calculatePubKey selfStaticPriv)
    let za ← getZ g selfStaticPub.X selfStaticPub.Y selfId
    let zb ← getZ g otherStaticPub.X otherStaticPub.Y otherId
    let w := cv.bitSize / 2 - 1
    let selfEphemeralPub ← lift (calculatePubKey selfEphemeralPriv)
    let u ← lift (calculateU w selfStaticPriv selfEphemeralPriv selfEphemeralPub otherStaticPub otherEphemeralPub)
    if initiator then initiatorPart g keyBits confirmationTag u za zb selfEphemeralPub otherEphemeralPub
    else responderPart g keyBits u za zb selfEphemeralPub otherEphemeralPub

end Verif.Sm2.Buf
