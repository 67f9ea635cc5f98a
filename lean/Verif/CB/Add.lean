import Verif.CB.Builder
/-!
# Model of the building methods: builder.go:71-95 and asn1.go:19-205

Each method is the program it runs on the builder (`AddASN1GeneralizedTime` is in Time.lean). Not modelled: the
inside of `encoding/asn1.Marshal` used by `MarshalASN1`.
-/
namespace Verif.CB

/-- `AddUint8` (/repo/cryptobyte/builder.go:72-74). -/
def addUint8 (v : Byte) (rest : Prog) : Prog := .add [v] rest
/-- `AddUint16` (/repo/cryptobyte/builder.go:77-79). -/
def addUint16 (v : BitVec 16) (rest : Prog) : Prog := .add [(v >>> 8).setWidth 8, v.setWidth 8] rest
/-- `AddUint24` (/repo/cryptobyte/builder.go:83-85). -/
def addUint24 (v : Word) (rest : Prog) : Prog :=
  .add [(v >>> 16).setWidth 8, (v >>> 8).setWidth 8, v.setWidth 8] rest
/-- `AddUint32` (/repo/cryptobyte/builder.go:88-90). -/
def addUint32 (v : Word) (rest : Prog) : Prog :=
  .add [(v >>> 24).setWidth 8, (v >>> 16).setWidth 8, (v >>> 8).setWidth 8, v.setWidth 8] rest

/-- A loop of `AddUint8`/`add` calls, one byte each. -/
def addEach : Bytes → Prog
  | [] => .nil
  | b :: bs => .add [b] (addEach bs)

/-- The loop `for i := v; i >= 0x80 || i < -0x80; i >>= 8 { length++ }` (/repo/cryptobyte/asn1.go:33-36).
The first argument bounds the iterations; 8 arithmetic shifts by 8 bring an int64 to 0 or -1. -/
def signedLen : Nat → Int → Nat → Nat
  | 0, _, length => length
  | fuel + 1, i, length => if i ≥ 0x80 ∨ i < -0x80 then signedLen fuel (i >>> 8) (length + 1) else length

/-- The bytes written by `for ; length > 0; length-- { i := v >> uint((length-1)*8) & 0xff; … }`
(/repo/cryptobyte/asn1.go:38-41) for a signed `v`. -/
def signedBytes (v : BitVec 64) : Nat → Bytes
  | 0 => []
  | length + 1 => ((v.sshiftRight (length * 8)) &&& 0xff).setWidth 8 :: signedBytes v length

/-- `addASN1Signed` (/repo/cryptobyte/asn1.go:31-43). -/
def addASN1Signed (tag : Tag) (v : BitVec 64) (rest : Prog) : Prog :=
  .asn1 tag (addEach (signedBytes v (signedLen 8 v.toInt 1))) rest

/-- `AddASN1Int64` (/repo/cryptobyte/asn1.go:22-24). -/
def addASN1Int64 (v : BitVec 64) (rest : Prog) : Prog := addASN1Signed tagINTEGER v rest
/-- `AddASN1Enum` (/repo/cryptobyte/asn1.go:27-29). -/
def addASN1Enum (v : BitVec 64) (rest : Prog) : Prog := addASN1Signed tagENUM v rest

/-- The loop `for i := v; i >= 0x80; i >>= 8 { length++ }` (/repo/cryptobyte/asn1.go:48-51). -/
def unsignedLen : Nat → Nat → Nat → Nat
  | 0, _, length => length
  | fuel + 1, i, length => if i ≥ 0x80 then unsignedLen fuel (i >>> 8) (length + 1) else length

/-- The byte loop for an unsigned `v` (/repo/cryptobyte/asn1.go:53-56). Shifting a uint64 by 64 gives 0. -/
def unsignedBytes (v : BitVec 64) : Nat → Bytes
  | 0 => []
  | length + 1 => ((v >>> (length * 8)) &&& 0xff).setWidth 8 :: unsignedBytes v length

/-- `AddASN1Uint64` (/repo/cryptobyte/asn1.go:46-58). -/
def addASN1Uint64 (v : BitVec 64) (rest : Prog) : Prog :=
  .asn1 tagINTEGER (addEach (unsignedBytes v (unsignedLen 8 v.toNat 1))) rest

/-- The continuation of `AddASN1BigInt` (/repo/cryptobyte/asn1.go:66-91). Indexing an empty slice panics. -/
def bigIntBody (n : Int) : Prog :=
  if n < 0 then
    let bytes := (natBytes (-n - 1).toNat).map (· ^^^ 0xff)
    match bytes with
    | [] => .panic
    | b0 :: _ => if b0 &&& 0x80 = 0 then .add [0xff] (.add bytes .nil) else .add bytes .nil
  else if n = 0 then .add [0] .nil
  else
    let bytes := natBytes n.toNat
    match bytes with
    | [] => .panic
    | b0 :: _ => if b0 &&& 0x80 ≠ 0 then .add [0] (.add bytes .nil) else .add bytes .nil

/-- `AddASN1BigInt` (/repo/cryptobyte/asn1.go:61-92). -/
def addASN1BigInt (n : Int) (rest : Prog) : Prog := .asn1 tagINTEGER (bigIntBody n) rest

/-- `AddASN1OctetString` (/repo/cryptobyte/asn1.go:95-99). -/
def addASN1OctetString (bytes : Bytes) (rest : Prog) : Prog := .asn1 tagOCTET_STRING (.add bytes .nil) rest

/-- `AddASN1BitString` (/repo/cryptobyte/asn1.go:116-121). -/
def addASN1BitString (data : Bytes) (rest : Prog) : Prog :=
  .asn1 tagBIT_STRING (addUint8 0 (.add data .nil)) rest

/-- The loop `for i := n; i > 0; i >>= 7 { length++ }` (/repo/cryptobyte/asn1.go:128-130). -/
def base128Len : Nat → Int → Nat → Nat
  | 0, _, length => length
  | fuel + 1, i, length => if i > 0 then base128Len fuel (i >>> 7) (length + 1) else length

/-- The byte loop of `addBase128Int` (/repo/cryptobyte/asn1.go:133-141). -/
def base128Bytes (n : BitVec 64) : Nat → Bytes
  | 0 => []
  | i + 1 =>
    let o : Byte := (n.sshiftRight (i * 7)).setWidth 8 &&& 0x7f
    (if i ≠ 0 then o ||| 0x80 else o) :: base128Bytes n i

/-- `addBase128Int` (/repo/cryptobyte/asn1.go:123-142). -/
def addBase128Int (n : BitVec 64) : Bytes :=
  base128Bytes n (if n = 0 then 1 else base128Len 10 n.toInt 0)

/-- `isValidOID` (/repo/cryptobyte/asn1.go:144-160) on Go `int` components. -/
def isValidOID (oid : List (BitVec 64)) : Bool :=
  match oid with
  | o0 :: o1 :: _ =>
    if o0.toInt > 2 ∨ (o0.toInt ≤ 1 ∧ o1.toInt ≥ 40) then false
    else oid.all fun v => !(v.toInt < 0)
  | _ => false

/-- The message for an invalid object identifier; `%v` prints the components with dots between them
(/repo/cryptobyte/asn1.go:165). -/
def invalidOIDError (oid : List (BitVec 64)) : String :=
  "cryptobyte: invalid OID: " ++ String.intercalate "." (oid.map fun v => toString v.toInt)

/-- The continuation of `AddASN1ObjectIdentifier` (/repo/cryptobyte/asn1.go:163-173); `int64(oid[0])*40 +
int64(oid[1])` wraps. -/
def oidBody (oid : List (BitVec 64)) : Prog :=
  if !isValidOID oid then .setErr false (invalidOIDError oid) .nil
  else
    match oid with
    | o0 :: o1 :: tl => addEach (addBase128Int (o0 * 40 + o1) ++ tl.flatMap addBase128Int)
    | _ => .panic

/-- `AddASN1ObjectIdentifier` (/repo/cryptobyte/asn1.go:162-174). -/
def addASN1ObjectIdentifier (oid : List (BitVec 64)) (rest : Prog) : Prog :=
  .asn1 tagOBJECT_IDENTIFIER (oidBody oid) rest

/-- `AddASN1Boolean` (/repo/cryptobyte/asn1.go:176-184). -/
def addASN1Boolean (v : Bool) (rest : Prog) : Prog :=
  .asn1 tagBOOLEAN (addUint8 (if v then 0xff else 0) .nil) rest

/-- `AddASN1NULL` (/repo/cryptobyte/asn1.go:186-188). -/
def addASN1NULL (rest : Prog) : Prog := .add [tagNULL, 0] rest

/-- `MarshalASN1` (/repo/cryptobyte/asn1.go:192-205), given what `encoding/asn1.Marshal` returned. Nothing happens
to a builder that carries an error. -/
def marshalASN1 (r : Except String Bytes) (rest : Prog) : Prog :=
  match r with
  | .ok bytes => .add bytes rest
  | .error m => .setErr true m rest

end Verif.CB
