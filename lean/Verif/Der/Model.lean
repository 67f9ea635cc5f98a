import Verif.Base.Basic
/-!
# Model of the part of Go 1.12's encoding/asn1 that the repo calls

Transcribed from Go 1.12 src/encoding/asn1 (asn1.go, marshal.go, common.go); this is the standard library's text, not
the repo's, and belongs to the trusted base. An offset into a byte slice is represented by the bytes from the offset
on. Reflection is unfolded by hand: a struct with fields of Go types `*big.Int` and `[]byte` is parsed and marshalled
field by field. Lengths are Go `int`s; they stay below 2^31 when parsed, so `Nat` loses nothing.
-/
namespace Verif.Der
open Verif

/-- `tagAndLength` (common.go). -/
structure TagAndLength where
  cls : Nat
  isCompound : Bool
  tag : Nat
  length : Nat
  deriving DecidableEq, Repr

/-- `parseBase128Int` (asn1.go): at most five bytes, value at most `MaxInt32`. -/
def parseBase128Int : Nat → Nat → Bytes → Res (Nat × Bytes)
  | _, _, [] => .err "truncated base 128 integer"
  | shifted, ret64, b :: rest =>
    if shifted = 5 then .err "base 128 integer too large"
    else
      let ret64 := ret64 * 128 + (b &&& 0x7f).toNat
      if b &&& 0x80 = 0 then
        if ret64 > 0x7fffffff then .err "base 128 integer too large" else .ok (ret64, rest)
      else parseBase128Int (shifted + 1) ret64 rest

/-- The loop over the subsequent length octets in `parseTagAndLength` (asn1.go). -/
def parseLength : Nat → Nat → Bytes → Res (Nat × Bytes)
  | 0, length, bs => .ok (length, bs)
  | _ + 1, _, [] => .err "truncated tag or length"
  | numBytes + 1, length, b :: rest =>
    if length ≥ 2 ^ 23 then .err "length too large"
    else
      let length := length * 256 + b.toNat
      if length = 0 then .err "superfluous leading zeros in length"
      else parseLength numBytes length rest

/-- The tag part of `parseTagAndLength` (asn1.go). -/
def parseTag (b : Byte) (rest : Bytes) : Res (Nat × Bytes) :=
  if (b &&& 0x1f).toNat = 0x1f then do
    let r ← parseBase128Int 0 0 rest
    if r.1 < 0x1f then .err "non-minimal tag" else .ok r
  else .ok ((b &&& 0x1f).toNat, rest)

/-- `parseTagAndLength` (asn1.go). -/
def parseTagAndLength : Bytes → Res (TagAndLength × Bytes)
  | [] => .err "internal error in parseTagAndLength"
  | b :: rest => do
    let r ← parseTag b rest
    match r.2 with
    | [] => .err "truncated tag or length"
    | l :: rest' =>
      if l &&& 0x80 = 0 then
        .ok (⟨(b >>> 6).toNat, b &&& 0x20 = 0x20, r.1, (l &&& 0x7f).toNat⟩, rest')
      else
        let numBytes := (l &&& 0x7f).toNat
        if numBytes = 0 then .err "indefinite length found (not DER)"
        else do
          let s ← parseLength numBytes 0 rest'
          if s.1 < 0x80 then .err "non-minimal length"
          else .ok (⟨(b >>> 6).toNat, b &&& 0x20 = 0x20, r.1, s.1⟩, s.2)

/-- `parseField` (asn1.go) for a mandatory field with expected class, tag and form: the contents octets and what
follows. -/
def parseElem (cls tag : Nat) (isCompound : Bool) (bs : Bytes) : Res (Bytes × Bytes) :=
  if bs = [] then .err "sequence truncated"
  else do
    let r ← parseTagAndLength bs
    let t := r.1
    if t.cls ≠ cls ∨ t.tag ≠ tag ∨ t.isCompound ≠ isCompound then .err "tags don't match"
    else if r.2.length < t.length then .err "data truncated"
    else .ok (r.2.take t.length, r.2.drop t.length)

/-- `checkInteger` (asn1.go): minimal two's complement form. -/
def checkInteger : Bytes → Res Unit
  | [] => .err "empty integer"
  | [_] => .ok ()
  | b0 :: b1 :: _ =>
    if (b0 = 0 ∧ b1 &&& 0x80 = 0) ∨ (b0 = 0xff ∧ b1 &&& 0x80 = 0x80) then .err "integer not minimally-encoded"
    else .ok ()

/-- `parseBigInt` (asn1.go). -/
def parseBigInt (bytes : Bytes) : Res Int := do
  checkInteger bytes
  match bytes with
  | [] => .panic
  | b0 :: _ =>
    if b0 &&& 0x80 = 0x80 then .ok (-((beNat (bytes.map fun b => ~~~b) : Int) + 1))
    else .ok (beNat bytes : Int)

/-- `parseField` for a `*big.Int` field. -/
def fieldInt (bs : Bytes) : Res (Int × Bytes) := do
  let r ← parseElem 0 2 false bs
  let v ← parseBigInt r.1
  .ok (v, r.2)

/-- `parseField` for a `[]byte` field. -/
def fieldOctets (bs : Bytes) : Res (Bytes × Bytes) := parseElem 0 4 false bs

/-- `parseField` for a struct: the contents of a SEQUENCE. -/
def fieldSequence (bs : Bytes) : Res (Bytes × Bytes) := parseElem 0 16 true bs

/-- `makeBigInt` (marshal.go): contents octets. -/
def makeBigInt (n : Int) : Bytes :=
  if n < 0 then
    let bytes := (natBytes (-n - 1).toNat).map (· ^^^ 0xff)
    match bytes with
    | [] => [0xff]
    | b0 :: _ => if b0 &&& 0x80 = 0 then 0xff :: bytes else bytes
  else if n = 0 then [0]
  else
    let bytes := natBytes n.toNat
    match bytes with
    | [] => []
    | b0 :: _ => if b0 &&& 0x80 ≠ 0 then 0 :: bytes else bytes

/-- `lengthLength` (marshal.go), the loop `numBytes = 1; for i > 255 { numBytes++; i >>= 8 }`. The fuel (an `int` has
8 bytes) only serves termination. -/
def lengthLength : Nat → Nat → Nat
  | 0, _ => 1
  | fuel + 1, i => if i > 255 then lengthLength fuel (i >>> 8) + 1 else 1

/-- `appendLength` (marshal.go): `n` bytes of `i`, highest first. -/
def appendLength (i : Nat) : Nat → Bytes
  | 0 => []
  | n + 1 => BitVec.ofNat 8 (i >>> (n * 8)) :: appendLength i n

/-- `appendTagAndLength` (marshal.go) for tags below 31, followed by the body. -/
def makeElem (cls tag : Nat) (isCompound : Bool) (body : Bytes) : Bytes :=
  let b : Byte := BitVec.ofNat 8 (cls * 64 + (if isCompound then 32 else 0) + tag)
  let length := body.length
  if length ≥ 128 then
    let l := lengthLength 8 length
    b :: (0x80 ||| BitVec.ofNat 8 l) :: (appendLength length l ++ body)
  else b :: BitVec.ofNat 8 length :: body

/-- A `*big.Int` field, marshalled. -/
def marshalInt (n : Int) : Bytes := makeElem 0 2 false (makeBigInt n)
/-- A `[]byte` field, marshalled. -/
def marshalOctets (bs : Bytes) : Bytes := makeElem 0 4 false bs
/-- A struct, marshalled: the fields' encodings inside a SEQUENCE. -/
def marshalSequence (body : Bytes) : Bytes := makeElem 0 16 true body

end Verif.Der
