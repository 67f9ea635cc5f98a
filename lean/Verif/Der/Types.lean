import Verif.Der.Model
import Verif.CB.Add
import Verif.Cert.Utf8
/-!
# Model of encoding/asn1 for the types that the certificate code marshals

Transcribed from Go 1.12 src/encoding/asn1 (asn1.go, marshal.go); standard library text, part of the trusted base.
Reflection is replaced by a record `Ty α` per Go type: what `getUniversalType` says of it, how `parseField` turns the
contents octets into a value, and how `makeField` encodes a value. `parseField`, `parseSequenceOf` and the tagging part
of `makeField` are then one function each for all types.

Simplifications: field parameters that no struct of the repo uses (application, private, utf8, ia5, printable, numeric,
utc, generalized, omitempty) are left out; tags that are marshalled are below 31; error texts are abbreviated.
-/
namespace Verif.Der
open Verif

/-- `fieldParameters` (common.go), the ones used. -/
structure Params where
  optional : Bool := false
  explicit : Bool := false
  tag : Option Nat := none
  defaultValue : Option Int := none
  set : Bool := false

/-- A Go type as encoding/asn1 treats it. -/
structure Ty (α : Type) where
  /-- `getUniversalType`: `matchAny` holds for `RawValue` only. -/
  matchAny : Bool := false
  /-- `getUniversalType`: the universal tag. -/
  tag : Nat
  /-- `getUniversalType`: whether the encoding is constructed. -/
  compound : Bool
  /-- `time.Time`: both time tags are accepted. -/
  isTime : Bool := false
  /-- The zero value, which an absent optional field keeps. -/
  zero : α
  /-- `setDefaultValue`: `v.SetInt(d)`; only integers have defaults. -/
  ofDefault : Int → α := fun _ => zero
  /-- The value from the element header, the universal tag, the contents octets and the whole element. -/
  body : TagAndLength → Nat → Bytes → Bytes → Res α
  /-- `makeField` for this type. -/
  make : Params → α → Res Bytes

variable {α : Type}

/-- `setDefaultValue` (asn1.go) on a fresh variable: the value of an absent optional field. -/
def Ty.absent (ty : Ty α) (p : Params) : α :=
  match p.defaultValue with
  | some d => ty.ofDefault d
  | none => ty.zero

/-- The end of `parseField` (asn1.go), from `getUniversalType` on. `bs` are the bytes from the field's offset on, `t`
the (inner) header and `rest` the bytes after it. -/
def parseInner (ty : Ty α) (p : Params) (bs : Bytes) (t : TagAndLength) (rest : Bytes) : Res (α × Bytes) :=
  let univ := if ty.isTime = true ∧ t.tag = 24 ∧ t.cls = 0 then 24 else ty.tag
  let univ := if p.set = true then 17 else univ
  let expected : Bool × Nat × Nat :=
    match p.tag with
    | some k => if p.explicit = false then (false, 2, k) else (ty.matchAny, 0, univ)
    | none => (ty.matchAny, 0, univ)
  if (expected.1 = false ∧ (t.cls ≠ expected.2.1 ∨ t.tag ≠ expected.2.2)) ∨ (ty.matchAny = false ∧ t.isCompound ≠ ty.compound) then
    if p.optional = true then .ok (ty.absent p, bs) else .err "tags don't match"
  else if rest.length < t.length then .err "data truncated"
  else do
    let v ← ty.body t univ (rest.take t.length) (bs.take (bs.length - (rest.length - t.length)))
    .ok (v, rest.drop t.length)

/-- `parseField` (asn1.go) for all types but `interface{}`. -/
def parseField (ty : Ty α) (p : Params) (bs : Bytes) : Res (α × Bytes) :=
  if bs = [] then
    if p.optional = true then .ok (ty.absent p, bs) else .err "sequence truncated"
  else do
    let r ← parseTagAndLength bs
    if p.explicit = true then
      if r.2 = [] then .err "explicit tag has no child"
      else if r.1.cls = 2 ∧ p.tag = some r.1.tag ∧ (r.1.length = 0 ∨ r.1.isCompound = true) then
        if ty.matchAny = true then parseInner ty p bs r.1 r.2
        else if r.1.length > 0 then do
          let r' ← parseTagAndLength r.2
          parseInner ty p bs r'.1 r'.2
        else .err "zero length explicit tag was not an asn1.Flag"
      else if p.optional = true then .ok (ty.absent p, bs)
      else .err "explicitly tagged member didn't match"
    else parseInner ty p bs r.1 r.2

/-- `asn1.Unmarshal(b, &v)`: the value and the rest. -/
def unmarshal (ty : Ty α) (bs : Bytes) : Res (α × Bytes) := parseField ty {} bs

/-- `asn1.Marshal(v)`. -/
def marshal (ty : Ty α) (v : α) : Res Bytes := ty.make {} v

/-! ## Marshalling -/

/-- The two conditions of `makeField` (marshal.go) under which an optional field is omitted. -/
def omitted (p : Params) (isZero : Bool) (isDefault : Int → Bool) : Bool :=
  p.optional && (match p.defaultValue with
    | some d => isDefault d
    | none => isZero)

/-- The end of `makeField` (marshal.go): universal, implicit or explicit tag around the body. -/
def wrapTag (p : Params) (tag : Nat) (compound : Bool) (body : Bytes) : Bytes :=
  match p.tag with
  | none => makeElem 0 tag compound body
  | some k => if p.explicit = true then makeElem 2 k true (makeElem 0 tag compound body) else makeElem 2 k compound body

/-- `makeField` (marshal.go) for the types with a universal tag. -/
def makeTagged (p : Params) (tag : Nat) (compound : Bool) (isZero : Bool) (isDefault : Int → Bool) (body : Res Bytes) : Res Bytes :=
  if omitted p isZero isDefault = true then .ok []
  else if p.set = true ∧ tag ≠ 16 then .err "non sequence tagged as set"
  else do
    let b ← body
    .ok (wrapTag p (if p.set = true then 17 else tag) compound b)

/-! ## The types -/

/-- `asn1.RawValue`. -/
structure RawValue where
  cls : Nat := 0
  tag : Nat := 0
  isCompound : Bool := false
  bytes : Bytes := []
  fullBytes : Bytes := []
  deriving DecidableEq, Repr

/-- `RawValue`: `FullBytes` are written as they are if there are any. -/
def tyRaw : Ty RawValue where
  matchAny := true
  tag := 0
  compound := false
  zero := {}
  body t _ inner full := .ok ⟨t.cls, t.tag, t.isCompound, inner, full⟩
  make p v :=
    if omitted p (v = {}) (fun _ => false) = true then .ok []
    else if v.fullBytes.length ≠ 0 then .ok v.fullBytes
    else .ok (makeElem v.cls v.tag v.isCompound v.bytes)

/-- The loop of `parseObjectIdentifier` (asn1.go) over the further components; the fuel only serves termination. -/
def oidLoop : Nat → Bytes → Res (List Nat)
  | _, [] => .ok []
  | 0, _ => .loop
  | fuel + 1, bs => do
    let r ← parseBase128Int 0 0 bs
    let l ← oidLoop fuel r.2
    .ok (r.1 :: l)

/-- `parseObjectIdentifier` (asn1.go). -/
def parseObjectIdentifier (bs : Bytes) : Res (List Nat) :=
  if bs.length = 0 then .err "zero length OBJECT IDENTIFIER"
  else do
    let r ← parseBase128Int 0 0 bs
    let l ← oidLoop bs.length r.2
    if r.1 < 80 then .ok (r.1 / 40 :: r.1 % 40 :: l) else .ok (2 :: (r.1 - 80) :: l)

/-- `base128IntLength` (marshal.go): the loop `for i := n; i > 0; i >>= 7 { l++ }`. An `int64` needs at most 9 rounds. -/
def base128Len : Nat → Nat → Nat
  | 0, _ => 0
  | fuel + 1, i => if i > 0 then base128Len fuel (i >>> 7) + 1 else 0

/-- `appendBase128Int` (marshal.go): `l` septets of `n`, highest first. -/
def base128Bytes (n : Nat) : Nat → Bytes
  | 0 => []
  | i + 1 => ((BitVec.ofNat 8 (n >>> (i * 7)) &&& 0x7f) ||| (if i ≠ 0 then 0x80 else 0)) :: base128Bytes n i

/-- `appendBase128Int` with `base128IntLength` (marshal.go). -/
def makeBase128 (n : Nat) : Bytes := base128Bytes n (if n = 0 then 1 else base128Len 9 n)

/-- `makeObjectIdentifier` and `oidEncoder` (marshal.go). -/
def makeObjectIdentifier : List Nat → Res Bytes
  | a :: b :: tl =>
    if a > 2 ∨ (a < 2 ∧ b ≥ 40) then .err "invalid object identifier"
    else .ok (makeBase128 (a * 40 + b) ++ tl.flatMap makeBase128)
  | _ => .err "invalid object identifier"

/-- `asn1.ObjectIdentifier`. Simplification: components are natural numbers below 2^63 - 80 (Go has `int`). -/
def tyOID : Ty (List Nat) where
  tag := 6
  compound := false
  zero := []
  body _ _ inner _ := parseObjectIdentifier inner
  make p v := makeTagged p 6 false (v = []) (fun _ => false) (makeObjectIdentifier v)

/-- `asn1.BitString`. -/
structure BitString where
  bytes : Bytes := []
  bitLength : Nat := 0
  deriving DecidableEq, Repr

/-- `parseBitString` (asn1.go). -/
def parseBitString (bs : Bytes) : Res BitString :=
  match bs with
  | [] => .err "zero length BIT STRING"
  | pad :: data =>
    if pad.toNat > 7 ∨ (data = [] ∧ pad.toNat > 0) ∨
        ((pad :: data).getLast (by simp)) &&& BitVec.ofNat 8 (2 ^ pad.toNat - 1) ≠ 0 then
      .err "invalid padding bits in BIT STRING"
    else .ok ⟨data, data.length * 8 - pad.toNat⟩

/-- `bitStringEncoder` (marshal.go): contents octets. -/
def makeBitString (b : BitString) : Bytes := BitVec.ofNat 8 ((8 - b.bitLength % 8) % 8) :: b.bytes

/-- `BitString.At` (asn1.go): index out of range panics. -/
def BitString.at (b : BitString) (i : Nat) : Res Nat :=
  if i ≥ b.bitLength then .ok 0
  else
    match b.bytes[i / 8]? with
    | none => .panic
    | some x => .ok ((x >>> (7 - i % 8)).toNat % 2)

/-- The loop of `BitString.RightAlign` (asn1.go) after the first byte; `prev` is the byte before. -/
def rightAlignLoop (shift : Nat) : Byte → Bytes → Bytes
  | _, [] => []
  | prev, b :: bs => ((prev <<< (8 - shift)) ||| (b >>> shift)) :: rightAlignLoop shift b bs

/-- `BitString.RightAlign` (asn1.go). -/
def BitString.rightAlign (b : BitString) : Bytes :=
  let shift := 8 - b.bitLength % 8
  if shift = 8 then b.bytes
  else
    match b.bytes with
    | [] => []
    | x :: xs => (x >>> shift) :: rightAlignLoop shift x xs

/-- `asn1.BitString`. Optional bit strings occur in `tyOptBits` only. -/
def tyBits : Ty BitString where
  tag := 3
  compound := false
  zero := {}
  body _ _ inner _ := parseBitString inner
  make p v := makeTagged p 3 false (v = {}) (fun _ => false) (.ok (makeBitString v))

/-- An optional `asn1.BitString`; `none` is the zero value (nil bytes, length 0), which is omitted. -/
def tyOptBits : Ty (Option BitString) where
  tag := 3
  compound := false
  zero := none
  body _ _ inner _ := do
    let b ← parseBitString inner
    .ok (some b)
  make p v := makeTagged p 3 false (v = none) (fun _ => false) (.ok (makeBitString (v.getD {})))

/-- `parseBool` (asn1.go). -/
def parseBool (bs : Bytes) : Res Bool :=
  match bs with
  | [b] => if b = 0 then .ok false else if b = 0xff then .ok true else .err "invalid boolean"
  | _ => .err "invalid boolean"

/-- Go `bool`. -/
def tyBool : Ty Bool where
  tag := 1
  compound := false
  zero := false
  body _ _ inner _ := parseBool inner
  make p v := makeTagged p 1 false (v = false) (fun _ => false) (.ok [if v then 0xff else 0])

/-- `parseInt64` (asn1.go); the shifts sign-extend. -/
def parseInt64 (bs : Bytes) : Res Int := do
  checkInteger bs
  if bs.length > 8 then .err "integer too large"
  else .ok (intValueOf bs)
where
  /-- `for … { ret <<= 8; ret |= int64(bytes[i]) }; ret <<= 64 - 8*len; ret >>= 64 - 8*len`. -/
  intValueOf (bs : Bytes) : Int := (BitVec.ofNat (8 * bs.length) (beNat bs)).toInt

/-- `makeInt64`, `int64Encoder` (marshal.go): the loops are those of cryptobyte's `addASN1Signed`, which copied them. -/
def makeInt64 (i : Int) : Bytes := CB.signedBytes (BitVec.ofInt 64 i) (CB.signedLen 8 i 1)

/-- Go `int` (64 bits). -/
def tyInt : Ty Int where
  tag := 2
  compound := false
  zero := 0
  ofDefault d := d
  body _ _ inner _ := parseInt64 inner
  make p v := makeTagged p 2 false (v = 0) (fun d => v = d) (.ok (makeInt64 v))

/-- `*big.Int`, never nil here. -/
def tyBig : Ty Int where
  tag := 2
  compound := false
  zero := 0
  body _ _ inner _ := parseBigInt inner
  make p v := makeTagged p 2 false false (fun _ => false) (.ok (makeBigInt v))

/-- `[]byte`; `none` is nil, which differs from the empty slice for an optional field. -/
def tyOptBytes : Ty (Option Bytes) where
  tag := 4
  compound := false
  zero := none
  body _ _ inner _ := .ok (some inner)
  make p v := makeTagged p 4 false (v = none) (fun _ => false) (.ok (v.getD []))

/-- `[]byte` where nil and empty need not be told apart (mandatory fields). -/
def tyBytes : Ty Bytes where
  tag := 4
  compound := false
  zero := []
  body _ _ inner _ := .ok inner
  make p v := makeTagged p 4 false false (fun _ => false) (.ok v)

/-! ### Times -/

/-- `time.Time` by its calendar fields in its own zone and the zone's offset in minutes. Simplification: instants are
not computed; fractions of a second, which encoding/asn1 drops, are not represented. -/
structure Time where
  year : Int
  month : Nat
  day : Nat
  hour : Nat
  min : Nat
  sec : Nat
  offset : Int := 0
  deriving DecidableEq, Repr

/-- A two-digit decimal number. -/
def num2 : Bytes → Option (Nat × Bytes)
  | a :: b :: rest =>
    if 0x30 ≤ a.toNat ∧ a.toNat ≤ 0x39 ∧ 0x30 ≤ b.toNat ∧ b.toNat ≤ 0x39 then
      some ((a.toNat - 0x30) * 10 + (b.toNat - 0x30), rest)
    else none
  | _ => none

/-- The zone of layout `Z0700`, after the check that formatting gives the input again: `Z`, or a sign with hours and
minutes (below 60) that are not both zero. -/
def parseZone (bs : Bytes) : Option Int :=
  if bs = [0x5a] then some 0
  else
    match bs with
    | [] => none
    | s :: rest =>
      match num2 rest with
      | none => none
      | some (hh, rest) =>
        match num2 rest with
        | none => none
        | some (mm, rest) =>
          if rest ≠ [] ∨ mm ≥ 60 ∨ hh * 60 + mm = 0 then none
          else if s = 0x2b then some (hh * 60 + mm : Nat)
          else if s = 0x2d then some (-((hh * 60 + mm : Nat) : Int))
          else none

/-- Leap years (Go time package). -/
def isLeap (year : Nat) : Bool := year % 4 = 0 && (year % 100 ≠ 0 || year % 400 = 0)

/-- `daysIn` (Go time package). -/
def daysIn (month year : Nat) : Nat :=
  if month = 2 then (if isLeap year then 29 else 28)
  else if month = 4 ∨ month = 6 ∨ month = 9 ∨ month = 11 then 30 else 31

/-- `time.Parse` with layout `0102150405Z0700` (or without the seconds) after the year, together with the check that
`Format` gives the input back: months 1-12, days of the month, hours below 24, minutes and seconds below 60. -/
def parseAfterYear (year : Nat) (withSec : Bool) (bs : Bytes) : Option Time :=
  match num2 bs with
  | none => none
  | some (month, bs) =>
    match num2 bs with
    | none => none
    | some (day, bs) =>
      match num2 bs with
      | none => none
      | some (hour, bs) =>
        match num2 bs with
        | none => none
        | some (min, bs) =>
          match (if withSec then num2 bs else some (0, bs)) with
          | none => none
          | some (sec, bs) =>
            match parseZone bs with
            | none => none
            | some offset =>
              if 1 ≤ month ∧ month ≤ 12 ∧ 1 ≤ day ∧ day ≤ daysIn month year ∧ hour < 24 ∧ min < 60 ∧ sec < 60 then
                some ⟨year, month, day, hour, min, sec, offset⟩
              else none

/-- `parseUTCTime` (asn1.go), proved equal to the transcription of `time.Parse` and `Format` in GoTime.lean: layout `0601021504Z0700`, then `060102150405Z0700`. Two-digit years from 69 on are 19xx,
others 20xx (Go time package); years from 2050 on are moved back a century. -/
def parseUTCTime (bs : Bytes) : Res Time :=
  match num2 bs with
  | none => .err "parsing time"
  | some (yy, rest) =>
    let year := if yy ≥ 69 then 1900 + yy else 2000 + yy
    match (match parseAfterYear year false rest with
      | some t => some t
      | none => parseAfterYear year true rest) with
    | none => .err "parsing time"
    | some t => if t.year ≥ 2050 then .ok { t with year := t.year - 100 } else .ok t

/-- `parseGeneralizedTime` (asn1.go): layout `20060102150405Z0700`, proved equal to the transcription in GoTime.lean. -/
def parseGeneralizedTime (bs : Bytes) : Res Time :=
  match num2 bs with
  | none => .err "parsing time"
  | some (cc, bs) =>
    match num2 bs with
    | none => .err "parsing time"
    | some (yy, bs) =>
      match parseAfterYear (cc * 100 + yy) true bs with
      | none => .err "parsing time"
      | some t => .ok t

/-- `appendTwoDigits` (marshal.go). -/
def twoDigits (v : Nat) : Bytes := [BitVec.ofNat 8 (0x30 + v / 10 % 10), BitVec.ofNat 8 (0x30 + v % 10)]

/-- `appendTimeCommon` (marshal.go). -/
def timeCommon (t : Time) : Bytes :=
  twoDigits t.month ++ twoDigits t.day ++ twoDigits t.hour ++ twoDigits t.min ++ twoDigits t.sec ++
  (if t.offset = 0 then [0x5a]
   else (if t.offset > 0 then (0x2b : Byte) else 0x2d) :: (twoDigits (t.offset.natAbs / 60) ++ twoDigits (t.offset.natAbs % 60)))

/-- `outsideUTCRange` (marshal.go). -/
def outsideUTCRange (t : Time) : Bool := t.year < 1950 || t.year ≥ 2050

/-- `appendUTCTime` and `appendGeneralizedTime` (marshal.go). -/
def makeTimeBody (t : Time) : Res Bytes :=
  if outsideUTCRange t then
    if t.year < 0 ∨ t.year > 9999 then .err "cannot represent time as GeneralizedTime"
    else .ok (twoDigits (t.year.toNat / 100) ++ twoDigits (t.year.toNat % 100) ++ timeCommon t)
  else if t.year < 2000 then .ok (twoDigits (t.year.toNat - 1900) ++ timeCommon t)
  else .ok (twoDigits (t.year.toNat - 2000) ++ timeCommon t)

/-- `time.Time`. -/
def tyTime : Ty Time where
  tag := 23
  compound := false
  isTime := true
  zero := ⟨1, 1, 1, 0, 0, 0, 0⟩
  body _ univ inner _ := if univ = 23 then parseUTCTime inner else parseGeneralizedTime inner
  make p v := makeTagged p (if outsideUTCRange v then 24 else 23) false false (fun _ => false) (makeTimeBody v)

/-! ### Slices -/

/-- The tag that `parseSequenceOf` compares: the string types count as PrintableString, both times as UTCTime. -/
def seqTag (tag : Nat) : Nat :=
  if tag = 22 ∨ tag = 27 ∨ tag = 20 ∨ tag = 12 ∨ tag = 18 then 19 else if tag = 24 ∨ tag = 23 then 23 else tag

/-- The counting pass of `parseSequenceOf` (asn1.go); the fuel (the length) only serves termination. -/
def countElems (ty : Ty α) : Nat → Bytes → Res Nat
  | _, [] => .ok 0
  | 0, _ => .loop
  | fuel + 1, bs => do
    let r ← parseTagAndLength bs
    if ty.matchAny = false ∧ (r.1.cls ≠ 0 ∨ r.1.isCompound ≠ ty.compound ∨ seqTag r.1.tag ≠ ty.tag) then .err "sequence tag mismatch"
    else if r.2.length < r.1.length then .err "truncated sequence"
    else do
      let n ← countElems ty fuel (r.2.drop r.1.length)
      .ok (n + 1)

/-- The second pass of `parseSequenceOf` (asn1.go). -/
def parseElems (ty : Ty α) : Nat → Bytes → Res (List α)
  | 0, _ => .ok []
  | n + 1, bs => do
    let r ← parseField ty {} bs
    let l ← parseElems ty n r.2
    .ok (r.1 :: l)

/-- `parseSequenceOf` (asn1.go). -/
def parseSequenceOf (ty : Ty α) (bs : Bytes) : Res (List α) := do
  let n ← countElems ty bs.length bs
  parseElems ty n bs

/-- The fields of a multi-part body, in order (`multiEncoder`, marshal.go). -/
def makeElems (ty : Ty α) : List α → Res Bytes
  | [] => .ok []
  | v :: vs => do
    let a ← ty.make {} v
    let b ← makeElems ty vs
    .ok (a ++ b)

/-- A slice type whose name ends in `SET` has tag 17, other slices 16. nil and empty are not told apart. -/
def tySlice (isSet : Bool) (ty : Ty α) : Ty (List α) where
  tag := if isSet then 17 else 16
  compound := true
  zero := []
  body _ _ inner _ := parseSequenceOf ty inner
  make p v := makeTagged p (if isSet then 17 else 16) true false (fun _ => false) (makeElems ty v)

/-- A slice that may be nil (`none`), for optional fields. -/
def tyOptSlice (ty : Ty α) : Ty (Option (List α)) where
  tag := 16
  compound := true
  zero := none
  body _ _ inner _ := do
    let l ← parseSequenceOf ty inner
    .ok (some l)
  make p v := makeTagged p 16 true (v = none) (fun _ => false) (makeElems ty (v.getD []))

/-! ### interface{} -/

/-- The dynamic values that `parseField` stores in an `interface{}`. Simplification: templates hold no others. -/
inductive AnyVal where
  | nil
  | str (s : Bytes)
  | int (i : Int)
  | bits (b : BitString)
  | oid (o : List Nat)
  | time (t : Time)
  | octets (b : Bytes)
  deriving DecidableEq, Repr

/-- `isPrintable` (asn1.go). -/
def isPrintable (b : Byte) (asterisk ampersand : Bool) : Bool :=
  (0x61 ≤ b && b ≤ 0x7a) || (0x41 ≤ b && b ≤ 0x5a) || (0x30 ≤ b && b ≤ 0x39) || (0x27 ≤ b && b ≤ 0x29) ||
    (0x2b ≤ b && b ≤ 0x2f) || b == 0x20 || b == 0x3a || b == 0x3d || b == 0x3f || (asterisk && b == 0x2a) ||
    (ampersand && b == 0x26)

/-- `parsePrintableString`, `parseNumericString`, `parseIA5String`, `parseT61String`, `parseUTF8String` (asn1.go). -/
def parseString (tag : Nat) (bs : Bytes) : Res Bytes :=
  if tag = 19 then (if bs.all (isPrintable · true true) then .ok bs else .err "PrintableString contains invalid character")
  else if tag = 18 then (if bs.all (fun b => (0x30 ≤ b && b ≤ 0x39) || b == 0x20) then .ok bs else .err "NumericString contains invalid character")
  else if tag = 22 then (if bs.all (fun b => b < 0x80) then .ok bs else .err "IA5String contains invalid character")
  else if tag = 20 then .ok bs
  else (if Utf8.valid bs then .ok bs else .err "invalid UTF-8 string")

/-- The switch on the tag in `parseField` for an `interface{}` (asn1.go). -/
def parseAnyBody (tag : Nat) (inner : Bytes) : Res AnyVal :=
  if tag = 19 ∨ tag = 18 ∨ tag = 22 ∨ tag = 20 ∨ tag = 12 then do let s ← parseString tag inner; .ok (.str s)
  else if tag = 2 then do let i ← parseInt64 inner; .ok (.int i)
  else if tag = 3 then do let b ← parseBitString inner; .ok (.bits b)
  else if tag = 6 then do let o ← parseObjectIdentifier inner; .ok (.oid o)
  else if tag = 23 then do let t ← parseUTCTime inner; .ok (.time t)
  else if tag = 24 then do let t ← parseGeneralizedTime inner; .ok (.time t)
  else if tag = 4 then .ok (.octets inner)
  else .ok .nil

/-- `parseField` for an `interface{}` field (asn1.go). -/
def parseAny (bs : Bytes) : Res (AnyVal × Bytes) :=
  if bs = [] then .err "sequence truncated"
  else do
    let r ← parseTagAndLength bs
    if r.2.length < r.1.length then .err "data truncated"
    else do
      let v ← if r.1.isCompound = false ∧ r.1.cls = 0 then parseAnyBody r.1.tag (r.2.take r.1.length) else .ok .nil
      .ok (v, r.2.drop r.1.length)

/-- `makeField` for a Go string without string type (marshal.go): PrintableString if every rune allows it. -/
def makeString (s : Bytes) : Res Bytes :=
  if (Utf8.runes s).all fun r => r < 0x80 && isPrintable (BitVec.ofNat 8 r) false false then .ok (makeElem 0 19 false s)
  else if Utf8.valid s then .ok (makeElem 0 12 false s)
  else .err "string not valid UTF-8"

/-- `makeField` for an `interface{}` field (marshal.go): the dynamic value's encoding. -/
def makeAny : AnyVal → Res Bytes
  | .nil => .err "cannot marshal nil value"
  | .str s => makeString s
  | .int i => tyInt.make {} i
  | .bits b => tyBits.make {} b
  | .oid o => tyOID.make {} o
  | .time t => tyTime.make {} t
  | .octets b => tyBytes.make {} b

end Verif.Der
