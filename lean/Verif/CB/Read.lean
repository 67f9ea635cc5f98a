import Verif.CB.Str
/-!
# Model of the parsing half of /repo/cryptobyte/asn1.go (lines 225-732)

Same conventions as `Verif.CB.Str`. Not modelled: the `reflect` type checks on the output variable
(the caller passes a pointer to an integer type, so the panics of lines 252, 274, 588, 602, 606 and 610
do not arise; each kind of target is a separate definition). `ReadASN1GeneralizedTime` is in Time.lean.
-/
namespace Verif.CB

/-- Go `asn1.Tag` (/repo/cryptobyte/asn1/asn1.go:15). -/
abbrev Tag := Byte

/-- /repo/cryptobyte/asn1/asn1.go:30-46. -/
def tagBOOLEAN : Tag := 1
def tagINTEGER : Tag := 2
def tagBIT_STRING : Tag := 3
def tagOCTET_STRING : Tag := 4
def tagNULL : Tag := 5
def tagOBJECT_IDENTIFIER : Tag := 6
def tagENUM : Tag := 10
/-- `Tag(16 | classConstructed)`, /repo/cryptobyte/asn1/asn1.go:38. -/
def tagSEQUENCE : Tag := 16 ||| 0x20
/-- `Tag(17 | classConstructed)`, /repo/cryptobyte/asn1/asn1.go:39. -/
def tagSET : Tag := 17 ||| 0x20

/-- `Tag.Constructed` (/repo/cryptobyte/asn1/asn1.go:23). -/
def Tag.constructed (t : Tag) : Tag := t ||| 0x20
/-- `Tag.ContextSpecific` (/repo/cryptobyte/asn1/asn1.go:26). -/
def Tag.contextSpecific (t : Tag) : Tag := t ||| 0x80

/-- Lines 724-731 of `readASN1`: take `length` bytes, then drop the header if asked to
(/repo/cryptobyte/asn1.go:724-731). -/
def takeElement (tag : Tag) (length headerLen : Word) (skipHeader : Bool) : Reader (Tag × Str) := fun s => do
  -- uint32(int(length)) != length, line 724
  if BitVec.ofInt 32 (length.toNat : Int) ≠ length then .ok (none, s)
  else do
    let (out, s) ← readBytes (length.toNat : Int) s
    match out with
    | none => .ok (none, s)
    | some out =>
      if skipHeader then do
        let (r, out) ← skip (headerLen.toNat : Int) out
        match r with
        | none => .panic          -- "cryptobyte: internal error", line 728
        | some _ => .ok (some (tag, out), s)
      else .ok (some (tag, out), s)

/-- `(*String).readASN1` (/repo/cryptobyte/asn1.go:662-732). -/
def readASN1 (skipHeader : Bool) : Reader (Tag × Str) := fun s =>
  if s.len < 2 then .ok (none, s)
  else do
    let tag ← s.at 0
    let lenByte ← s.at 1
    if tag &&& 0x1f = 0x1f then .ok (none, s)
    else if lenByte &&& 0x80 = 0 then
      takeElement tag (lenByte.setWidth 32 + 2) 2 skipHeader s
    else do
      let lenLen : Byte := lenByte &&& 0x7f
      if lenLen = 0 ∨ 4 < lenLen ∨ s.len < (2 + lenLen).toNat then .ok (none, s)
      else do
        let lenBytes ← s.slice 2 ((2 + lenLen).toNat : Int)
        let (len32, _) ← readUnsigned lenLen.toNat lenBytes
        match len32 with
        | none => .ok (none, s)
        | some len32 =>
          if len32 < 128 then .ok (none, s)
          else if len32 >>> ((lenLen - 1) * 8).toNat = 0 then .ok (none, s)
          else
            let headerLen : Word := 2 + lenLen.setWidth 32
            if headerLen + len32 < len32 then .ok (none, s)
            else takeElement tag (headerLen + len32) headerLen skipHeader s

/-- `(*String).ReadAnyASN1` (/repo/cryptobyte/asn1.go:528-530). -/
def readAnyASN1 : Reader (Tag × Str) := readASN1 true

/-- `(*String).ReadAnyASN1Element` (/repo/cryptobyte/asn1.go:537-539). -/
def readAnyASN1Element : Reader (Tag × Str) := readASN1 false

/-- `(*String).ReadASN1` (/repo/cryptobyte/asn1.go:502-508). -/
def readASN1Tag (tag : Tag) : Reader Str := fun s => do
  let (r, s) ← readAnyASN1 s
  match r with
  | none => .ok (none, s)
  | some (t, out) => if t ≠ tag then .ok (none, s) else .ok (some out, s)

/-- `(*String).ReadASN1Element` (/repo/cryptobyte/asn1.go:515-521). -/
def readASN1Element (tag : Tag) : Reader Str := fun s => do
  let (r, s) ← readAnyASN1Element s
  match r with
  | none => .ok (none, s)
  | some (t, out) => if t ≠ tag then .ok (none, s) else .ok (some out, s)

/-- `(*String).ReadASN1Bytes` (/repo/cryptobyte/asn1.go:493-495). -/
def readASN1Bytes (tag : Tag) : Reader Str := readASN1Tag tag

/-- `String.PeekASN1Tag` (/repo/cryptobyte/asn1.go:543-548). -/
def peekASN1Tag (tag : Tag) (s : Str) : Res Bool :=
  if s.len = 0 then .ok false
  else do
    let b ← s.at 0
    .ok (b = tag)

/-- `(*String).SkipASN1` (/repo/cryptobyte/asn1.go:551-554). -/
def skipASN1 (tag : Tag) : Reader Unit := fun s => do
  let (r, s) ← readASN1Tag tag s
  .ok (r.map fun _ => (), s)

/-- The boolean switch shared by the boolean reader (/repo/cryptobyte/asn1.go:233-242). -/
def boolOfByte (b : Byte) : Option Bool :=
  if b = 0 then some false else if b = 0xff then some true else none

/-- `(*String).ReadASN1Boolean` (/repo/cryptobyte/asn1.go:227-243). Line 229 asks for the INTEGER tag. -/
def readASN1Boolean : Reader Bool := fun s => do
  let (r, s) ← readASN1Tag tagINTEGER s
  match r with
  | none => .ok (none, s)
  | some bytes =>
    if bytes.len ≠ 1 then .ok (none, s)
    else do
      let b ← bytes.at 0
      .ok (boolOfByte b, s)

/-- `checkASN1Integer` (/repo/cryptobyte/asn1.go:277-290). -/
def checkASN1Integer (bytes : Str) : Res Bool :=
  if bytes.len = 0 then .ok false
  else if bytes.len = 1 then .ok true
  else do
    let b0 ← bytes.at 0
    let b1 ← bytes.at 1
    .ok (!((b0 = 0 && b1 &&& 0x80 = 0) || (b0 = 0xff && b1 &&& 0x80 = 0x80)))

/-- The common first two steps of the integer readers: the content of an element with tag `tag` that
passes `checkASN1Integer` (/repo/cryptobyte/asn1.go:295-298, 315-316, 338-339, 365-367). -/
def readIntegerContent (tag : Tag) : Reader Str := fun s => do
  let (r, s) ← readASN1Tag tag s
  match r with
  | none => .ok (none, s)
  | some bytes => do
    let c ← checkASN1Integer bytes
    if c then .ok (some bytes, s) else .ok (none, s)

/-- The value computed by `readASN1BigInt` from checked content (/repo/cryptobyte/asn1.go:299-310). -/
def bigIntOfContent (bytes : Str) : Res Int := do
  let b0 ← bytes.at 0
  if b0 &&& 0x80 = 0x80 then
    .ok (-((beNat (bytes.bytes.map fun b => ~~~b) : Int) + 1))
  else .ok (beNat bytes.bytes)

/-- `(*String).readASN1BigInt` (/repo/cryptobyte/asn1.go:294-312), i.e. `ReadASN1Integer` on `*big.Int`. -/
def readASN1BigInt : Reader Int := fun s => do
  let (r, s) ← readIntegerContent tagINTEGER s
  match r with
  | none => .ok (none, s)
  | some bytes => do
    let v ← bigIntOfContent bytes
    .ok (some v, s)

/-- `asn1Signed` (/repo/cryptobyte/asn1.go:322-335), started with `*out = 0` as every caller does;
`none` is `return false`. Shift counts `64 - uint8(length)*8` are computed in uint8. -/
def asn1Signed (n : Str) : Option (BitVec 64) :=
  if n.len > 8 then none
  else
    let out := n.bytes.foldl (fun (o : BitVec 64) b => o <<< 8 ||| b.setWidth 64) 0
    let sh := ((64 : Byte) - BitVec.ofNat 8 n.len * 8).toNat
    some ((out <<< sh).sshiftRight sh)

/-- `(*String).readASN1Int64` (/repo/cryptobyte/asn1.go:314-320). -/
def readASN1Int64 : Reader (BitVec 64) := fun s => do
  let (r, s) ← readIntegerContent tagINTEGER s
  match r with
  | none => .ok (none, s)
  | some bytes => .ok (asn1Signed bytes, s)

/-- `asn1Unsigned` (/repo/cryptobyte/asn1.go:345-360), started with `*out = 0`. -/
def asn1Unsigned (n : Str) : Res (Option (BitVec 64)) :=
  if n.len > 9 then .ok none
  else do
    let n0 ← n.at 0
    if n.len = 9 ∧ n0 ≠ 0 then .ok none
    else if n0 &&& 0x80 ≠ 0 then .ok none
    else .ok (some (n.bytes.foldl (fun (o : BitVec 64) b => o <<< 8 ||| b.setWidth 64) 0))

/-- `(*String).readASN1Uint64` (/repo/cryptobyte/asn1.go:337-343). -/
def readASN1Uint64 : Reader (BitVec 64) := fun s => do
  let (r, s) ← readIntegerContent tagINTEGER s
  match r with
  | none => .ok (none, s)
  | some bytes => do
    let v ← asn1Unsigned bytes
    .ok (v, s)

/-- `ReadASN1Integer` on a pointer to a signed integer of `w` bits: `OverflowInt` rejects a value that
changes when truncated to `w` bits and sign-extended (/repo/cryptobyte/asn1.go:255-261, Go reflect). -/
def readASN1IntegerSigned (w : Nat) : Reader (BitVec w) := fun s => do
  let (r, s) ← readASN1Int64 s
  match r with
  | none => .ok (none, s)
  | some i => if (i.setWidth w).signExtend 64 ≠ i then .ok (none, s) else .ok (some (i.setWidth w), s)

/-- `ReadASN1Integer` on a pointer to an unsigned integer of `w` bits
(/repo/cryptobyte/asn1.go:262-268). -/
def readASN1IntegerUnsigned (w : Nat) : Reader (BitVec w) := fun s => do
  let (r, s) ← readASN1Uint64 s
  match r with
  | none => .ok (none, s)
  | some i => if (i.setWidth w).setWidth 64 ≠ i then .ok (none, s) else .ok (some (i.setWidth w), s)

/-- `(*String).ReadASN1Enum` (/repo/cryptobyte/asn1.go:364-375); `int64(int(i)) != i` is constantly
false on 64-bit platforms. -/
def readASN1Enum : Reader (BitVec 64) := fun s => do
  let (r, s) ← readIntegerContent tagENUM s
  match r with
  | none => .ok (none, s)
  | some bytes => .ok (asn1Signed bytes, s)

/-- The loop of `readBase128Int` with `k` iterations left before the `i == 4` test fires
(/repo/cryptobyte/asn1.go:378-391). `ret` stays below 2^28. -/
def base128Loop : Nat → Nat → Reader Nat
  | k, ret, s =>
    if s.len = 0 then .ok (none, s)
    else match k with
      | 0 => .ok (none, s)
      | k + 1 => do
        let (v, s) ← read 1 s
        let b ← v.at 0
        let ret := ret * 128 + (b &&& 0x7f).toNat
        if b &&& 0x80 = 0 then .ok (some ret, s) else base128Loop k ret s

/-- `(*String).readBase128Int` (/repo/cryptobyte/asn1.go:377-392). -/
def readBase128Int : Reader Nat := base128Loop 4 0

/-- The loop of `ReadASN1ObjectIdentifier` (/repo/cryptobyte/asn1.go:422-428): components read so far
in `acc`; writing component `i` panics when `i` is outside the array made on line 404 (`cap`).
`fuel` bounds the iterations; every iteration consumes at least one byte. -/
def oidLoop (cap : Nat) : Nat → List Nat → Str → Res (Option (List Nat))
  | fuel, acc, bytes =>
    if bytes.len = 0 then .ok (some acc)
    else match fuel with
      | 0 => .loop
      | fuel + 1 => do
        let (v, bytes) ← readBase128Int bytes
        match v with
        | none => .ok none
        | some v => if acc.length < cap then oidLoop cap fuel (acc ++ [v]) bytes else .panic

/-- The first two components (/repo/cryptobyte/asn1.go:414-420). -/
def firstComponents (v : Nat) : List Nat := if v < 80 then [v / 40, v % 40] else [2, v - 80]

/-- `(*String).ReadASN1ObjectIdentifier` (/repo/cryptobyte/asn1.go:396-431). -/
def readASN1ObjectIdentifier : Reader (List Nat) := fun s => do
  let (r, s) ← readASN1Tag tagOBJECT_IDENTIFIER s
  match r with
  | none => .ok (none, s)
  | some bytes =>
    if bytes.len = 0 then .ok (none, s)
    else do
      let cap := bytes.len + 1
      let (v, bytes) ← readBase128Int bytes
      match v with
      | none => .ok (none, s)
      | some v =>
        if cap < 2 then .panic
        else do
          let r ← oidLoop cap bytes.len (firstComponents v) bytes
          .ok (r, s)

/-- Go `encoding/asn1.BitString`. -/
structure BitString where
  bytes : Bytes
  bitLength : Int
  deriving Repr, DecidableEq

/-- The checks of lines 460-470 on a bit string's content (/repo/cryptobyte/asn1.go:460-470). -/
def bitStringOfContent (content : Str) : Res (Option BitString) := do
  let paddingBits ← content.at 0
  let bytes ← content.slice 1 content.len
  if paddingBits > 7 then .ok none
  else if bytes.len = 0 then
    if paddingBits ≠ 0 then .ok none else .ok (some ⟨bytes.bytes, (bytes.len : Int) * 8 - paddingBits.toNat⟩)
  else do
    let last ← bytes.at (bytes.len - 1)
    if last &&& ((1 : Byte) <<< paddingBits.toNat - 1) ≠ 0 then .ok none
    else .ok (some ⟨bytes.bytes, (bytes.len : Int) * 8 - paddingBits.toNat⟩)

/-- `(*String).ReadASN1BitString` (/repo/cryptobyte/asn1.go:454-471). -/
def readASN1BitString : Reader BitString := fun s => do
  let (r, s) ← readASN1Tag tagBIT_STRING s
  match r with
  | none => .ok (none, s)
  | some bytes =>
    if bytes.len = 0 then .ok (none, s)
    else do
      let v ← bitStringOfContent bytes
      .ok (v, s)

/-- `(*String).ReadASN1BitStringAsBytes` (/repo/cryptobyte/asn1.go:476-488). -/
def readASN1BitStringAsBytes : Reader Str := fun s => do
  let (r, s) ← readASN1Tag tagBIT_STRING s
  match r with
  | none => .ok (none, s)
  | some bytes =>
    if bytes.len = 0 then .ok (none, s)
    else do
      let paddingBits ← bytes.at 0
      if paddingBits ≠ 0 then .ok (none, s)
      else do
        let out ← bytes.slice 1 bytes.len
        .ok (some out, s)

/-- `(*String).ReadOptionalASN1` (/repo/cryptobyte/asn1.go:560-569). The result is `none` for
`return false`, `some none` when the element is absent, `some (some content)` when present. -/
def readOptionalASN1 (tag : Tag) : Reader (Option Str) := fun s => do
  let present ← peekASN1Tag tag s
  if present then do
    let (r, s) ← readASN1Tag tag s
    match r with
    | none => .ok (none, s)
    | some out => .ok (some (some out), s)
  else .ok (some none, s)

/-- `(*String).SkipOptionalASN1` (/repo/cryptobyte/asn1.go:573-579). -/
def skipOptionalASN1 (tag : Tag) : Reader Unit := fun s => do
  let present ← peekASN1Tag tag s
  if !present then .ok (some (), s)
  else do
    let (r, s) ← readASN1Tag tag s
    .ok (r.map fun _ => (), s)

/-- `(*String).ReadOptionalASN1Integer` (/repo/cryptobyte/asn1.go:586-618); `rd` is `ReadASN1Integer`
at the type of the output variable. -/
def readOptionalASN1Integer {α : Type} (rd : Reader α) (tag : Tag) (defaultValue : α) : Reader α := fun s => do
  let (r, s) ← readOptionalASN1 tag s
  match r with
  | none => .ok (none, s)
  | some none => .ok (some defaultValue, s)
  | some (some i) => do
    let (v, i) ← rd i
    match v with
    | none => .ok (none, s)
    | some v => if i.empty then .ok (some v, s) else .ok (none, s)

/-- `(*String).ReadOptionalASN1OctetString` (/repo/cryptobyte/asn1.go:624-643): content (nil when absent)
and presence flag. -/
def readOptionalASN1OctetString (tag : Tag) : Reader (Str × Bool) := fun s => do
  let (r, s) ← readOptionalASN1 tag s
  match r with
  | none => .ok (none, s)
  | some none => .ok (some (none, false), s)
  | some (some child) => do
    let (oct, child) ← readASN1Tag tagOCTET_STRING child
    match oct with
    | none => .ok (none, s)
    | some oct => if child.empty then .ok (some (oct, true), s) else .ok (none, s)

/-- `(*String).ReadOptionalASN1Boolean` (/repo/cryptobyte/asn1.go:647-660). When the element is present
line 659 reads from `s`, which has already moved past it. -/
def readOptionalASN1Boolean (defaultValue : Bool) : Reader Bool := fun s => do
  let (r, s) ← readOptionalASN1 tagBOOLEAN s
  match r with
  | none => .ok (none, s)
  | some none => .ok (some defaultValue, s)
  | some (some _) => readASN1Boolean s

end Verif.CB
