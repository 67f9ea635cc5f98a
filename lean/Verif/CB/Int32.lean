import Verif.CB.Read
/-!
# The element reader of /repo/cryptobyte/asn1.go on platforms where `int` has 32 bits

`CB/Read.lean` is about 64-bit platforms. The readers differ where a `uint32` becomes an `int`: `int(length)` and
`int(headerLen)` in `readASN1` (asn1.go:724-728). A slice has less than 2^31 bytes there.
-/
namespace Verif.CB.P32
open Verif Verif.CB

/-- Go `int(w)` for a `uint32` where `int` has 32 bits: the two's complement value. -/
def int (w : Word) : Int := w.toInt

/-- Lines 724-731 of `readASN1`: `uint32(int(length)) != length || !s.ReadBytes(…, int(length))`, then
`out.Skip(int(headerLen))` (/repo/cryptobyte/asn1.go:724-731). -/
def takeElement (tag : Tag) (length headerLen : Word) (skipHeader : Bool) : Reader (Tag × Str) := fun s => do
  if BitVec.ofInt 32 (int length) ≠ length then .ok (none, s)
  else do
    let (out, s) ← readBytes (int length) s
    match out with
    | none => .ok (none, s)
    | some out =>
      if skipHeader then do
        let (r, out) ← skip (int headerLen) out
        match r with
        | none => .panic
        | some _ => .ok (some (tag, out), s)
      else .ok (some (tag, out), s)

/-- `(*String).readASN1` (/repo/cryptobyte/asn1.go:662-732). -/
def readASN1 (skipHeader : Bool) : Reader (Tag × Str) := fun s =>
  if s.len < 2 then .ok (none, s)
  else do
    let tag ← s.at 0
    let lenByte ← s.at 1
    if tag &&& 0x1f = 0x1f then .ok (none, s)
    else if lenByte &&& 0x80 = 0 then
      takeElement tag (lenByte.setWidth 32 + 2) 2 skipHeader s
    else do
      let lenLen : Byte := lenByte &&& 0x7f
      if lenLen = 0 ∨ 4 < lenLen ∨ s.len < (2 + lenLen).toNat then .ok (none, s)
      else do
        let lenBytes ← s.slice 2 ((2 + lenLen).toNat : Int)
        let (len32, _) ← readUnsigned lenLen.toNat lenBytes
        match len32 with
        | none => .ok (none, s)
        | some len32 =>
          if len32 < 128 then .ok (none, s)
          else if len32 >>> ((lenLen - 1) * 8).toNat = 0 then .ok (none, s)
          else
            let headerLen : Word := 2 + lenLen.setWidth 32
            if headerLen + len32 < len32 then .ok (none, s)
            else takeElement tag (headerLen + len32) headerLen skipHeader s

/-- `(*String).ReadAnyASN1` (/repo/cryptobyte/asn1.go:528-530). -/
def readAnyASN1 : Reader (Tag × Str) := readASN1 true

/-- `(*String).ReadASN1` (/repo/cryptobyte/asn1.go:502-508). -/
def readASN1Tag (tag : Tag) : Reader Str := fun s => do
  let (r, s) ← readAnyASN1 s
  match r with
  | none => .ok (none, s)
  | some (t, out) => if t ≠ tag then .ok (none, s) else .ok (some out, s)

/-- `(*String).ReadOptionalASN1` (/repo/cryptobyte/asn1.go:560-569). -/
def readOptionalASN1 (tag : Tag) : Reader (Option Str) := fun s => do
  let present ← peekASN1Tag tag s
  if present then do
    let (r, s) ← readASN1Tag tag s
    match r with
    | none => .ok (none, s)
    | some out => .ok (some (some out), s)
  else .ok (some none, s)

end Verif.CB.P32
