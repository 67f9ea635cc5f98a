import Verif.Base.Basic
/-!
# Model of /repo/cryptobyte/string.go

`cryptobyte.String` is a `[]byte`; `none` is the nil slice (nil-ness is observable: `read` reports
failure with nil, so `Skip(0)` fails on a nil String). A method takes the current String and returns
its result together with the String afterwards; `none` as result is `return false`.

Simplifications: `int` is 64-bit, so lengths never wrap. Slicing past `len` (Go allows up to `cap`) is a
panic here, so "no panic" theorems also exclude over-reads. On `return false` the contents of the
output variable are not tracked here; `CB/StrMemory.lean` has the variables and the memory behind them.
-/
namespace Verif.CB

/-- Go `type String []byte` (/repo/cryptobyte/string.go:22). -/
abbrev Str := Option Bytes

/-- The bytes of a String; a nil String has none. -/
def Str.bytes (s : Str) : Bytes := s.getD []

/-- Go `len(s)`. -/
def Str.len (s : Str) : Nat := s.bytes.length

/-- Go `s[a:b]`: a slice of nil is nil; bounds outside `0 ≤ a ≤ b ≤ len` panic. -/
def Str.slice (s : Str) (a b : Int) : Res Str :=
  if 0 ≤ a ∧ a ≤ b ∧ b ≤ s.len then .ok (s.map fun bs => (bs.take b.toNat).drop a.toNat) else .panic

/-- Go `s[i]`. -/
def Str.at (s : Str) (i : Nat) : Res Byte :=
  match s.bytes[i]? with
  | some b => .ok b
  | none => .panic

/-- A reader: result (`none` = `return false`) and the String afterwards. -/
abbrev Reader (α : Type) := Str → Res (Option α × Str)

/-- `(*String).read` (/repo/cryptobyte/string.go:26-33); the returned slice is nil on failure. -/
def read (n : Int) (s : Str) : Res (Str × Str) :=
  if (s.len : Int) < n then .ok (none, s)
  else do
    let v ← s.slice 0 n
    let s' ← s.slice n s.len
    .ok (v, s')

/-- `(*String).Skip` (/repo/cryptobyte/string.go:36-38). -/
def skip (n : Int) : Reader Unit := fun s => do
  let (v, s) ← read n s
  match v with
  | none => .ok (none, s)
  | some _ => .ok (some (), s)

/-- `(*String).ReadUint8` (/repo/cryptobyte/string.go:42-49). -/
def readUint8 : Reader Byte := fun s => do
  let (v, s) ← read 1 s
  match v with
  | none => .ok (none, s)
  | some _ => do
    let v0 ← v.at 0
    .ok (some v0, s)

/-- `(*String).ReadUint16` (/repo/cryptobyte/string.go:53-60). -/
def readUint16 : Reader (BitVec 16) := fun s => do
  let (v, s) ← read 2 s
  match v with
  | none => .ok (none, s)
  | some _ => do
    let v0 ← v.at 0
    let v1 ← v.at 1
    .ok (some (v0.setWidth 16 <<< 8 ||| v1.setWidth 16), s)

/-- `(*String).ReadUint24` (/repo/cryptobyte/string.go:64-71). -/
def readUint24 : Reader Word := fun s => do
  let (v, s) ← read 3 s
  match v with
  | none => .ok (none, s)
  | some _ => do
    let v0 ← v.at 0
    let v1 ← v.at 1
    let v2 ← v.at 2
    .ok (some (v0.setWidth 32 <<< 16 ||| v1.setWidth 32 <<< 8 ||| v2.setWidth 32), s)

/-- `(*String).ReadUint32` (/repo/cryptobyte/string.go:75-82). -/
def readUint32 : Reader Word := fun s => do
  let (v, s) ← read 4 s
  match v with
  | none => .ok (none, s)
  | some _ => do
    let v0 ← v.at 0
    let v1 ← v.at 1
    let v2 ← v.at 2
    let v3 ← v.at 3
    .ok (some (v0.setWidth 32 <<< 24 ||| v1.setWidth 32 <<< 16 ||| v2.setWidth 32 <<< 8
      ||| v3.setWidth 32), s)

/-- The loop of `readUnsigned` from index `i`, `k` iterations left
(/repo/cryptobyte/string.go:90-93). -/
def unsignedLoop (v : Str) : Nat → Nat → Word → Res Word
  | 0, _, result => .ok result
  | k + 1, i, result => do
    let b ← v.at i
    unsignedLoop v k (i + 1) (result <<< 8 ||| b.setWidth 32)

/-- `(*String).readUnsigned` (/repo/cryptobyte/string.go:84-96). -/
def readUnsigned (length : Nat) : Reader Word := fun s => do
  let (v, s) ← read length s
  match v with
  | none => .ok (none, s)
  | some _ => do
    let result ← unsignedLoop v length 0 0
    .ok (some result, s)

/-- `(*String).readLengthPrefixed` (/repo/cryptobyte/string.go:98-119). The test `int(length) < 0`
(lines 108-112) is constantly false on 64-bit platforms. -/
def readLengthPrefixed (lenLen : Nat) : Reader Str := fun s => do
  let (lenBytes, s) ← read lenLen s
  match lenBytes with
  | none => .ok (none, s)
  | some bs => do
    let length := bs.foldl (fun (l : Word) b => l <<< 8 ||| b.setWidth 32) 0
    let (v, s) ← read (length.toNat : Int) s
    match v with
    | none => .ok (none, s)
    | some _ => .ok (some v, s)

/-- `(*String).ReadUint8LengthPrefixed` (/repo/cryptobyte/string.go:124-126). -/
def readUint8LengthPrefixed : Reader Str := readLengthPrefixed 1
/-- `(*String).ReadUint16LengthPrefixed` (/repo/cryptobyte/string.go:131-133). -/
def readUint16LengthPrefixed : Reader Str := readLengthPrefixed 2
/-- `(*String).ReadUint24LengthPrefixed` (/repo/cryptobyte/string.go:138-140). -/
def readUint24LengthPrefixed : Reader Str := readLengthPrefixed 3

/-- `(*String).ReadBytes` (/repo/cryptobyte/string.go:144-151). -/
def readBytes (n : Int) : Reader Str := fun s => do
  let (v, s) ← read n s
  match v with
  | none => .ok (none, s)
  | some _ => .ok (some v, s)

/-- `(*String).CopyBytes` with an output slice of length `n`
(/repo/cryptobyte/string.go:155-162); `copy` transfers `min n (len v)` bytes. -/
def copyBytes (n : Nat) : Reader Bytes := fun s => do
  let (v, s) ← read n s
  match v with
  | none => .ok (none, s)
  | some bs => if min n bs.length = n then .ok (some (bs.take n), s) else .ok (none, s)

/-- `String.Empty` (/repo/cryptobyte/string.go:165-167). -/
def Str.empty (s : Str) : Bool := s.len = 0

end Verif.CB
