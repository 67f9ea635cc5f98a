import Verif.CB.Read
import Verif.Util.Heap
/-!
# Strings in memory: the readers of /repo/cryptobyte/string.go and asn1.go on slices and variables

`Verif.CB.Str` and `Verif.CB.Read` model the readers on byte lists. Here a `String` or `[]byte` variable holds a slice of
some array, the methods get pointers to variables (which may be the same), and a slice expression may reach up to the
capacity, as in Go. Only the readers that hand out slices are repeated; the others return numbers.

Go variables of type `String` and `[]byte` are numbered; a pointer to one is its number. The program has one heap.
-/
namespace Verif.CB
open Verif

/-- The content of a variable of type `String` or `[]byte`; `none` is the nil slice (/repo/cryptobyte/string.go:22). -/
abbrev StrVar := Option Slice

/-- What a program reads through the slice. -/
def StrVar.get (h : Heap) (s : StrVar) : Str := s.map (·.get h)

/-- Go `len(s)`. -/
def StrVar.len (s : StrVar) : Nat := s.elim 0 (·.len)

/-- Go `s[a:b]`: the upper bound may go up to the capacity (Go specification, "Slice expressions"); the capacity of the
result reaches to the end of that of `s`. A slice of nil is nil. -/
def StrVar.slice (s : StrVar) (a b : Int) : Res StrVar :=
  match s with
  | none => if a = 0 ∧ b = 0 then .ok none else .panic
  | some s =>
    if 0 ≤ a ∧ a ≤ b ∧ b ≤ s.cap then .ok (some ⟨s.arr, s.off + a.toNat, b.toNat - a.toNat, s.cap - a.toNat⟩)
    else .panic

/-- The variables of type `String` and `[]byte`. -/
abbrev Vars := Nat → StrVar

/-- `*p = v`. -/
def Vars.set (m : Vars) (p : Nat) (v : StrVar) : Vars := fun q => if q = p then v else m q

/-- `(*String).read` (/repo/cryptobyte/string.go:26-33). -/
def readV (n : Int) (s : Nat) (m : Vars) : Res (StrVar × Vars) :=
  if ((m s).len : Int) < n then .ok (none, m)
  else do
    let v ← (m s).slice 0 n
    let r ← (m s).slice n (m s).len
    .ok (v, m.set s r)

/-- `(*String).Skip` (/repo/cryptobyte/string.go:36-38). -/
def skipV (n : Int) (s : Nat) (m : Vars) : Res (Bool × Vars) := do
  let (v, m) ← readV n s m
  .ok (v.isSome, m)

/-- `(*String).ReadBytes` (/repo/cryptobyte/string.go:144-151). -/
def readBytesV (n : Int) (s out : Nat) (m : Vars) : Res (Bool × Vars) := do
  let (v, m) ← readV n s m
  match v with
  | none => .ok (false, m)
  | some _ => .ok (true, m.set out v)

/-- `(*String).readLengthPrefixed` (/repo/cryptobyte/string.go:98-119). -/
def readLengthPrefixedV (h : Heap) (lenLen : Nat) (s out : Nat) (m : Vars) : Res (Bool × Vars) := do
  let (lenBytes, m) ← readV lenLen s m
  match lenBytes with
  | none => .ok (false, m)
  | some bs => do
    let length := (bs.get h).foldl (fun (l : Word) b => l <<< 8 ||| b.setWidth 32) 0
    let (v, m) ← readV (length.toNat : Int) s m
    match v with
    | none => .ok (false, m)
    | some _ => .ok (true, m.set out v)

/-- `(*String).CopyBytes` (/repo/cryptobyte/string.go:155-162): result, variables and heap afterwards. Go's `copy` moves the
smaller number of bytes and works as if the source was read completely first (Go specification). -/
def copyBytesV (h : Heap) (out : StrVar) (s : Nat) (m : Vars) : Res (Bool × Vars × Heap) := do
  let (v, m) ← readV out.len s m
  match v with
  | none => .ok (false, m, h)
  | some v =>
    let k := min out.len v.len
    match out with
    | none => .ok (k = 0, m, h)
    | some o => .ok (k = o.len, m, h.set o.arr (overwrite ((h[o.arr]?).getD []) o.off ((v.get h).take k)))

/-- Lines 724-731 of `readASN1` (/repo/cryptobyte/asn1.go:724-731). -/
def takeElementV (length headerLen : Word) (skipHeader : Bool) (s out : Nat) (m : Vars) : Res (Bool × Vars) := do
  if BitVec.ofInt 32 (length.toNat : Int) ≠ length then .ok (false, m)
  else do
    let (ok, m) ← readBytesV (length.toNat : Int) s out m
    if !ok then .ok (false, m)
    else if skipHeader then do
      let (ok, m) ← skipV (headerLen.toNat : Int) out m
      if !ok then .panic          -- "cryptobyte: internal error", line 728
      else .ok (true, m)
    else .ok (true, m)

/-- `(*String).readASN1` (/repo/cryptobyte/asn1.go:662-732): result, what was stored in `*outTag` (lines 677-679), variables
afterwards. -/
def readASN1V (h : Heap) (skipHeader : Bool) (s out : Nat) (m : Vars) : Res (Bool × Option Tag × Vars) :=
  if (m s).len < 2 then .ok (false, none, m)
  else do
    let tag ← ((m s).get h).at 0
    let lenByte ← ((m s).get h).at 1
    if tag &&& 0x1f = 0x1f then .ok (false, none, m)
    else if lenByte &&& 0x80 = 0 then do
      let (ok, m) ← takeElementV (lenByte.setWidth 32 + 2) 2 skipHeader s out m
      .ok (ok, some tag, m)
    else do
      let lenLen : Byte := lenByte &&& 0x7f
      if lenLen = 0 ∨ 4 < lenLen ∨ (m s).len < (2 + lenLen).toNat then .ok (false, some tag, m)
      else do
        let lenBytes ← (m s).slice 2 ((2 + lenLen).toNat : Int)
        let (len32, _) ← readUnsigned lenLen.toNat (lenBytes.get h)
        match len32 with
        | none => .ok (false, some tag, m)
        | some len32 =>
          if len32 < 128 then .ok (false, some tag, m)
          else if len32 >>> ((lenLen - 1) * 8).toNat = 0 then .ok (false, some tag, m)
          else
            let headerLen : Word := 2 + lenLen.setWidth 32
            if headerLen + len32 < len32 then .ok (false, some tag, m)
            else do
              let (ok, m) ← takeElementV (headerLen + len32) headerLen skipHeader s out m
              .ok (ok, some tag, m)

/-- `(*String).ReadASN1` (`skipHeader` true, /repo/cryptobyte/asn1.go:502-508) and `(*String).ReadASN1Element` (false,
515-521). -/
def readTagV (h : Heap) (skipHeader : Bool) (tag : Tag) (s out : Nat) (m : Vars) : Res (Bool × Vars) := do
  let (ok, t, m) ← readASN1V h skipHeader s out m
  .ok (ok && t == some tag, m)

/-- A variable that is local to a function called with pointers to `s` and `out`: another number than theirs. -/
def localOf (s out : Nat) : Nat := s + out + 1

/-- `(*String).ReadASN1BitStringAsBytes` (/repo/cryptobyte/asn1.go:476-488). The local variable `bytes` is `localOf s out`;
what this number held before is put back at the end. -/
def readBitStringAsBytesV (h : Heap) (s out : Nat) (m : Vars) : Res (Bool × Vars) := do
  let l := localOf s out
  let old := m l
  let (ok, m) ← readTagV h true tagBIT_STRING s l m
  let bytes := m l
  let m := m.set l old
  if !ok || bytes.len = 0 then .ok (false, m)
  else do
    let paddingBits ← (bytes.get h).at 0
    if paddingBits ≠ 0 then .ok (false, m)
    else do
      let b ← bytes.slice 1 bytes.len
      .ok (true, m.set out b)

/-- `(*String).ReadOptionalASN1` (/repo/cryptobyte/asn1.go:560-569): result, `*outPresent`, variables afterwards. -/
def readOptionalV (h : Heap) (tag : Tag) (s out : Nat) (m : Vars) : Res (Bool × Bool × Vars) := do
  let present ← peekASN1Tag tag ((m s).get h)
  if present then do
    let (ok, m) ← readTagV h true tag s out m
    .ok (ok, true, m)
  else .ok (true, false, m)

/-- `(*String).ReadOptionalASN1OctetString` (/repo/cryptobyte/asn1.go:624-643). The local variable `child` is `localOf s out`,
`oct` the number after it; what these numbers held before is put back. -/
def readOptionalOctetStringV (h : Heap) (tag : Tag) (s out : Nat) (m : Vars) : Res (Bool × Bool × Vars) := do
  let l := localOf s out
  let old := m l
  let old' := m (l + 1)
  let (ok, present, m) ← readOptionalV h tag s l (m.set l none)
  if !ok then .ok (false, present, m.set l old)
  else if present then do
    let (ok, m) ← readTagV h true tagOCTET_STRING l (l + 1) m
    let oct := m (l + 1)
    let rest := m l
    let m := (m.set l old).set (l + 1) old'
    if !ok || rest.len ≠ 0 then .ok (false, true, m)
    else .ok (true, true, m.set out oct)
  else .ok (true, false, (m.set l old).set out none)

/-- A program that parses: calls of the readers and assignments between its variables. -/
inductive ReadOp where
  | skip (n : Nat) (s : Nat)
  | bytes (n : Nat) (s out : Nat)
  | prefixed (lenLen : Nat) (s out : Nat)
  | any (skipHeader : Bool) (s out : Nat)
  | asn1 (skipHeader : Bool) (tag : Tag) (s out : Nat)
  | bits (s out : Nat)
  | optional (tag : Tag) (s out : Nat)
  | octets (tag : Tag) (s out : Nat)
  | assign (p q : Nat)
  deriving Repr, DecidableEq

/-- The variables after one step, whatever the method reported. -/
def ReadOp.step (h : Heap) : ReadOp → Vars → Res Vars
  | .skip n s, m => do let r ← skipV n s m; .ok r.2
  | .bytes n s out, m => do let r ← readBytesV n s out m; .ok r.2
  | .prefixed k s out, m => do let r ← readLengthPrefixedV h k s out m; .ok r.2
  | .any sk s out, m => do let r ← readASN1V h sk s out m; .ok r.2.2
  | .asn1 sk t s out, m => do let r ← readTagV h sk t s out m; .ok r.2
  | .bits s out, m => do let r ← readBitStringAsBytesV h s out m; .ok r.2
  | .optional t s out, m => do let r ← readOptionalV h t s out m; .ok r.2.2
  | .octets t s out, m => do let r ← readOptionalOctetStringV h t s out m; .ok r.2.2
  | .assign p q, m => .ok (m.set p (m q))

/-- The variables after a program. -/
def runReads (h : Heap) : List ReadOp → Vars → Res Vars
  | [], m => .ok m
  | o :: os, m => do
    let m ← o.step h m
    runReads h os m

end Verif.CB
