import Verif.Base.Basic
/-!
# Model of sm3/sm3.go

Go's fixed arrays are lists whose lengths are part of the proved invariant; every array access of
the code that could be out of range is checked and yields `panic`. `PrintT` (282-301, prints the
constant table) is in `Sm3/Print.lean`.
-/
namespace Verif.Sm3
open Verif

/-- sm3/sm3.go:15-23 `gT`. -/
def gT : List Word :=
  [0x79CC4519, 0xF3988A32, 0xE7311465, 0xCE6228CB, 0x9CC45197, 0x3988A32F, 0x7311465E, 0xE6228CBC,
   0xCC451979, 0x988A32F3, 0x311465E7, 0x6228CBCE, 0xC451979C, 0x88A32F39, 0x11465E73, 0x228CBCE6,
   0x9D8A7A87, 0x3B14F50F, 0x7629EA1E, 0xEC53D43C, 0xD8A7A879, 0xB14F50F3, 0x629EA1E7, 0xC53D43CE,
   0x8A7A879D, 0x14F50F3B, 0x29EA1E76, 0x53D43CEC, 0xA7A879D8, 0x4F50F3B1, 0x9EA1E762, 0x3D43CEC5,
   0x7A879D8A, 0xF50F3B14, 0xEA1E7629, 0xD43CEC53, 0xA879D8A7, 0x50F3B14F, 0xA1E7629E, 0x43CEC53D,
   0x879D8A7A, 0x0F3B14F5, 0x1E7629EA, 0x3CEC53D4, 0x79D8A7A8, 0xF3B14F50, 0xE7629EA1, 0xCEC53D43,
   0x9D8A7A87, 0x3B14F50F, 0x7629EA1E, 0xEC53D43C, 0xD8A7A879, 0xB14F50F3, 0x629EA1E7, 0xC53D43CE,
   0x8A7A879D, 0x14F50F3B, 0x29EA1E76, 0x53D43CEC, 0xA7A879D8, 0x4F50F3B1, 0x9EA1E762, 0x3D43CEC5]

/-- The eight chaining words `v` / registers A..H. -/
structure V8 where
  a : Word
  b : Word
  c : Word
  d : Word
  e : Word
  f : Word
  g : Word
  h : Word
  deriving DecidableEq, Repr

/-- sm3/sm3.go:25-33 `sm3Digest`. `xOff` and `xBufOff` are `int32` in the code; they stay below 16
and 4 (`Abs`), so a `Nat` loses nothing. -/
structure Digest where
  v : V8
  inWords : List Word
  xOff : Nat
  w : List Word
  xBuf : Bytes
  xBufOff : Nat
  byteCount : BitVec 64
  deriving DecidableEq, Repr

/-- `new(sm3Digest)` (sm3/sm3.go:36) or `var d sm3Digest` (276): all zero. -/
def zeroDigest : Digest :=
  ⟨⟨0, 0, 0, 0, 0, 0, 0, 0⟩, List.replicate 16 0, 0, List.replicate 68 0, List.replicate 4 0, 0, 0⟩

/-- sm3/sm3.go:76-83: the initial chaining value. -/
def iv : V8 := ⟨0x7380166F, 0x4914B2B9, 0x172442D7, 0xDA8A0600, 0xA96F30BC, 0x163138AA, 0xE38DEE4D, 0xB0FB0E4E⟩

/-- sm3/sm3.go:60-86 `Reset`. The loops zero every cell of the fixed-size arrays. -/
def reset (d : Digest) : Digest :=
  { v := iv, inWords := d.inWords.map (fun _ => 0), xOff := 0, w := d.w.map (fun _ => 0),
    xBuf := d.xBuf.map (fun _ => 0), xBufOff := 0, byteCount := 0 }

/-- sm3/sm3.go:35-39 `New`. -/
def new : Digest := reset zeroDigest

/-- `(x << k) | (x >> (32 - k))` as written throughout processBlock. -/
def shl (x : Word) (k : Nat) : Word := (x <<< k) ||| (x >>> (32 - k))

/-- sm3/sm3.go:247-251 `p0`. -/
def p0 (x : Word) : Word := x ^^^ rotl x 9 ^^^ rotl x 17
/-- sm3/sm3.go:253-257 `p1`. -/
def p1 (x : Word) : Word := x ^^^ rotl x 15 ^^^ rotl x 23
/-- sm3/sm3.go:259-261 `ff0`. -/
def ff0 (x y z : Word) : Word := x ^^^ y ^^^ z
/-- sm3/sm3.go:263-265 `ff1`. -/
def ff1 (x y z : Word) : Word := (x &&& y) ||| (x &&& z) ||| (y &&& z)
/-- sm3/sm3.go:267-269 `gg0`. -/
def gg0 (x y z : Word) : Word := x ^^^ y ^^^ z
/-- sm3/sm3.go:271-273 `gg1`. -/
def gg1 (x y z : Word) : Word := (x &&& y) ||| ((~~~x) &&& z)

/-- sm3/sm3.go:152-156, one iteration of the message expansion. -/
def expandStep (w : List Word) (j : Nat) : List Word :=
  let r15 := shl (w.getD (j - 3) 0) 15
  let r7 := shl (w.getD (j - 13) 0) 7
  w.set j (p1 (w.getD (j - 16) 0 ^^^ w.getD (j - 9) 0 ^^^ r15) ^^^ r7 ^^^ w.getD (j - 6) 0)

/-- sm3/sm3.go:169-184 (with ff0, gg0) and 188-203 (with ff1, gg1), one iteration. -/
def roundStep (ff gg : Word → Word → Word → Word) (w : List Word) (s : V8) (j : Nat) : V8 :=
  let a12 := shl s.a 12
  let s1 := a12 + s.e + gT.getD j 0
  let SS1 := shl s1 7
  let SS2 := SS1 ^^^ a12
  let Wj := w.getD j 0
  let W1j := Wj ^^^ w.getD (j + 4) 0
  let TT1 := ff s.a s.b s.c + s.d + SS2 + W1j
  let TT2 := gg s.e s.f s.g + s.h + SS1 + Wj
  { d := s.c, c := shl s.b 9, b := s.a, a := TT1, h := s.g, g := shl s.f 19, f := s.e, e := p0 TT2 }

/-- sm3/sm3.go:148-157: fill `w`. -/
@[irreducible] def expand (inWords w : List Word) : List Word :=
  let w := (List.range 16).foldl (fun w j => w.set j (inWords.getD j 0)) w
  (List.range' 16 52).foldl expandStep w

/-- sm3/sm3.go:159-213: the compression of one block. -/
@[irreducible] def compress (v : V8) (w : List Word) : V8 :=
  let s := (List.range 16).foldl (roundStep ff0 gg0 w) v
  let s := (List.range' 16 48).foldl (roundStep ff1 gg1 w) s
  ⟨v.a ^^^ s.a, v.b ^^^ s.b, v.c ^^^ s.c, v.d ^^^ s.d, v.e ^^^ s.e, v.f ^^^ s.f, v.g ^^^ s.g, v.h ^^^ s.h⟩

/-- sm3/sm3.go:147-216 `processBlock`. All its indices are constants or loop variables within the
fixed arrays. -/
def processBlock (d : Digest) : Digest :=
  let w := expand d.inWords d.w
  { d with w := w, v := compress d.v w, xOff := 0 }

/-- `digest.inWords[digest.xOff] = x; digest.xOff++` (sm3/sm3.go:221-222, 231-232, 241-244). -/
def putWord (d : Digest) (x : Word) : Res Digest :=
  if d.xOff < d.inWords.length then .ok { d with inWords := d.inWords.set d.xOff x, xOff := d.xOff + 1 }
  else .panic

/-- sm3/sm3.go:218-227 `processWord(in, inOff)`. `inOff` is an `int32`, and `inOff+4` wraps like one.
`hi` is checked against the length rather than the capacity; `C05_capacity` shows that this makes no difference. -/
def processWord (d : Digest) (inp : Bytes) (inOff : BitVec 32) : Res Digest :=
  let lo := inOff.toInt
  let hi := (inOff + 4).toInt
  if 0 ≤ lo ∧ lo ≤ hi ∧ hi ≤ inp.length then do
    let n := be32 ((inp.drop lo.toNat).take (hi - lo).toNat)
    let d ← putWord d n
    if d.xOff ≥ 16 then .ok (processBlock d) else .ok d
  else .panic

/-- `digest.xBuf[digest.xBufOff] = b; digest.xBufOff++` (sm3/sm3.go:95-96, 112-113). -/
def putByte (d : Digest) (b : Byte) : Res Digest :=
  if d.xBufOff < d.xBuf.length then .ok { d with xBuf := d.xBuf.set d.xBufOff b, xBufOff := d.xBufOff + 1 }
  else .panic

/-- sm3/sm3.go:94-103: fill the byte buffer from `p[i:]` until it holds a word. Returns the new
index; the recursion is on the bytes not yet consumed. -/
def fillLoop (d : Digest) (i : Nat) : Bytes → Res (Digest × Nat)
  | [] => .ok (d, i)
  | b :: rest => do
    let d ← putByte d b
    if d.xBufOff = 4 then do
      let d ← processWord d d.xBuf 0
      .ok ({ d with xBufOff := 0 }, i + 1)
    else fillLoop d (i + 1) rest

/-- sm3/sm3.go:107-109: `cnt` iterations of the word loop from index `i`. -/
def wordLoop (p : Bytes) (d : Digest) (i : Nat) : Nat → Res (Digest × Nat)
  | 0 => .ok (d, i)
  | cnt + 1 => do
    let d ← processWord d p (BitVec.ofNat 32 i)
    wordLoop p d (i + 4) cnt

/-- sm3/sm3.go:111-115: the remaining bytes. -/
def tailLoop (d : Digest) : Bytes → Res Digest
  | [] => .ok d
  | b :: rest => do
    let d ← putByte d b
    tailLoop d rest

/-- sm3/sm3.go:92-104: the part of `Write` before `limit`. -/
def fill (d : Digest) (p : Bytes) : Res (Digest × Nat) :=
  if d.xBufOff ≠ 0 then fillLoop d 0 p else .ok (d, 0)

/-- sm3/sm3.go:88-121 `Write`. `_ = p[0]` panics on an empty slice; `(inLen-i) & ^3` rounds down to
a multiple of 4. The returned count is always `len(p)` and the error nil, so only the state is
returned here. -/
def write (d : Digest) (p : Bytes) : Res Digest :=
  if p = [] then .panic
  else do
    let r ← fill d p
    let r ← wordLoop p r.1 r.2 ((p.length - r.2) / 4)
    let d ← tailLoop r.1 (p.drop r.2)
    .ok { d with byteCount := d.byteCount + BitVec.ofNat 64 p.length }

/-- sm3/sm3.go:128-130: write zero bytes until the byte buffer is empty. The fuel only serves
termination: three iterations always suffice (`flush_ok`), and running out would be a `loop`. -/
def flush (d : Digest) : Nat → Res Digest
  | 0 => if d.xBufOff ≠ 0 then .loop else .ok d
  | fuel + 1 => if d.xBufOff ≠ 0 then do
      let d ← write d [0]
      flush d fuel
    else .ok d

/-- sm3/sm3.go:237-239: zero the words up to index 13. Fuel as in `flush`. -/
def zeroWords (d : Digest) : Nat → Res Digest
  | 0 => if d.xOff < 14 then .loop else .ok d
  | fuel + 1 => if d.xOff < 14 then do
      let d ← putWord d 0
      zeroWords d fuel
    else .ok d

/-- sm3/sm3.go:230-235: with 15 words buffered, complete the block with a zero word. -/
def lengthRoom (d : Digest) : Res Digest :=
  if d.xOff > 14 then do
    let d ← putWord d 0
    .ok (processBlock d)
  else .ok d

/-- sm3/sm3.go:229-245 `processLength`. `bitLength` is an `int64`; `uint32(bitLength >> 32)` keeps bits
32..63 (an arithmetic shift, truncated), `uint32(bitLength)` bits 0..31. -/
def processLength (d : Digest) (bitLength : BitVec 64) : Res Digest := do
  let d ← lengthRoom d
  let d ← zeroWords d 14
  let d ← putWord d ((bitLength.sshiftRight 32).setWidth 32)
  putWord d (bitLength.setWidth 32)

/-- sm3/sm3.go:123-135 `finish`. -/
def finish (d : Digest) : Res Digest := do
  let bitLength := d.byteCount <<< 3
  let d ← write d [128]
  let d ← flush d 4
  let d ← processLength d bitLength
  .ok (processBlock d)

/-- sm3/sm3.go:139-144: the chaining words as 32 bytes. -/
def out (v : V8) : Bytes :=
  put32 v.a ++ put32 v.b ++ put32 v.c ++ put32 v.d ++ put32 v.e ++ put32 v.f ++ put32 v.g ++ put32 v.h

/-- sm3/sm3.go:137-145 `checkSum`: the digest bytes and the state it leaves behind. -/
def checkSum (d : Digest) : Res (Bytes × Digest) := do
  let d ← finish d
  .ok (out d.v, d)

/-- sm3/sm3.go:41-45 method `Sum(b)`. `d1 := digest` copies the pointer, so `checkSum` changes the
object itself. Returns the bytes and the state afterwards. -/
def sumMethod (d : Digest) (b : Bytes) : Res (Bytes × Digest) := do
  let (h, d) ← checkSum d
  .ok (b ++ h, d)

/-- sm3/sm3.go:275-280 function `Sum(data)`. -/
def sum (data : Bytes) : Res Bytes := do
  let d ← write (reset zeroDigest) data
  let (h, _) ← checkSum d
  .ok h

/-- sm3/sm3.go:48-50 `Size`. -/
def size : Nat := 32
/-- sm3/sm3.go:56-58 `BlockSize`: the constant 16 (words), although hash.Hash asks for bytes. -/
def blockSize : Nat := 16

end Verif.Sm3
