import Verif.Util.Heap
/-!
# Model of sm4/sm4.go
-/
namespace Verif.Sm4
open Verif

/-- sm4/sm4.go:16-49 `sBox`. -/
def sBoxTable : List Byte :=
  [0xd6, 0x90, 0xe9, 0xfe, 0xcc, 0xe1, 0x3d, 0xb7,
   0x16, 0xb6, 0x14, 0xc2, 0x28, 0xfb, 0x2c, 0x05,
   0x2b, 0x67, 0x9a, 0x76, 0x2a, 0xbe, 0x04, 0xc3,
   0xaa, 0x44, 0x13, 0x26, 0x49, 0x86, 0x06, 0x99,
   0x9c, 0x42, 0x50, 0xf4, 0x91, 0xef, 0x98, 0x7a,
   0x33, 0x54, 0x0b, 0x43, 0xed, 0xcf, 0xac, 0x62,
   0xe4, 0xb3, 0x1c, 0xa9, 0xc9, 0x08, 0xe8, 0x95,
   0x80, 0xdf, 0x94, 0xfa, 0x75, 0x8f, 0x3f, 0xa6,
   0x47, 0x07, 0xa7, 0xfc, 0xf3, 0x73, 0x17, 0xba,
   0x83, 0x59, 0x3c, 0x19, 0xe6, 0x85, 0x4f, 0xa8,
   0x68, 0x6b, 0x81, 0xb2, 0x71, 0x64, 0xda, 0x8b,
   0xf8, 0xeb, 0x0f, 0x4b, 0x70, 0x56, 0x9d, 0x35,
   0x1e, 0x24, 0x0e, 0x5e, 0x63, 0x58, 0xd1, 0xa2,
   0x25, 0x22, 0x7c, 0x3b, 0x01, 0x21, 0x78, 0x87,
   0xd4, 0x00, 0x46, 0x57, 0x9f, 0xd3, 0x27, 0x52,
   0x4c, 0x36, 0x02, 0xe7, 0xa0, 0xc4, 0xc8, 0x9e,
   0xea, 0xbf, 0x8a, 0xd2, 0x40, 0xc7, 0x38, 0xb5,
   0xa3, 0xf7, 0xf2, 0xce, 0xf9, 0x61, 0x15, 0xa1,
   0xe0, 0xae, 0x5d, 0xa4, 0x9b, 0x34, 0x1a, 0x55,
   0xad, 0x93, 0x32, 0x30, 0xf5, 0x8c, 0xb1, 0xe3,
   0x1d, 0xf6, 0xe2, 0x2e, 0x82, 0x66, 0xca, 0x60,
   0xc0, 0x29, 0x23, 0xab, 0x0d, 0x53, 0x4e, 0x6f,
   0xd5, 0xdb, 0x37, 0x45, 0xde, 0xfd, 0x8e, 0x2f,
   0x03, 0xff, 0x6a, 0x72, 0x6d, 0x6c, 0x5b, 0x51,
   0x8d, 0x1b, 0xaf, 0x92, 0xbb, 0xdd, 0xbc, 0x7f,
   0x11, 0xd9, 0x5c, 0x41, 0x1f, 0x10, 0x5a, 0xd8,
   0x0a, 0xc1, 0x31, 0x88, 0xa5, 0xcd, 0x7b, 0xbd,
   0x2d, 0x74, 0xd0, 0x12, 0xb8, 0xe5, 0xb4, 0xb0,
   0x89, 0x69, 0x97, 0x4a, 0x0c, 0x96, 0x77, 0x7e,
   0x65, 0xb9, 0xf1, 0x09, 0xc5, 0x6e, 0xc6, 0x84,
   0x18, 0xf0, 0x7d, 0xec, 0x3a, 0xdc, 0x4d, 0x20,
   0x79, 0xee, 0x5f, 0x3e, 0xd7, 0xcb, 0x39, 0x48]

/-- sm4/sm4.go:51-60 `cK`. -/
def cK : List Word :=
  [0x00070e15, 0x1c232a31, 0x383f464d, 0x545b6269,
   0x70777e85, 0x8c939aa1, 0xa8afb6bd, 0xc4cbd2d9,
   0xe0e7eef5, 0xfc030a11, 0x181f262d, 0x343b4249,
   0x50575e65, 0x6c737a81, 0x888f969d, 0xa4abb2b9,
   0xc0c7ced5, 0xdce3eaf1, 0xf8ff060d, 0x141b2229,
   0x30373e45, 0x4c535a61, 0x686f767d, 0x848b9299,
   0xa0a7aeb5, 0xbcc3cad1, 0xd8dfe6ed, 0xf4fb0209,
   0x10171e25, 0x2c333a41, 0x484f565d, 0x646b7279]

/-- sm4/sm4.go:62-64 `fK`. -/
def fK : List Word := [0xa3b1bac6, 0x56aa3350, 0x677d9197, 0xb27022dc]

/-- `sBox[b]`; the table has 256 entries (`sBoxTable_length`), so a byte index is always in range. -/
def sBox (b : Byte) : Byte := sBoxTable.getD b.toNat 0

/-- sm4/sm4.go:138-147 `tau`. -/
def tau (a : Word) : Word := be32 ((put32 a).map sBox)

/-- sm4/sm4.go:149-151 `lAp`. -/
def lAp (b : Word) : Word := b ^^^ rotl b 13 ^^^ rotl b 23

/-- sm4/sm4.go:153-155 `tAp`. -/
def tAp (z : Word) : Word := lAp (tau z)

/-- sm4/sm4.go:190-193 `l`. -/
def l (b : Word) : Word := b ^^^ rotl b 2 ^^^ rotl b 10 ^^^ rotl b 18 ^^^ rotl b 24

/-- sm4/sm4.go:195-197 `t`. -/
def t (z : Word) : Word := l (tau z)

/-- One iteration of the loops in sm4/sm4.go:126-134 with `encRound`/`decRound` (157-167) inlined.
`x` is the five-word ring buffer, `rk` the round-key array. Indices into `x` are taken mod 5 and
`i < 32`, so no index is out of range. -/
def expandStep (forEnc : Bool) (st : List Word × List Word) (i : Nat) : List Word × List Word :=
  let (x, rk) := st
  let x4 := x.getD (i % 5) 0 ^^^
    tAp (x.getD ((i + 1) % 5) 0 ^^^ x.getD ((i + 2) % 5) 0 ^^^ x.getD ((i + 3) % 5) 0 ^^^ cK.getD i 0)
  (x.set ((i + 4) % 5) x4, rk.set (if forEnc then i else 31 - i) x4)

/-- sm4/sm4.go:113-123: the initial ring buffer. -/
def expandInit (key : Bytes) : List Word :=
  let m0 := be32 ((key.drop 0).take 4)
  let m1 := be32 ((key.drop 4).take 4)
  let m2 := be32 ((key.drop 8).take 4)
  let m3 := be32 ((key.drop 12).take 4)
  [m0 ^^^ fK.getD 0 0, m1 ^^^ fK.getD 1 0, m2 ^^^ fK.getD 2 0, m3 ^^^ fK.getD 3 0, 0]

/-- sm4/sm4.go:112-136 `expandKey` on a key of 16 bytes (the callers check the length). -/
@[irreducible] def expandKey (key : Bytes) (forEnc : Bool) : List Word :=
  ((List.range 32).foldl (expandStep forEnc) (expandInit key, List.replicate 32 0)).2

/-- The four-word state `x` of `processBlock`. -/
structure W4 where
  x0 : Word
  x1 : Word
  x2 : Word
  x3 : Word
  deriving DecidableEq, Repr

/-- sm4/sm4.go:208-210 `f0`. -/
def f0 (x : W4) (rk : Word) : Word := x.x0 ^^^ t (x.x1 ^^^ x.x2 ^^^ x.x3 ^^^ rk)
/-- sm4/sm4.go:212-214 `f1`. -/
def f1 (x : W4) (rk : Word) : Word := x.x1 ^^^ t (x.x2 ^^^ x.x3 ^^^ x.x0 ^^^ rk)
/-- sm4/sm4.go:216-218 `f2`. -/
def f2 (x : W4) (rk : Word) : Word := x.x2 ^^^ t (x.x3 ^^^ x.x0 ^^^ x.x1 ^^^ rk)
/-- sm4/sm4.go:220-222 `f3`. -/
def f3 (x : W4) (rk : Word) : Word := x.x3 ^^^ t (x.x0 ^^^ x.x1 ^^^ x.x2 ^^^ rk)

/-- sm4/sm4.go:199-206 `r`: the two pairs are exchanged by xors in place. -/
def r (a : W4) : W4 :=
  let a := { a with x0 := a.x0 ^^^ a.x3 }
  let a := { a with x3 := a.x0 ^^^ a.x3 }
  let a := { a with x0 := a.x0 ^^^ a.x3 }
  let a := { a with x1 := a.x1 ^^^ a.x2 }
  let a := { a with x2 := a.x1 ^^^ a.x2 }
  { a with x1 := a.x1 ^^^ a.x2 }

/-- sm4/sm4.go:177-180, loop body. -/
def fourRounds (rk : List Word) (x : W4) (i : Nat) : W4 :=
  let x := { x with x0 := f0 x (rk.getD i 0) }
  let x := { x with x1 := f1 x (rk.getD (i + 1) 0) }
  let x := { x with x2 := f2 x (rk.getD (i + 2) 0) }
  { x with x3 := f3 x (rk.getD (i + 3) 0) }

/-- sm4/sm4.go:170-174: load the 16 input bytes. -/
def load (inp : Bytes) : W4 :=
  ⟨be32 ((inp.drop 0).take 4), be32 ((inp.drop 4).take 4), be32 ((inp.drop 8).take 4), be32 ((inp.drop 12).take 4)⟩

/-- sm4/sm4.go:176-182: 32 rounds (`i = 0, 4, …, 28`) and the reverse transform. -/
def rounds (rk : List Word) (x : W4) : W4 :=
  r ((List.range 8).foldl (fun x j => fourRounds rk x (4 * j)) x)

/-- sm4/sm4.go:169-188 `processBlock`, as a function of the 16 input bytes. -/
@[irreducible] def processBlock (rk : List Word) (inp : Bytes) : Bytes :=
  let x := rounds rk (load inp)
  put32 x.x0 ++ put32 x.x1 ++ put32 x.x2 ++ put32 x.x3

/-- sm4/sm4.go:169-188 `processBlock` on slices: the input is read completely (171-174) before the
four output words are stored one after the other (184-187). -/
def processBlockH (rk : List Word) (h : Heap) (inp out : Slice) : Heap :=
  let x := rounds rk (load (inp.get h))
  let put (h : Heap) (i : Nat) (w : Word) : Heap :=
    h.set out.arr (overwrite ((h[out.arr]?).getD []) (out.off + i) (put32 w))
  put (put (put (put h 0 x.x0) 4 x.x1) 8 x.x2) 12 x.x3

/-- sm4/sm4.go:72-75 `sm4Cipher`. -/
structure Cipher where
  enc : List Word
  dec : List Word

/-- sm4/sm4.go:66-70 `KeySizeError.Error`; `strconv.Itoa` of a length is its decimal digits. -/
def keySizeError (k : Nat) : String := "sm4: invalid key size " ++ toString k

/-- sm4/sm4.go:77-86 `NewCipher`. -/
def newCipher (key : Bytes) : Res Cipher :=
  if key.length ≠ 16 then .err (keySizeError key.length)
  else .ok ⟨expandKey key true, expandKey key false⟩

/-- sm4/sm4.go:92-100 `Encrypt(dst, src)` on slices. -/
def Cipher.encryptH (c : Cipher) (h : Heap) (dst src : Slice) : Res Heap :=
  if src.len < 16 then .panic
  else if dst.len < 16 then .panic
  else .ok (processBlockH c.enc h src dst)

/-- sm4/sm4.go:102-110 `Decrypt(dst, src)` on slices. -/
def Cipher.decryptH (c : Cipher) (h : Heap) (dst src : Slice) : Res Heap :=
  if src.len < 16 then .panic
  else if dst.len < 16 then .panic
  else .ok (processBlockH c.dec h src dst)

/-- One block through `Encrypt`/`Decrypt` with separate buffers of 16 bytes: round keys `rk`, value
returned in `dst`. -/
def block (rk : List Word) (src : Bytes) : Bytes := processBlock rk src

/-- `for i := 0; i < n; i += 16 { c.Encrypt(out[i:i+16], in[i:i+16]) }` (sm4/sm4.go:237-239 and
256-258), iterations `k, k+1, …` of `k + cnt` in total; every slice bound is in range because the
length is a multiple of 16. -/
def ecbLoop (rk : List Word) (inp : Bytes) : Nat → Nat → Bytes → Bytes
  | 0, _, out => out
  | cnt + 1, k, out =>
    ecbLoop rk inp cnt (k + 1) (overwrite out (16 * k) (block rk ((inp.drop (16 * k)).take 16)))

/-- sm4/sm4.go:226-241 `ECBEncrypt`. -/
def ecbEncrypt (key plain : Bytes) : Res Bytes :=
  if plain.length % 16 ≠ 0 then .err "input not full blocks"
  else do
    let c ← newCipher key
    .ok (ecbLoop c.enc plain (plain.length / 16) 0 (List.replicate plain.length 0))

/-- sm4/sm4.go:245-260 `ECBDecrypt`. -/
def ecbDecrypt (key cipher : Bytes) : Res Bytes :=
  if cipher.length % 16 ≠ 0 then .err "input not full blocks"
  else do
    let c ← newCipher key
    .ok (ecbLoop c.dec cipher (cipher.length / 16) 0 (List.replicate cipher.length 0))

/-- `subtle.XORBytes` on operands of equal length (Go crypto/subtle). -/
def xorBytes (a b : Bytes) : Bytes := List.zipWith (· ^^^ ·) a b

/-- Go crypto/cipher `cbcEncrypter.CryptBlocks`: for each block `dst = E(src xor iv); iv = dst`. -/
def cbcEncLoop (rk : List Word) (inp : Bytes) : Nat → Nat → Bytes → Bytes → Bytes
  | 0, _, _, out => out
  | cnt + 1, k, iv, out =>
    let c := block rk (xorBytes ((inp.drop (16 * k)).take 16) iv)
    cbcEncLoop rk inp cnt (k + 1) c (overwrite out (16 * k) c)

/-- Go crypto/cipher `cbcDecrypter.CryptBlocks`: blocks are processed from the last one down to
block 0; block `k` is `D(src[k]) xor src[k-1]`, block 0 uses the IV. The argument counts the blocks
still to be done. -/
def cbcDecLoop (rk : List Word) (inp iv : Bytes) : Nat → Bytes → Bytes
  | 0, out => out
  | k + 1, out =>
    let prev := if k = 0 then iv else (inp.drop (16 * (k - 1))).take 16
    cbcDecLoop rk inp iv k
      (overwrite out (16 * k) (xorBytes (block rk ((inp.drop (16 * k)).take 16)) prev))

/-- sm4/sm4.go:264-278 `CBCEncrypt`; `cipher.NewCBCEncrypter` panics unless the IV has block size. -/
def cbcEncrypt (key iv plain : Bytes) : Res Bytes :=
  if plain.length % 16 ≠ 0 then .err "input not full blocks"
  else do
    let c ← newCipher key
    if iv.length ≠ 16 then .panic
    else .ok (cbcEncLoop c.enc plain (plain.length / 16) 0 iv (List.replicate plain.length 0))

/-- sm4/sm4.go:282-296 `CBCDecrypt`. -/
def cbcDecrypt (key iv cipher : Bytes) : Res Bytes :=
  if cipher.length % 16 ≠ 0 then .err "input not full blocks"
  else do
    let c ← newCipher key
    if iv.length ≠ 16 then .panic
    else .ok (cbcDecLoop c.dec cipher iv (cipher.length / 16) (List.replicate cipher.length 0))

end Verif.Sm4
