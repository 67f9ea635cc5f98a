import Verif.Sm4.Model
/-!
# The cipher of sm4/sm4.go in the stream modes of Go's crypto/cipher

`NewCipher` (sm4/sm4.go:77-86) returns a `cipher.Block`, so the stream modes of the standard library can be used with it. The files
ctr.go, ofb.go and cfb.go of crypto/cipher (Go 1.12) are transcribed here, with `BlockSize` and `Encrypt` of sm4/sm4.go:88-100 for the
methods of the block. Buffers are values: the source and the buffers of the mode do not overlap (the modes refuse sources and
destinations that overlap without being equal; for equal ones see C08, `Encrypt` reads before it writes).
-/
namespace Verif.Sm4

/-- `Encrypt(dst, src)` (sm4/sm4.go:92-100): the contents of `dst` afterwards. -/
def Cipher.encryptV (c : Cipher) (dst src : Bytes) : Res Bytes :=
  if src.length < 16 then .panic
  else if dst.length < 16 then .panic
  else .ok (overwrite dst 0 (processBlock c.enc src))

/-- `streamBufferSize` (crypto/cipher/ctr.go). -/
def streamBufferSize : Nat := 512

/-- `xorBytes(dst, a, b)` (crypto/cipher/xor.go): the number of bytes and the contents of `dst` afterwards. -/
def xorV (dst a b : Bytes) : Res (Nat × Bytes) :=
  let n := min a.length b.length
  if dst.length < n then .panic else .ok (n, overwrite dst 0 (xorBytes a b))

/-- The object of ctr.go; `buf` is the array behind `out`, whose length is `len`. -/
structure Ctr where
  b : Cipher
  ctr : Bytes
  buf : Bytes
  len : Nat
  used : Nat

/-- `NewCTR(block, iv)`. -/
def newCTR (b : Cipher) (iv : Bytes) : Res Ctr :=
  if iv.length ≠ 16 then .panic else .ok ⟨b, iv, List.replicate streamBufferSize 0, 0, 0⟩

/-- The increment in `refill`: `for i := len(x.ctr) - 1; i >= 0; i-- { x.ctr[i]++; if x.ctr[i] != 0 { break } }`; the argument is
`i + 1`. -/
def incrLoop : Nat → Bytes → Bytes
  | 0, c => c
  | i + 1, c =>
    let c := c.set i (c.getD i 0 + 1)
    if c.getD i 0 ≠ 0 then c else incrLoop i c

/-- The loop of `(*ctr).refill`: `for remain <= len(x.out)-bs`. -/
def ctrFill (b : Cipher) : Nat → Bytes → Bytes → Nat → Res (Bytes × Bytes × Nat)
  | fuel, ctr, buf, remain =>
    if remain + 16 ≤ buf.length then
      match fuel with
      | 0 => .loop
      | fuel + 1 => do
        let o ← b.encryptV (buf.drop remain) ctr
        ctrFill b fuel (incrLoop ctr.length ctr) (buf.take remain ++ o) (remain + 16)
    else .ok (ctr, buf, remain)

/-- `(*ctr).refill`. -/
def Ctr.refill (x : Ctr) : Res Ctr := do
  let remain := x.len - x.used
  let buf := overwrite x.buf 0 ((x.buf.take x.len).drop x.used)
  let (ctr, buf, remain) ← ctrFill x.b (buf.length + 1) x.ctr buf remain
  .ok { x with ctr := ctr, buf := buf, len := remain, used := 0 }

/-- `if x.outUsed >= len(x.out)-x.b.BlockSize() { x.refill() }`. -/
def Ctr.ready (x : Ctr) : Res Ctr := if x.len ≤ x.used + 16 then x.refill else .ok x

/-- The loop of `(*ctr).XORKeyStream`; `done` is what was already written to the destination. -/
def ctrLoop : Nat → Ctr → Bytes → Bytes → Bytes → Res (Bytes × Ctr)
  | fuel, x, done, dst, src =>
    if src.length > 0 then
      match fuel with
      | 0 => .loop
      | fuel + 1 => do
        let x ← x.ready
        let (n, dst) ← xorV dst src ((x.buf.take x.len).drop x.used)
        ctrLoop fuel { x with used := x.used + n } (done ++ dst.take n) (dst.drop n) (src.drop n)
    else .ok (done ++ dst, x)

/-- `(*ctr).XORKeyStream(dst, src)`: the contents of `dst` afterwards. -/
def Ctr.xorKeyStream (x : Ctr) (dst src : Bytes) : Res (Bytes × Ctr) :=
  if dst.length < src.length then .panic else ctrLoop (src.length + 1) x [] dst src

/-- The object of ofb.go. -/
structure Ofb where
  b : Cipher
  cipher : Bytes
  buf : Bytes
  len : Nat
  used : Nat

/-- `NewOFB(b, iv)`. -/
def newOFB (b : Cipher) (iv : Bytes) : Res Ofb :=
  if iv.length ≠ 16 then .panic else .ok ⟨b, overwrite (List.replicate 16 0) 0 iv, List.replicate streamBufferSize 0, 0, 0⟩

/-- The loop of `(*ofb).refill`: `for remain < len(x.out)-bs`; the block is encrypted in place and copied. -/
def ofbFill (b : Cipher) : Nat → Bytes → Bytes → Nat → Res (Bytes × Bytes × Nat)
  | fuel, cipher, buf, remain =>
    if remain + 16 < buf.length then
      match fuel with
      | 0 => .loop
      | fuel + 1 => do
        let cipher ← b.encryptV cipher cipher
        ofbFill b fuel cipher (overwrite buf remain (cipher.take (buf.length - remain))) (remain + 16)
    else .ok (cipher, buf, remain)

/-- `(*ofb).refill`. -/
def Ofb.refill (x : Ofb) : Res Ofb :=
  let remain := x.len - x.used
  if remain > x.used then .ok x
  else do
    let buf := overwrite x.buf 0 ((x.buf.take x.len).drop x.used)
    let (cipher, buf, remain) ← ofbFill x.b (buf.length + 1) x.cipher buf remain
    .ok { x with cipher := cipher, buf := buf, len := remain, used := 0 }

/-- `if x.outUsed >= len(x.out)-x.b.BlockSize() { x.refill() }`. -/
def Ofb.ready (x : Ofb) : Res Ofb := if x.len ≤ x.used + 16 then x.refill else .ok x

/-- The loop of `(*ofb).XORKeyStream`. -/
def ofbLoop : Nat → Ofb → Bytes → Bytes → Bytes → Res (Bytes × Ofb)
  | fuel, x, done, dst, src =>
    if src.length > 0 then
      match fuel with
      | 0 => .loop
      | fuel + 1 => do
        let x ← x.ready
        let (n, dst) ← xorV dst src ((x.buf.take x.len).drop x.used)
        ofbLoop fuel { x with used := x.used + n } (done ++ dst.take n) (dst.drop n) (src.drop n)
    else .ok (done ++ dst, x)

/-- `(*ofb).XORKeyStream(dst, src)`. -/
def Ofb.xorKeyStream (x : Ofb) (dst src : Bytes) : Res (Bytes × Ofb) :=
  if dst.length < src.length then .panic else ofbLoop (src.length + 1) x [] dst src

/-- The object of cfb.go. -/
structure Cfb where
  b : Cipher
  next : Bytes
  out : Bytes
  used : Nat
  decrypt : Bool

/-- `newCFB(block, iv, decrypt)`, which `NewCFBEncrypter` and `NewCFBDecrypter` call. -/
def newCFB (b : Cipher) (iv : Bytes) (decrypt : Bool) : Res Cfb :=
  if iv.length ≠ 16 then .panic else .ok ⟨b, overwrite (List.replicate 16 0) 0 iv, List.replicate 16 0, 16, decrypt⟩

/-- `copy(x.next[x.outUsed:], s)`. -/
def Cfb.feed (x : Cfb) (s : Bytes) : Cfb := { x with next := overwrite x.next x.used (s.take (x.next.length - x.used)) }

/-- `if x.outUsed == len(x.out) { x.b.Encrypt(x.out, x.next); x.outUsed = 0 }`. -/
def Cfb.ready (x : Cfb) : Res Cfb :=
  if x.used = x.out.length then (do let o ← x.b.encryptV x.out x.next; .ok { x with out := o, used := 0 }) else .ok x

/-- The loop of `(*cfb).XORKeyStream`. -/
def cfbLoop : Nat → Cfb → Bytes → Bytes → Bytes → Res (Bytes × Cfb)
  | fuel, x, done, dst, src =>
    if src.length > 0 then
      match fuel with
      | 0 => .loop
      | fuel + 1 => do
        let x ← x.ready
        let x := if x.decrypt then x.feed src else x
        let (n, dst) ← xorV dst src (x.out.drop x.used)
        let x := if x.decrypt then x else x.feed dst
        cfbLoop fuel { x with used := x.used + n } (done ++ dst.take n) (dst.drop n) (src.drop n)
    else .ok (done ++ dst, x)

/-- `(*cfb).XORKeyStream(dst, src)`. -/
def Cfb.xorKeyStream (x : Cfb) (dst src : Bytes) : Res (Bytes × Cfb) :=
  if dst.length < src.length then .panic else cfbLoop (src.length + 1) x [] dst src

/-- Several calls of `XORKeyStream` after one another: destinations and sources, contents of the destinations afterwards. -/
def calls {σ : Type} (f : σ → Bytes → Bytes → Res (Bytes × σ)) : σ → List (Bytes × Bytes) → Res (List Bytes)
  | _, [] => .ok []
  | x, (dst, src) :: l => do
    let (o, x) ← f x dst src
    let os ← calls f x l
    .ok (o :: os)

end Verif.Sm4
