import Verif.Sm4.Model
/-!
# ECB and CBC on memory: sm4/sm4.go:224-296 and crypto/cipher/cbc.go of Go 1.12

The functions of `Verif.Sm4.Model` again, statement by statement on slices, so that it can be said which memory they write.
Simplification: `xorBytes` reads its operands before it stores (Go's version does so word by word; the operands here are either the
destination itself or disjoint from it).
-/
namespace Verif.Sm4

/-- Go `s[a:b]` on a slice with a capacity: `a ≤ b ≤ cap`, otherwise a panic. -/
def sub (s : Slice) (a b : Nat) : Res Slice :=
  if a ≤ b ∧ b ≤ s.cap then .ok ⟨s.arr, s.off + a, b - a, s.cap - a⟩ else .panic

/-- Go `make([]byte, n)`. -/
def alloc (h : Heap) (n : Nat) : Heap × Slice := (h ++ [List.replicate n 0], ⟨h.length, 0, n, n⟩)

/-- Stores `bs` at the beginning of `s` (the callers have `bs.length ≤ s.len`). -/
def store (h : Heap) (s : Slice) (bs : Bytes) : Heap := h.set s.arr (overwrite ((h[s.arr]?).getD []) s.off bs)

/-- Go `copy(dst, src)`. -/
def copyH (h : Heap) (dst src : Slice) : Heap := store h dst ((src.get h).take dst.len)

/-- `xorBytes(dst, a, b)` (crypto/cipher/xor.go): the common length of `a` and `b`; a panic if `dst` is shorter. -/
def xorH (h : Heap) (dst a b : Slice) : Res Heap :=
  if dst.len < min a.len b.len then .panic else .ok (store h dst (xorBytes (a.get h) (b.get h)))

/-- `subtle.InexactOverlap` (crypto/internal/subtle/aliasing.go): not the same start, but some byte in common. -/
def inexactOverlap (x y : Slice) : Bool :=
  if x.len = 0 ∨ y.len = 0 ∨ (x.arr = y.arr ∧ x.off = y.off) then false
  else x.arr = y.arr ∧ x.off ≤ y.off + (y.len - 1) ∧ y.off ≤ x.off + (x.len - 1)

/-- The loop of `ECBEncrypt` and `ECBDecrypt` (sm4/sm4.go:237-239, 256-258) from index `i` on; `crypt` is `Encrypt` or `Decrypt`. The
first argument bounds the iterations. -/
def ecbLoopH (crypt : Heap → Slice → Slice → Res Heap) (inp out : Slice) (len : Nat) : Nat → Nat → Heap → Res Heap
  | fuel, i, h =>
    if i < len then
      match fuel with
      | 0 => .loop
      | fuel + 1 => do
        let d ← sub out i (i + 16)
        let s ← sub inp i (i + 16)
        let h ← crypt h d s
        ecbLoopH crypt inp out len fuel (i + 16) h
    else .ok h

/-- `ECBEncrypt` (sm4/sm4.go:226-241): memory afterwards and the returned slice. -/
def ecbEncryptH (h : Heap) (key plain : Slice) : Res (Heap × Slice) :=
  if plain.len % 16 ≠ 0 then .err "input not full blocks"
  else do
    let c ← newCipher (key.get h)
    let (h, out) := alloc h plain.len
    let h ← ecbLoopH c.encryptH plain out plain.len (plain.len + 1) 0 h
    .ok (h, out)

/-- `ECBDecrypt` (sm4/sm4.go:245-260). -/
def ecbDecryptH (h : Heap) (key cipher : Slice) : Res (Heap × Slice) :=
  if cipher.len % 16 ≠ 0 then .err "input not full blocks"
  else do
    let c ← newCipher (key.get h)
    let (h, out) := alloc h cipher.len
    let h ← ecbLoopH c.decryptH cipher out cipher.len (cipher.len + 1) 0 h
    .ok (h, out)

/-- Go crypto/cipher `cbc`: the two buffers of the mode. -/
structure Cbc where
  iv : Slice
  tmp : Slice

/-- `newCBC` after the check of `NewCBCEncrypter`/`NewCBCDecrypter` (crypto/cipher/cbc.go): `iv` is copied into new memory. -/
def newCBC (h : Heap) (iv : Slice) : Res (Heap × Cbc) :=
  if iv.len ≠ 16 then .panic
  else
    let (h, q) := alloc h iv.len
    let h := copyH h q iv
    let (h, tmp) := alloc h 16
    .ok (h, ⟨q, tmp⟩)

/-- The loop of `cbcEncrypter.CryptBlocks` and the `copy` behind it. -/
def cbcEncLoopH (c : Cipher) (x : Cbc) : Nat → Slice → Slice → Slice → Heap → Res Heap
  | fuel, dst, src, iv, h =>
    if src.len > 0 then
      match fuel with
      | 0 => .loop
      | fuel + 1 => do
        let d ← sub dst 0 16
        let s ← sub src 0 16
        let h ← xorH h d s iv
        let h ← c.encryptH h d d
        let src ← sub src 16 src.len
        let dst ← sub dst 16 dst.len
        cbcEncLoopH c x fuel dst src d h
    else .ok (copyH h x.iv iv)

/-- `cbcEncrypter.CryptBlocks(dst, src)`. -/
def cbcEncBlocksH (c : Cipher) (x : Cbc) (dst src : Slice) (h : Heap) : Res Heap :=
  if src.len % 16 ≠ 0 then .panic
  else if dst.len < src.len then .panic
  else if inexactOverlap { dst with len := src.len } src then .panic
  else cbcEncLoopH c x (src.len + 1) dst src x.iv h

/-- The loop of `cbcDecrypter.CryptBlocks` over all but the first block and the first block behind it; `prev` is `start - 16`. -/
def cbcDecLoopH (c : Cipher) (x : Cbc) (dst src : Slice) : Nat → Nat → Nat → Heap → Res Heap
  | fuel, start, stop, h =>
    if start > 0 then
      match fuel with
      | 0 => .loop
      | fuel + 1 => do
        let d ← sub dst start stop
        let s ← sub src start stop
        let h ← c.decryptH h d s
        let p ← sub src (start - 16) start
        let h ← xorH h d d p
        cbcDecLoopH c x dst src fuel (start - 16) start h
    else do
      let d ← sub dst start stop
      let s ← sub src start stop
      let h ← c.decryptH h d s
      xorH h d d x.iv

/-- `cbcDecrypter.CryptBlocks(dst, src)`; that the two buffers are exchanged at the end changes no memory. -/
def cbcDecBlocksH (c : Cipher) (x : Cbc) (dst src : Slice) (h : Heap) : Res Heap :=
  if src.len % 16 ≠ 0 then .panic
  else if dst.len < src.len then .panic
  else if inexactOverlap { dst with len := src.len } src then .panic
  else if src.len = 0 then .ok h
  else do
    let s ← sub src (src.len - 16) src.len
    cbcDecLoopH c x dst src (src.len + 1) (src.len - 16) src.len (copyH h x.tmp s)

/-- `CBCEncrypt` (sm4/sm4.go:264-278). -/
def cbcEncryptH (h : Heap) (key iv plain : Slice) : Res (Heap × Slice) :=
  if plain.len % 16 ≠ 0 then .err "input not full blocks"
  else do
    let c ← newCipher (key.get h)
    let (h, x) ← newCBC h iv
    let (h, out) := alloc h plain.len
    let h ← cbcEncBlocksH c x out plain h
    .ok (h, out)

/-- `CBCDecrypt` (sm4/sm4.go:282-296). -/
def cbcDecryptH (h : Heap) (key iv cipher : Slice) : Res (Heap × Slice) :=
  if cipher.len % 16 ≠ 0 then .err "input not full blocks"
  else do
    let c ← newCipher (key.get h)
    let (h, x) ← newCBC h iv
    let (h, out) := alloc h cipher.len
    let h ← cbcDecBlocksH c x out cipher h
    .ok (h, out)

end Verif.Sm4
