import Verif.Sm3.Model
import Verif.Sm3.Spec
/-!
# HMAC over `sm3.New`

The hash object of sm3/sm3.go:35-39 implements `hash.Hash`, so `hmac.New(sm3.New, key)` of Go's crypto/hmac can be used with it.
That package (src/crypto/hmac/hmac.go of Go 1.12) is transcribed here; it relies on `BlockSize` (sm3/sm3.go:56-58), on `Sum` not
changing the object (sm3/sm3.go:41-46) and on `Write` and `Reset`.
-/
namespace Verif.Sm3

/-- The `hmac` object of crypto/hmac. -/
structure Hmac where
  opad : Bytes
  ipad : Bytes
  outer : Digest
  inner : Digest

/-- Go `copy(make([]byte, n), src)`. -/
def copyPad (n : Nat) (src : Bytes) : Bytes := src.take n ++ List.replicate (n - src.length) 0

/-- `hmac.New(sm3.New, key)`. The blocksize is what `BlockSize` of sm3/sm3.go:56-58 returns. -/
def hmacNew (key : Bytes) : Res Hmac := do
  let r ← if key.length > blockSize then (do let d ← write new key; sumMethod d []) else Res.ok (key, new)
  let ipad := (copyPad blockSize r.1).map (· ^^^ 0x36)
  let opad := (copyPad blockSize r.1).map (· ^^^ 0x5c)
  let inner ← write new ipad
  .ok ⟨opad, ipad, r.2, inner⟩

/-- `(*hmac).Write`. -/
def hmacWrite (h : Hmac) (p : Bytes) : Res Hmac := do
  let d ← write h.inner p
  .ok { h with inner := d }

/-- `(*hmac).Sum(in)`. -/
def hmacSum (h : Hmac) (inp : Bytes) : Res (Bytes × Hmac) := do
  let r ← sumMethod h.inner inp
  let d ← write (reset h.outer) h.opad
  let d ← write d (r.1.drop inp.length)
  let q ← sumMethod d (r.1.take inp.length)
  .ok (q.1, { h with inner := r.2, outer := q.2 })

/-- `(*hmac).Reset`. -/
def hmacReset (h : Hmac) : Res Hmac := do
  let d ← write (reset h.inner) h.ipad
  .ok { h with inner := d }

end Verif.Sm3

namespace Verif.Spec.SM3

/-- HMAC (RFC 2104, section 2) with a hash of block length `B` bytes: `H((K ⊕ opad) ‖ H((K ⊕ ipad) ‖ m))`, where keys longer than
a block are hashed first and `K` is filled with zeros to a block. SM3 has `B = 64` (GM/T 0004-2012, 5.1: blocks of 512 bits). -/
def hmac (B : Nat) (key m : Bytes) : Bytes :=
  let k := if key.length > B then hash key else key
  let k := k ++ List.replicate (B - k.length) 0
  hash (k.map (· ^^^ 0x5c) ++ hash (k.map (· ^^^ 0x36) ++ m))

end Verif.Spec.SM3
