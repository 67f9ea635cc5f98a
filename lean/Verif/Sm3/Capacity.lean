import Verif.Sm3.Model
/-!
# `Write` on a slice with spare capacity

Go checks `in[a:b]` against the capacity of `in`. Here a slice is its bytes and the bytes behind it up to its capacity.
-/
namespace Verif.Sm3

/-- sm3/sm3.go:218-227 `processWord(in, inOff)`. -/
def processWordCap (d : Digest) (inp spare : Bytes) (inOff : BitVec 32) : Res Digest :=
  let lo := inOff.toInt
  let hi := (inOff + 4).toInt
  if 0 ≤ lo ∧ lo ≤ hi ∧ hi ≤ inp.length + spare.length then do
    let n := be32 (((inp ++ spare).drop lo.toNat).take (hi - lo).toNat)
    let d ← putWord d n
    if d.xOff ≥ 16 then .ok (processBlock d) else .ok d
  else .panic

/-- sm3/sm3.go:107-109. -/
def wordLoopCap (p spare : Bytes) (d : Digest) (i : Nat) : Nat → Res (Digest × Nat)
  | 0 => .ok (d, i)
  | cnt + 1 => do
    let d ← processWordCap d p spare (BitVec.ofNat 32 i)
    wordLoopCap p spare d (i + 4) cnt

/-- sm3/sm3.go:88-121 `Write`. `p[i]` is checked against the length; `xBuf[:]` is a whole array and has no spare capacity. -/
def writeCap (d : Digest) (p spare : Bytes) : Res Digest :=
  if p = [] then .panic
  else do
    let r ← fill d p
    let r ← wordLoopCap p spare r.1 r.2 ((p.length - r.2) / 4)
    let d ← tailLoop r.1 (p.drop r.2)
    .ok { d with byteCount := d.byteCount + BitVec.ofNat 64 p.length }

end Verif.Sm3
