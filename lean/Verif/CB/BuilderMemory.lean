import Verif.CB.Builder
/-!
# The slice that `Bytes` returns (/repo/cryptobyte/builder.go:53-69)
-/
namespace Verif.CB
open Verif

/-- `b.result[b.offset:]`, the memory returned by `Bytes` of a builder without error
(/repo/cryptobyte/builder.go:55-60). Slicing with an offset beyond the length panics. -/
def Bd.bytesAt (b : Bd) : Res Slice :=
  match b.err with
  | some e => .err e
  | none =>
    if b.offset ≤ b.result.len then
      .ok ⟨b.result.arr, b.result.off + b.offset, b.result.len - b.offset, b.result.cap - b.offset⟩
    else .panic

/-- The user's code is inside the continuation of `AddUint{8,16,24,32}LengthPrefixed` on a builder in state `st` and has run
`body` there (/repo/cryptobyte/builder.go:171-192). -/
def inside (g : Growth) (k : Fin 4) (body : Prog) (st : St) : Out := exec g body (enter g (k.val + 1) false st)

end Verif.CB
