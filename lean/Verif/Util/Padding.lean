import Verif.Util.Heap
/-!
# Model of util/padding.go
-/
namespace Verif.Padding
open Verif

/-- util/padding.go:5-9 `PKCS5Padding`, contents only (aliasing: `pkcs5PaddingH` below).
`len(src)%blockSize` panics for 0; `%` truncates; `bytes.Repeat` panics on a negative count.
Simplification: allocation failure for gigantic block sizes is not modelled. -/
def pkcs5Padding (src : Bytes) (blockSize : Int) : Res Bytes :=
  if blockSize = 0 then .panic
  else
    let padding : Int := blockSize - Int.tmod src.length blockSize
    if padding < 0 then .panic
    else .ok (src ++ List.replicate padding.toNat (BitVec.ofInt 8 padding))

/-- util/padding.go:11-15 `PKCS5UnPadding`: `src[length-1]` panics on an empty slice and
`src[:length-unpadding]` panics when the bound is negative. -/
def pkcs5UnPadding (src : Bytes) : Res Bytes :=
  let length := src.length
  match src[length - 1]? with
  | none => .panic
  | some b =>
    let unpadding := b.toNat
    if length < unpadding then .panic else .ok (src.take (length - unpadding))

/-- util/padding.go:17-21 `ZeroPadding`. -/
def zeroPadding (src : Bytes) (blockSize : Int) : Res Bytes :=
  if blockSize = 0 then .panic
  else
    let padding : Int := blockSize - Int.tmod src.length blockSize
    if padding < 0 then .panic
    else .ok (src ++ List.replicate padding.toNat 0#8)

/-- util/padding.go:26-28 `UnZeroPadding` on a slice with `spare` bytes of capacity behind it whose
contents are `tail`: `src[:len(src)-paddingLen]` is a slice expression, so a negative `paddingLen`
re-extends the slice into its capacity and only then panics. -/
def unZeroPadding (src tail : Bytes) (paddingLen : Int) : Res Bytes :=
  let hi : Int := src.length - paddingLen
  if hi < 0 ∨ (src.length + tail.length : Nat) < hi then .panic
  else .ok ((src ++ tail).take hi.toNat)

/-- util/padding.go:5-9 with the heap: the padding is `append`ed to the caller's slice. -/
def pkcs5PaddingH (spare : Nat) (h : Heap) (src : Slice) (blockSize : Int) : Res (Heap × Slice) :=
  if blockSize = 0 then .panic
  else
    let padding : Int := blockSize - Int.tmod src.len blockSize
    if padding < 0 then .panic
    else .ok (goAppend spare h src (List.replicate padding.toNat (BitVec.ofInt 8 padding)))

/-- util/padding.go:17-21 with the heap. -/
def zeroPaddingH (spare : Nat) (h : Heap) (src : Slice) (blockSize : Int) : Res (Heap × Slice) :=
  if blockSize = 0 then .panic
  else
    let padding : Int := blockSize - Int.tmod src.len blockSize
    if padding < 0 then .panic
    else .ok (goAppend spare h src (List.replicate padding.toNat 0#8))

end Verif.Padding
