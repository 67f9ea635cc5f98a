import Verif.Sm4.Model
/-!
# sm4/sm4.go with the reads of the table `sBox` written down

The only memory accesses of the cipher whose address depends on secret data are the reads of `sBox`
(sm4/sm4.go:142-145); all other indices are constants or loop counters, and no branch depends on data. The functions
here return, beside the value, the indices read from the table in their order.
-/
namespace Verif.Sm4
open Verif

/-- Four reads one after the other (sm4/sm4.go:142-145). -/
def readTable : Bytes → Bytes × List Byte
  | [] => ([], [])
  | a :: as =>
    let r := readTable as
    (sBox a :: r.1, a :: r.2)

/-- sm4/sm4.go:138-147 `tau`. -/
def tauT (a : Word) : Word × List Byte :=
  let r := readTable (put32 a)
  (be32 r.1, r.2)

/-- sm4/sm4.go:153-155 `tAp`. -/
def tApT (z : Word) : Word × List Byte :=
  let r := tauT z
  (lAp r.1, r.2)

/-- sm4/sm4.go:195-197 `t`. -/
def tT (z : Word) : Word × List Byte :=
  let r := tauT z
  (l r.1, r.2)

/-- sm4/sm4.go:126-134 with 157-167: one iteration of `expandKey`, with the indices read so far. -/
def expandStepT (forEnc : Bool) (st : (List Word × List Word) × List Byte) (i : Nat) : (List Word × List Word) × List Byte :=
  let x := st.1.1
  let r := tApT (x.getD ((i + 1) % 5) 0 ^^^ x.getD ((i + 2) % 5) 0 ^^^ x.getD ((i + 3) % 5) 0 ^^^ cK.getD i 0)
  let x4 := x.getD (i % 5) 0 ^^^ r.1
  ((x.set ((i + 4) % 5) x4, st.1.2.set (if forEnc then i else 31 - i) x4), st.2 ++ r.2)

/-- sm4/sm4.go:112-136 `expandKey`. -/
def expandKeyT (key : Bytes) (forEnc : Bool) : List Word × List Byte :=
  let r := (List.range 32).foldl (expandStepT forEnc) ((expandInit key, List.replicate 32 0), [])
  (r.1.2, r.2)

/-- sm4/sm4.go:177-180 with 208-222: one iteration of `processBlock`. -/
def fourRoundsT (rk : List Word) (st : W4 × List Byte) (i : Nat) : W4 × List Byte :=
  let x := st.1
  let r0 := tT (x.x1 ^^^ x.x2 ^^^ x.x3 ^^^ rk.getD i 0)
  let x := { x with x0 := x.x0 ^^^ r0.1 }
  let r1 := tT (x.x2 ^^^ x.x3 ^^^ x.x0 ^^^ rk.getD (i + 1) 0)
  let x := { x with x1 := x.x1 ^^^ r1.1 }
  let r2 := tT (x.x3 ^^^ x.x0 ^^^ x.x1 ^^^ rk.getD (i + 2) 0)
  let x := { x with x2 := x.x2 ^^^ r2.1 }
  let r3 := tT (x.x0 ^^^ x.x1 ^^^ x.x2 ^^^ rk.getD (i + 3) 0)
  let x := { x with x3 := x.x3 ^^^ r3.1 }
  (x, st.2 ++ r0.2 ++ r1.2 ++ r2.2 ++ r3.2)

/-- sm4/sm4.go:169-188 `processBlock`. -/
def processBlockT (rk : List Word) (inp : Bytes) : Bytes × List Byte :=
  let s := (List.range 8).foldl (fun st j => fourRoundsT rk st (4 * j)) (load inp, [])
  let x := r s.1
  (put32 x.x0 ++ put32 x.x1 ++ put32 x.x2 ++ put32 x.x3, s.2)

end Verif.Sm4
