import Verif.EC.Model
import Mathlib.Data.Int.Bitwise
/-!
# Numbers in memory: util/bigint.go and crypto/elliptic on `*big.Int`

`Verif.EC.Model` treats a `*big.Int` as a number. Here it is a pointer: a memory is a list of numbers, `new(big.Int)` appends a 0, and
a method `z.Op(x, y)` reads its operands and then writes the cell of `z`, which may be the cell of an operand (the documented contract of
math/big). The code is transcribed statement by statement, with the pointers it passes around, so that it can be asked which cells
are written. Pointers are never nil here.
-/
namespace Verif.EC.Store
open Verif

/-- The numbers allocated so far. -/
abbrev Mem := List Int
/-- `*big.Int`. -/
abbrev Ptr := Nat

/-- The number in a cell. -/
def rd (m : Mem) (p : Ptr) : Int := m.getD p 0

/-- How a program ends, with the memory that it leaves (for `loop`: the memory at the point from which on it does not return). -/
inductive Out (α : Type)
  | ok (r : α × Mem)
  | err (e : String) (m : Mem)
  | panic (m : Mem)
  | loop (m : Mem)

/-- Goes on after a result. -/
def Out.bind {α β : Type} : Out α → (α × Mem → Out β) → Out β
  | .ok r, f => f r
  | .err e m, _ => .err e m
  | .panic m, _ => .panic m
  | .loop m, _ => .loop m

/-- How a program ends without a value. -/
inductive Fail
  | err (e : String)
  | panic
  | loop

/-- A program that works on memory: its accesses one after the other. -/
inductive M (α : Type) : Type
  | pure (a : α)
  | fail (f : Fail)
  | read (p : Ptr) (k : Int → M α)
  | write (z : Ptr) (v : Int) (k : M α)
  | alloc (k : Ptr → M α)

/-- Goes on with `f`. -/
def M.bind {α β : Type} : M α → (α → M β) → M β
  | .pure a, f => f a
  | .fail e, _ => .fail e
  | .read p k, f => .read p fun v => (k v).bind f
  | .write z v k, f => .write z v (k.bind f)
  | .alloc k, f => .alloc fun p => (k p).bind f

instance : Monad M where
  pure := M.pure
  bind := M.bind

/-- A failure with the memory that it leaves. -/
def Fail.out {α : Type} : Fail → Mem → Out α
  | .err e, m => .err e m
  | .panic, m => .panic m
  | .loop, m => .loop m

/-- The program works on memory alone; new cells are appended. -/
def M.run {α : Type} : M α → Mem → Out α
  | .pure a, m => .ok (a, m)
  | .fail f, m => f.out m
  | .read p k, m => (k (rd m p)).run m
  | .write z v k, m => k.run (m.set z v)
  | .alloc k, m => (k m.length).run (m ++ [0])

instance {α : Type} : CoeFun (M α) fun _ => Mem → Out α := ⟨M.run⟩

/-- A computation without memory. -/
def lift {α : Type} : Res α → M α
  | .ok a => .pure a
  | .err e => .fail (.err e)
  | .panic => .fail .panic
  | .loop => .fail .loop
/-- Go's `v, err := f()`: an error becomes `none`. -/
def attempt {α : Type} : M α → M (Option α)
  | .pure a => .pure (some a)
  | .fail (.err _) => .pure none
  | .fail .panic => .fail .panic
  | .fail .loop => .fail .loop
  | .read p k => .read p fun v => attempt (k v)
  | .write z v k => .write z v (attempt k)
  | .alloc k => .alloc fun p => attempt (k p)
/-- Go reads the number in a cell (`Cmp`, `Sign`, `Bytes`). -/
def get (p : Ptr) : M Int := .read p .pure
/-- A cell is written; the methods of math/big return their receiver. -/
def put (z : Ptr) (v : Int) : M Ptr := .write z v (.pure z)
/-- `new(big.Int)`, and `var z big.Int` with `&z`. -/
def new : M Ptr := .alloc .pure

/-! ## math/big -/

/-- `z.Set(x)`. -/
def bSet (z x : Ptr) : M Ptr := .read x fun a => put z a
/-- `z.SetInt64(v)`, `z.SetBytes(b)`. -/
def bSetInt (z : Ptr) (v : Int) : M Ptr := put z v
/-- `z.Add(x, y)`. -/
def bAdd (z x y : Ptr) : M Ptr := .read x fun a => .read y fun b => put z (a + b)
/-- `z.Sub(x, y)`. -/
def bSub (z x y : Ptr) : M Ptr := .read x fun a => .read y fun b => put z (a - b)
/-- `z.Mul(x, y)`. -/
def bMul (z x y : Ptr) : M Ptr := .read x fun a => .read y fun b => put z (a * b)
/-- `z.Mod(x, y)`: division by zero panics. -/
def bMod (z x y : Ptr) : M Ptr := .read x fun a => .read y fun b => if b = 0 then .fail .panic else put z (a % b)
/-- `z.Lsh(x, n)`. -/
def bLsh (z x : Ptr) (n : Nat) : M Ptr := .read x fun a => put z (a * 2 ^ n)
/-- `z.And(x, y)`. -/
def bAnd (z x y : Ptr) : M Ptr := .read x fun a => .read y fun b => put z (Int.land a b)
/-- `z.SetBit(x, i, 1)` of a number that is not negative. -/
def bSetBit (z x : Ptr) (i : Nat) : M Ptr := .read x fun a => put z (Int.lor a (2 ^ i))
/-- `z.ModInverse(x, y)`: without an inverse nil is returned and `z` keeps its value. -/
def bModInverse (z x y : Ptr) : M (Option Ptr) := .read x fun a => .read y fun b =>
  match modInverse a b with
  | none => .pure none
  | some v => .write z v (.pure (some z))

/-! ## util/bigint.go -/

/-- `util.Add` (/repo/util/bigint.go:5-9). -/
def uAdd (x y : Ptr) : M Ptr := do
  let z ← new
  let _ ← bAdd z x y
  pure z
/-- `util.Sub` (/repo/util/bigint.go:11-15). -/
def uSub (x y : Ptr) : M Ptr := do
  let z ← new
  let _ ← bSub z x y
  pure z
/-- `util.Mod` (/repo/util/bigint.go:17-21). -/
def uMod (x y : Ptr) : M Ptr := do
  let z ← new
  let _ ← bMod z x y
  pure z
/-- `util.ModInverse` (/repo/util/bigint.go:23-27). -/
def uModInverse (x y : Ptr) : M Ptr := do
  let z ← new
  let _ ← bModInverse z x y
  pure z
/-- `util.Mul` (/repo/util/bigint.go:29-33). -/
def uMul (x y : Ptr) : M Ptr := do
  let z ← new
  let _ ← bMul z x y
  pure z
/-- `util.Lsh` (/repo/util/bigint.go:35-39). -/
def uLsh (x : Ptr) (n : Nat) : M Ptr := do
  let z ← new
  let _ ← bLsh z x n
  pure z
/-- `util.SetBit` (/repo/util/bigint.go:41-45) with bit value 1. -/
def uSetBit (x : Ptr) (i : Nat) : M Ptr := do
  let z ← new
  let _ ← bSetBit z x i
  pure z
/-- `util.And` (/repo/util/bigint.go:47-51). -/
def uAnd (x y : Ptr) : M Ptr := do
  let z ← new
  let _ ← bAnd z x y
  pure z
/-- `util.IsEcPointInfinity` (/repo/util/ec.go:5-10). -/
def uIsInfinity (x y : Ptr) : M Bool := do
  let a ← get x
  let b ← get y
  pure (a = 0 && b = 0)

/-! ## crypto/elliptic, Go 1.12 elliptic.go -/

/-- `*elliptic.CurveParams`: where its numbers are. Copies of a curve share them. -/
structure CurvePtrs where
  P : Ptr
  N : Ptr
  B : Ptr
  Gx : Ptr
  Gy : Ptr
  deriving DecidableEq, Repr

/-- `if v.Sign() == -1 { v.Add(v, curve.P) }`. -/
def fixSignM (c : CurvePtrs) (v : Ptr) : M Unit := do
  let a ← get v
  if a < 0 then do
    let _ ← bAdd v v c.P
    pure ()
  else pure ()

/-- `doubleJacobian`. -/
def doubleJacobianM (c : CurvePtrs) (x y z : Ptr) : M (Ptr × Ptr × Ptr) := do
  let delta ← new
  let _ ← bMul delta z z
  let _ ← bMod delta delta c.P
  let gamma ← new
  let _ ← bMul gamma y y
  let _ ← bMod gamma gamma c.P
  let alpha ← new
  let _ ← bSub alpha x delta
  fixSignM c alpha
  let alpha2 ← new
  let _ ← bAdd alpha2 x delta
  let _ ← bMul alpha alpha alpha2
  let _ ← bSet alpha2 alpha
  let _ ← bLsh alpha alpha 1
  let _ ← bAdd alpha alpha alpha2
  let beta ← bMul alpha2 x gamma
  let x3 ← new
  let _ ← bMul x3 alpha alpha
  let beta8 ← new
  let _ ← bLsh beta8 beta 3
  let _ ← bMod beta8 beta8 c.P
  let _ ← bSub x3 x3 beta8
  fixSignM c x3
  let _ ← bMod x3 x3 c.P
  let z3 ← new
  let _ ← bAdd z3 y z
  let _ ← bMul z3 z3 z3
  let _ ← bSub z3 z3 gamma
  fixSignM c z3
  let _ ← bSub z3 z3 delta
  fixSignM c z3
  let _ ← bMod z3 z3 c.P
  let _ ← bLsh beta beta 2
  let _ ← bSub beta beta x3
  fixSignM c beta
  let y3 ← bMul alpha alpha beta
  let _ ← bMul gamma gamma gamma
  let _ ← bLsh gamma gamma 3
  let _ ← bMod gamma gamma c.P
  let _ ← bSub y3 y3 gamma
  fixSignM c y3
  let _ ← bMod y3 y3 c.P
  pure (x3, y3, z3)

/-- `addJacobian` behind the tests for `z = 0`. -/
def addJacobianM' (c : CurvePtrs) (x3 y3 z3 x1 y1 z1 x2 y2 z2 : Ptr) : M (Ptr × Ptr × Ptr) := do
  let z1z1 ← new
  let _ ← bMul z1z1 z1 z1
  let _ ← bMod z1z1 z1z1 c.P
  let z2z2 ← new
  let _ ← bMul z2z2 z2 z2
  let _ ← bMod z2z2 z2z2 c.P
  let u1 ← new
  let _ ← bMul u1 x1 z2z2
  let _ ← bMod u1 u1 c.P
  let u2 ← new
  let _ ← bMul u2 x2 z1z1
  let _ ← bMod u2 u2 c.P
  let h ← new
  let _ ← bSub h u2 u1
  let hv ← get h
  let xEqual := decide (hv = 0)
  fixSignM c h
  let i ← new
  let _ ← bLsh i h 1
  let _ ← bMul i i i
  let j ← new
  let _ ← bMul j h i
  let s1 ← new
  let _ ← bMul s1 y1 z2
  let _ ← bMul s1 s1 z2z2
  let _ ← bMod s1 s1 c.P
  let s2 ← new
  let _ ← bMul s2 y2 z1
  let _ ← bMul s2 s2 z1z1
  let _ ← bMod s2 s2 c.P
  let r ← new
  let _ ← bSub r s2 s1
  fixSignM c r
  let rv ← get r
  let yEqual := decide (rv = 0)
  if xEqual && yEqual then doubleJacobianM c x1 y1 z1
  else do
    let _ ← bLsh r r 1
    let v ← new
    let _ ← bMul v u1 i
    let _ ← bSet x3 r
    let _ ← bMul x3 x3 x3
    let _ ← bSub x3 x3 j
    let _ ← bSub x3 x3 v
    let _ ← bSub x3 x3 v
    let _ ← bMod x3 x3 c.P
    let _ ← bSet y3 r
    let _ ← bSub v v x3
    let _ ← bMul y3 y3 v
    let _ ← bMul s1 s1 j
    let _ ← bLsh s1 s1 1
    let _ ← bSub y3 y3 s1
    let _ ← bMod y3 y3 c.P
    let _ ← bAdd z3 z1 z2
    let _ ← bMul z3 z3 z3
    let _ ← bSub z3 z3 z1z1
    let _ ← bSub z3 z3 z2z2
    let _ ← bMul z3 z3 h
    let _ ← bMod z3 z3 c.P
    pure (x3, y3, z3)

/-- `addJacobian`. -/
def addJacobianM (c : CurvePtrs) (x1 y1 z1 x2 y2 z2 : Ptr) : M (Ptr × Ptr × Ptr) := do
  let x3 ← new
  let y3 ← new
  let z3 ← new
  let a ← get z1
  if a = 0 then do
    let _ ← bSet x3 x2
    let _ ← bSet y3 y2
    let _ ← bSet z3 z2
    pure (x3, y3, z3)
  else do
    let b ← get z2
    if b = 0 then do
      let _ ← bSet x3 x1
      let _ ← bSet y3 y1
      let _ ← bSet z3 z1
      pure (x3, y3, z3)
    else addJacobianM' c x3 y3 z3 x1 y1 z1 x2 y2 z2

/-- `affineFromJacobian`; a nil inverse is dereferenced. -/
def affineFromJacobianM (c : CurvePtrs) (x y z : Ptr) : M (Ptr × Ptr) := do
  let a ← get z
  if a = 0 then do
    let xOut ← new
    let yOut ← new
    pure (xOut, yOut)
  else do
    let t ← new
    let zinv ← bModInverse t z c.P
    match zinv with
    | none => lift .panic
    | some zinv => do
      let zinvsq ← new
      let _ ← bMul zinvsq zinv zinv
      let xOut ← new
      let _ ← bMul xOut x zinvsq
      let _ ← bMod xOut xOut c.P
      let _ ← bMul zinvsq zinvsq zinv
      let yOut ← new
      let _ ← bMul yOut y zinvsq
      let _ ← bMod yOut yOut c.P
      pure (xOut, yOut)

/-- `zForAffine`. -/
def zForAffineM (x y : Ptr) : M Ptr := do
  let z ← new
  let a ← get x
  let b ← get y
  if a ≠ 0 ∨ b ≠ 0 then bSetInt z 1 else pure z

/-- `Add`. -/
def addM (c : CurvePtrs) (x1 y1 x2 y2 : Ptr) : M (Ptr × Ptr) := do
  let z1 ← zForAffineM x1 y1
  let z2 ← zForAffineM x2 y2
  let r ← addJacobianM c x1 y1 z1 x2 y2 z2
  affineFromJacobianM c r.1 r.2.1 r.2.2

/-- The inner loop of `ScalarMult`. -/
def scalarBitsM (c : CurvePtrs) (Bx By Bz : Ptr) : Nat → Byte → Ptr × Ptr × Ptr → M (Ptr × Ptr × Ptr)
  | 0, _, s => pure s
  | k + 1, byte, s => do
    let s ← doubleJacobianM c s.1 s.2.1 s.2.2
    let s ← if byte &&& 0x80 = 0x80 then addJacobianM c Bx By Bz s.1 s.2.1 s.2.2 else pure s
    scalarBitsM c Bx By Bz k (byte <<< 1) s

/-- The outer loop of `ScalarMult`. -/
def scalarBytesM (c : CurvePtrs) (Bx By Bz : Ptr) : Bytes → Ptr × Ptr × Ptr → M (Ptr × Ptr × Ptr)
  | [], s => pure s
  | byte :: k, s => do
    let s ← scalarBitsM c Bx By Bz 8 byte s
    scalarBytesM c Bx By Bz k s

/-- `ScalarMult`. -/
def scalarMultM (c : CurvePtrs) (Bx By : Ptr) (k : Bytes) : M (Ptr × Ptr) := do
  let Bz ← new
  let _ ← bSetInt Bz 1
  let x ← new
  let y ← new
  let z ← new
  let s ← scalarBytesM c Bx By Bz k (x, y, z)
  affineFromJacobianM c s.1 s.2.1 s.2.2

/-- `ScalarBaseMult`. -/
def scalarBaseMultM (c : CurvePtrs) (k : Bytes) : M (Ptr × Ptr) := scalarMultM c c.Gx c.Gy k

end Verif.EC.Store
