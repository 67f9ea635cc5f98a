import Verif.EC.Model
/-!
# The sequence of curve operations of `ScalarMult`

Go 1.12 crypto/elliptic elliptic.go, `func (curve *CurveParams) ScalarMult`: for every bit of the scalar `doubleJacobian` is called, and
`addJacobian` where the bit is set. `ops` lists the calls in order. What the calls themselves do, and how long they take, is not part of it.
-/
namespace Verif.EC

/-- A call in the loop of `ScalarMult`. -/
inductive Op
  | dbl
  | add
  deriving DecidableEq, Repr

/-- The calls of the inner loop of `ScalarMult`. -/
def bitOps : Nat → Byte → List Op
  | 0, _ => []
  | n + 1, byte => .dbl :: (if byte &&& 0x80 = 0x80 then [.add] else []) ++ bitOps n (byte <<< 1)

/-- The calls of `ScalarMult` with the scalar `k`. -/
def ops (k : Bytes) : List Op := k.flatMap (bitOps 8)

/-- What a call does to the accumulator. -/
def execOp (c : CurveParams) (b : Int × Int) (s : Jac) : Op → Jac
  | .dbl => doubleJacobian c s
  | .add => addJacobian c ⟨b.1, b.2, 1⟩ s

theorem scalarBits_ops (c : CurveParams) (b : Int × Int) : ∀ (n : Nat) (byte : Byte) (s : Jac),
    scalarBits c b n byte s = (bitOps n byte).foldl (execOp c b) s
  | 0, _, _ => rfl
  | n + 1, byte, s => by
    rw [scalarBits, scalarBits_ops c b n, bitOps]
    by_cases h : byte &&& 0x80 = 0x80
    · simp only [if_pos h, List.cons_append, List.nil_append, List.foldl_cons]
      rfl
    · simp only [if_neg h, List.nil_append, List.cons_append, List.foldl_cons]
      rfl

theorem scalarMult_ops (c : CurveParams) (b : Int × Int) (k : Bytes) :
    scalarMult c b k = affineFromJacobian c ((ops k).foldl (execOp c b) ⟨0, 0, 0⟩) := by
  unfold scalarMult ops
  congr 1
  generalize (⟨0, 0, 0⟩ : Jac) = s
  induction k generalizing s with
  | nil => rfl
  | cons byte k ih => rw [List.foldl_cons, List.flatMap_cons, List.foldl_append, ih, scalarBits_ops]

end Verif.EC
