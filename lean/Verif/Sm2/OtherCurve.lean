import Verif.Sm2.CipherLemmas
/-!
# Pairs of numbers that are no point of the SM2 curve

The generic curve code never reads the coefficient `B`. For a pair `(x, y)` it computes in the group of the curve
`y² = x³ - 3x + b` with the `b` that puts the pair on it.
-/
namespace Verif.Sm2
open Verif EC

section
variable (c : CurveParams) (b : Int)

theorem double_B (s : Jac) : doubleJacobian { c with B := b } s = doubleJacobian c s := rfl

theorem addJ_B (s t : Jac) : addJacobian { c with B := b } s t = addJacobian c s t := rfl

theorem bits_B (a : Int × Int) (k : ℕ) (byte : Byte) (s : Jac) :
    scalarBits { c with B := b } a k byte s = scalarBits c a k byte s := by
  induction k generalizing byte s with
  | zero => rfl
  | succ k ih => exact ih _ _

theorem mult_B (a : Int × Int) (k : Bytes) : scalarMult { c with B := b } a k = scalarMult c a k := by
  unfold scalarMult
  rw [show (fun s byte => scalarBits { c with B := b } a 8 byte s) = fun s byte => scalarBits c a 8 byte s from
    funext fun s => funext fun byte => bits_B c b a 8 byte s]
  rfl
end

/-- The last coefficient of the curve through `(x, y)`. -/
def through (x y : Int) : Int := y ^ 2 - x ^ 3 + 3 * x

/-- The pair `(x, y)` lies on a curve `y² = x³ - 3x + b` with `b ≠ 0` and is no singular point of it. -/
structure Usable (x y : Int) : Prop where
  coeff : ¬ (p : Int) ∣ y ^ 2 - x ^ 3 + 3 * x
  smooth : ¬ ((p : Int) ∣ 2 * y ∧ (p : Int) ∣ 3 * x ^ 2 - 3)

theorem through_ne {x y : Int} (h : Usable x y) : ((through x y : Int) : ZMod p) ≠ 0 := by
  rw [Ne, ZMod.intCast_zmod_eq_zero_iff_dvd]
  exact h.coeff

theorem nonsingular_through {x y : Int} (h : Usable x y) :
    (curveOf p (through x y)).Nonsingular (x : ZMod p) (y : ZMod p) := by
  rw [WeierstrassCurve.Affine.nonsingular_iff, WeierstrassCurve.Affine.equation_iff]
  refine ⟨?_, ?_⟩
  · simp only [curveOf, through]
    push_cast
    ring
  · by_contra hc
    push Not at hc
    simp only [curveOf] at hc
    refine h.smooth ⟨?_, ?_⟩
    · rw [← ZMod.intCast_zmod_eq_zero_iff_dvd]
      push_cast
      linear_combination hc.2
    · rw [← ZMod.intCast_zmod_eq_zero_iff_dvd]
      push_cast
      linear_combination -hc.1

/-- The point `(x, y)` of the curve through it. -/
noncomputable def ptThrough {x y : Int} (h : Usable x y) : (curveOf p (through x y)).Point := .some _ _ (nonsingular_through h)

theorem mult_other {x y : Int} (h : Usable x y) (k : Bytes) : scalarMult cv (x, y) k = .ok (enc (beNat k • ptThrough h)) := by
  rw [← mult_B cv (through x y)]
  exact scalarMult_spec (c := { cv with B := through x y }) cv_P two_ne_zero' (b := (x, y)) (B := ptThrough h)
    ⟨nonsingular_through h, rfl⟩ k

theorem enc_nat_other {b : Int} (Q : (curveOf p b).Point) : ∃ x y : ℕ, enc Q = ((x : Int), (y : Int)) ∧ x < 2 ^ 256 ∧ y < 2 ^ 256 := by
  cases Q with
  | zero => exact ⟨0, 0, rfl, by norm_num, by norm_num⟩
  | some x y h => exact ⟨x.val, y.val, rfl, lt_trans (ZMod.val_lt x) p_lt, lt_trans (ZMod.val_lt y) p_lt⟩

/-- A scalar counts only modulo a multiple that leads to (0, 0). -/
theorem mult_mod {x y : Int} (h : Usable x y) {m : ℕ} (hm : scalarMult cv (x, y) (intBytes m) = .ok (0, 0)) (k : Int) :
    scalarMult cv (x, y) (intBytes k) = scalarMult cv (x, y) (intBytes ((k.natAbs % m : ℕ) : Int)) := by
  rw [mult_other h, Res.ok.injEq, beNat_intBytes, Int.natAbs_natCast] at hm
  have h0 : m • ptThrough h = 0 := enc_injective (through_ne h) (hm.trans enc_zero.symm)
  rw [mult_other h, mult_other h, beNat_intBytes, beNat_intBytes, Int.natAbs_natCast]
  congr 2
  conv_lhs => rw [← Nat.mod_add_div k.natAbs m, add_nsmul, mul_comm m, mul_nsmul', h0, nsmul_zero, add_zero]

end Verif.Sm2
