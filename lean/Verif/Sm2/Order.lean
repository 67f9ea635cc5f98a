import Verif.Sm2.Curve
import Mathlib.FieldTheory.Finite.Basic
import Mathlib.GroupTheory.OrderOfElement
import Mathlib.GroupTheory.Perm.Cycle.Type
import Mathlib.Tactic.IntervalCases
/-!
# The SM2 curve has exactly `N` points

`N` divides the number of points (Lagrange); there are at most `2 p + 1 < 3 N` of them; and there is no point of order
two because `x³ - 3x + b` has no root: `x^p - x` is invertible modulo it. Hence the cofactor `sm2H = 1`
(/repo/sm2/sm2.go:35) is right and every point of the curve is a multiple of `G`.
-/
namespace Verif.Sm2
open Verif Verif.EC WeierstrassCurve

/-- `a + b x + c x²`. -/
structure Cub where
  a : Int
  b : Int
  c : Int
  deriving DecidableEq

/-- Product modulo `x³ - 3x + B` and `P`. -/
def Cub.mul (s t : Cub) : Cub :=
  let c3 := s.b * t.c + s.c * t.b
  let c4 := s.c * t.c
  ⟨(s.a * t.a - cv.B * c3) % cv.P, (s.a * t.b + s.b * t.a + 3 * c3 - cv.B * c4) % cv.P,
    (s.a * t.c + s.b * t.b + s.c * t.a + 3 * c4) % cv.P⟩

/-- Value at a field element. -/
def Cub.eval (x : ZMod p) (s : Cub) : ZMod p := s.a + s.b * x + s.c * x ^ 2

/-- Evaluate the coefficients first (see `Verif.EC.Eval`). -/
def forceCub {α : Type} (s : Cub) (f : Cub → α) : α :=
  forceInt s.a fun x => forceInt s.b fun y => forceInt s.c fun z => f ⟨x, y, z⟩

theorem forceCub_eq {α : Type} (s : Cub) (f : Cub → α) : forceCub s f = f s := by
  simp only [forceCub, forceInt_eq]

/-- `acc * s ^ e` by squaring. -/
def Cub.pow {α : Type} (f : Cub → α) : Nat → Cub → Cub → Nat → α
  | 0, acc, _, _ => f acc
  | fuel + 1, acc, s, e =>
    if e % 2 = 0 then forceCub (s.mul s) fun s2 => Cub.pow f fuel acc s2 (e / 2)
    else forceCub (acc.mul s) fun acc => forceCub (s.mul s) fun s2 => Cub.pow f fuel acc s2 (e / 2)

variable {x : ZMod p} (hx : x ^ 3 = 3 * x - (cv.B : ZMod p))
include hx

theorem Cub.eval_mul (s t : Cub) : (s.mul t).eval x = s.eval x * t.eval x := by
  unfold Cub.mul Cub.eval
  simp only [cast_emod cv_P]
  push_cast
  linear_combination (-(s.b * t.c + s.c * t.b) - s.c * t.c * x : ZMod p) * hx

theorem Cub.pow_spec {α : Type} (f : Cub → α) (fuel : Nat) : ∀ (acc s : Cub) (e : Nat), e < 2 ^ fuel →
    ∃ r : Cub, Cub.pow f fuel acc s e = f r ∧ r.eval x = acc.eval x * s.eval x ^ e := by
  induction fuel with
  | zero =>
    intro acc s e he
    obtain rfl : e = 0 := by simpa using he
    exact ⟨acc, rfl, by simp⟩
  | succ fuel ih =>
    intro acc s e he
    have he2 : e / 2 < 2 ^ fuel := by rw [Nat.pow_succ] at he; omega
    unfold Cub.pow
    split
    · rename_i h
      rw [forceCub_eq]
      obtain ⟨r, h1, h2⟩ := ih acc (s.mul s) (e / 2) he2
      refine ⟨r, h1, ?_⟩
      rw [h2, Cub.eval_mul hx, ← pow_two, ← pow_mul]
      congr 2; omega
    · rename_i h
      rw [forceCub_eq, forceCub_eq]
      obtain ⟨r, h1, h2⟩ := ih (acc.mul s) (s.mul s) (e / 2) he2
      refine ⟨r, h1, ?_⟩
      rw [h2, Cub.eval_mul hx, Cub.eval_mul hx, ← pow_two, ← pow_mul, mul_assoc, ← pow_succ']
      congr 2; omega

/-- The certificate: `(x^p - x) · v = 1` modulo `x³ - 3x + B`. -/
theorem no_root : False := by
  obtain ⟨r, h1, h2⟩ := Cub.pow_spec hx
    (fun r => decide ((Cub.mul ⟨r.a, r.b - 1, r.c⟩
      ⟨0xeb9539fb12a69fa8a00429afc717f1319f0c8d5b6b742939772c4ea8ae886749,
       0xbbea3c6e4f9890bc31aef1ce9abbeaf4847d5c84bfa4437849cb29256264e8b1,
       0x4eacc0d01f9e2a10d4f0056c0628ef26e06a3759ce9c5557561509c6fc21376f⟩ = ⟨1, 0, 0⟩)))
    256 ⟨1, 0, 0⟩ ⟨0, 1, 0⟩ p p_lt
  have hc : Cub.pow (fun r => decide ((Cub.mul ⟨r.a, r.b - 1, r.c⟩
      ⟨0xeb9539fb12a69fa8a00429afc717f1319f0c8d5b6b742939772c4ea8ae886749,
       0xbbea3c6e4f9890bc31aef1ce9abbeaf4847d5c84bfa4437849cb29256264e8b1,
       0x4eacc0d01f9e2a10d4f0056c0628ef26e06a3759ce9c5557561509c6fc21376f⟩ = ⟨1, 0, 0⟩)))
    256 ⟨1, 0, 0⟩ ⟨0, 1, 0⟩ p = true := by
    rw [p_val]; decide +kernel
  rw [hc] at h1
  have h3 := congrArg (Cub.eval x) (of_decide_eq_true h1.symm)
  rw [Cub.eval_mul hx] at h3
  have h4 : r.eval x = x := by
    rw [h2]
    simp only [Cub.eval, Int.cast_one, Int.cast_zero]
    rw [show (0 + 1 * x + 0 * x ^ 2 : ZMod p) = x by ring, ZMod.pow_card]; ring
  have h5 : Cub.eval x ⟨r.a, r.b - 1, r.c⟩ = 0 := by
    unfold Cub.eval at h4 ⊢
    push_cast
    linear_combination h4
  rw [h5, zero_mul] at h3
  simp [Cub.eval] at h3

omit hx

/-- Injection of the points into at most `2 p + 1` values: abscissa and parity of the ordinate. -/
def code : Pt → Option (ZMod p × Bool)
  | .zero => none
  | .some x y _ => some (x, y.val % 2 = 0)

theorem p_odd : p % 2 = 1 := by rw [p_val]

theorem code_injective : Function.Injective code := by
  intro Q R h
  cases Q with
  | zero => cases R with
    | zero => rfl
    | some x y h' => simp [code] at h
  | some x y hn => cases R with
    | zero => simp [code] at h
    | some x' y' hn' =>
      simp only [code, Option.some.injEq, Prod.mk.injEq] at h
      obtain ⟨rfl, hpar⟩ := h
      have hpar : y.val % 2 = 0 ↔ y'.val % 2 = 0 := by simpa using hpar
      have h1 := curve_eq hn
      have h2 := curve_eq hn'
      have h3 : (y - y') * (y + y') = 0 := by linear_combination h1 - h2
      rcases mul_eq_zero.1 h3 with h4 | h4
      · obtain rfl := sub_eq_zero.1 h4
        rfl
      · by_cases hy : y = 0
        · have : y' = 0 := by rw [hy, zero_add] at h4; exact h4
          subst hy; subst this; rfl
        · exfalso
          have e : y' = -y := by linear_combination h4
          have := ZMod.neg_val y
          rw [if_neg hy, ← e] at this
          have h5 := ZMod.val_lt y
          have h6 := p_odd
          omega

instance : Finite Pt := Finite.of_injective code code_injective

theorem card_le : Nat.card Pt ≤ 2 * p + 1 := by
  have h := Nat.card_le_card_of_injective code code_injective
  have : Nat.card (Option (ZMod p × Bool)) = 2 * p + 1 := by
    rw [Nat.card_eq_fintype_card, Fintype.card_option, Fintype.card_prod, ZMod.card, Fintype.card_bool, mul_comm]
  omega

theorem no_order_two (Q : Pt) (h : addOrderOf Q = 2) : False := by
  have h2 : Q + Q = 0 := by rw [← two_nsmul, ← h]; exact addOrderOf_nsmul_eq_zero Q
  have hne : Q ≠ 0 := by rintro rfl; simp at h
  cases Q with
  | zero => exact hne rfl
  | some x y hn =>
    have hy : y = 0 := by
      have := eq_neg_of_add_eq_zero_left h2
      rw [Affine.Point.neg_some] at this
      simp only [Affine.Point.some.injEq, true_and] at this
      simp only [Affine.negY, curveOf] at this
      have h3 : 2 * y = 0 := by linear_combination this
      exact (mul_eq_zero.1 h3).resolve_left two_ne_zero'
    have := curve_eq hn
    rw [hy] at this
    exact no_root (x := x) (by linear_combination -this)

/-- The number of points of the curve. -/
theorem card_Pt : Nat.card Pt = n := by
  obtain ⟨m, hm⟩ : n ∣ Nat.card Pt := by rw [← addOrderOf_G]; exact addOrderOf_dvd_natCard G
  have hle := card_le
  have hpos : 0 < Nat.card Pt := Nat.card_pos
  have hm3 : m < 3 := by
    by_contra hc
    push Not at hc
    have h1 : n * 3 ≤ n * m := Nat.mul_le_mul_left n hc
    have h2 : 2 * p + 1 < n * 3 := by rw [p_val, n_val]; norm_num
    omega
  interval_cases m
  · omega
  · omega
  · exfalso
    have : Fact (Nat.Prime 2) := ⟨Nat.prime_two⟩
    obtain ⟨Q, hQ⟩ := exists_prime_addOrderOf_dvd_card' (G := Pt) 2 (by rw [hm]; exact Dvd.intro_left n rfl)
    exact no_order_two Q hQ

/-- Every point is annihilated by `N`. -/
theorem n_smul (Q : Pt) : n • Q = 0 := by rw [← card_Pt]; exact card_nsmul_eq_zero'

/-- Every point is a multiple of the base point. -/
theorem exists_smul_G (Q : Pt) : ∃ k < n, Q = k • G := by
  have h : Q ∈ AddSubgroup.zmultiples G := by
    have : AddSubgroup.zmultiples G = ⊤ := by
      apply AddSubgroup.eq_top_of_card_eq
      rw [Nat.card_zmultiples, addOrderOf_G, card_Pt]
    rw [this]; trivial
  rw [mem_zmultiples_iff_mem_range_addOrderOf] at h
  simp only [Finset.mem_image, Finset.mem_range, addOrderOf_G] at h
  obtain ⟨k, hk, rfl⟩ := h
  exact ⟨k, hk, rfl⟩

/-- Every point other than infinity has order `N`. -/
theorem smul_eq_zero_iff' {Q : Pt} (hQ : Q ≠ 0) (k : ℕ) : k • Q = 0 ↔ n ∣ k := by
  have : addOrderOf Q = n := addOrderOf_eq_prime (n_smul Q) hQ
  rw [← this]; exact addOrderOf_dvd_iff_nsmul_eq_zero.symm

end Verif.Sm2
