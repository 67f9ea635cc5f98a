import Verif.EC.Model
import Mathlib.AlgebraicGeometry.EllipticCurve.Affine.Point
import Mathlib.Data.ZMod.Basic
import Mathlib.Algebra.Field.ZMod
import Mathlib.Tactic.FieldSimp
import Mathlib.Tactic.LinearCombination
import Mathlib.Tactic.Ring
/-!
# The generic curve code computes the group law

For a prime `p` and `c.P = p` the Jacobian formulas of the model compute the addition of Mathlib's group of points of
`y² = x³ - 3x + b` over `ZMod p`.
-/
namespace Verif.EC
open WeierstrassCurve

/-- The curve `y² = x³ - 3x + b` over `ZMod p`. -/
def curveOf (p : ℕ) (b : Int) : WeierstrassCurve.Affine (ZMod p) := ⟨0, 0, 0, -3, (b : ZMod p)⟩

variable {p : ℕ} [Fact p.Prime] {c : CurveParams}

theorem cast_emod (hP : c.P = p) (v : Int) : ((v % c.P : Int) : ZMod p) = v := by
  rw [hP]; exact ZMod.intCast_mod v p

theorem cast_P (hP : c.P = p) : ((c.P : Int) : ZMod p) = 0 := by
  rw [hP]; simp

theorem cast_fixSign (hP : c.P = p) (v : Int) : ((fixSign c v : Int) : ZMod p) = v := by
  unfold fixSign; split
  · push_cast; rw [cast_P hP]; ring
  · rfl

theorem emod_eq_zero_iff (hP : c.P = p) (v : Int) : v % c.P = 0 ↔ (v : ZMod p) = 0 := by
  rw [ZMod.intCast_zmod_eq_zero_iff_dvd, hP]
  exact ⟨Int.dvd_of_emod_eq_zero, Int.emod_eq_zero_of_dvd⟩

/-- A Jacobian triple represents a point of the group. -/
def Rep (c : CurveParams) (p : ℕ) [Fact p.Prime] (s : Jac) (Q : (curveOf p c.B).Point) : Prop :=
  (s.z = 0 ∧ Q = 0) ∨ ((s.z : ZMod p) ≠ 0 ∧ ∃ (x y : ZMod p) (h : (curveOf p c.B).Nonsingular x y),
    Q = .some x y h ∧ (s.x : ZMod p) = x * s.z ^ 2 ∧ (s.y : ZMod p) = y * s.z ^ 3)

theorem curve_eq {b : Int} {x y : ZMod p} (h : (curveOf p b).Nonsingular x y) : y ^ 2 = x ^ 3 - 3 * x + b := by
  have := (Affine.equation_iff x y).1 h.1
  simp only [curveOf] at this
  linear_combination this

theorem double_x (hP : c.P = p) (s : Jac) : ((doubleJacobian c s).x : ZMod p) =
    (3 * (s.x - s.z ^ 2) * (s.x + s.z ^ 2)) ^ 2 - 8 * s.x * s.y ^ 2 := by
  unfold doubleJacobian
  simp only [cast_emod hP, cast_fixSign hP, Int.cast_sub, Int.cast_mul, Int.cast_add, Int.cast_ofNat]
  ring

theorem double_y (hP : c.P = p) (s : Jac) : ((doubleJacobian c s).y : ZMod p) =
    (3 * (s.x - s.z ^ 2) * (s.x + s.z ^ 2)) * (4 * s.x * s.y ^ 2 -
      ((3 * (s.x - s.z ^ 2) * (s.x + s.z ^ 2)) ^ 2 - 8 * s.x * s.y ^ 2)) - 8 * s.y ^ 4 := by
  unfold doubleJacobian
  simp only [cast_emod hP, cast_fixSign hP, Int.cast_sub, Int.cast_mul, Int.cast_add, Int.cast_ofNat]
  ring

theorem double_z (hP : c.P = p) (s : Jac) : ((doubleJacobian c s).z : ZMod p) = 2 * s.y * s.z := by
  unfold doubleJacobian
  simp only [cast_emod hP, cast_fixSign hP, Int.cast_sub, Int.cast_mul, Int.cast_add]
  ring

theorem double_z_zero (hP : c.P = p) (s : Jac) : (doubleJacobian c s).z = 0 ↔ ((doubleJacobian c s).z : ZMod p) = 0 := by
  constructor
  · intro h; simp [h]
  · rw [double_z hP]
    intro h
    unfold doubleJacobian
    simp only
    rw [emod_eq_zero_iff hP]
    simp only [cast_emod hP, cast_fixSign hP, Int.cast_sub, Int.cast_mul, Int.cast_add]
    linear_combination h

theorem rep_double (hP : c.P = p) (h2 : (2 : ZMod p) ≠ 0) {s : Jac} {Q : (curveOf p c.B).Point} (h : Rep c p s Q) :
    Rep c p (doubleJacobian c s) (Q + Q) := by
  rcases h with ⟨hz, rfl⟩ | ⟨hz, x, y, hns, rfl, hx, hy⟩
  · left
    refine ⟨(double_z_zero hP s).2 (by rw [double_z hP, hz]; simp), by simp⟩
  · by_cases hy0 : y = 0
    · left
      refine ⟨(double_z_zero hP s).2 (by rw [double_z hP, hy, hy0]; ring), ?_⟩
      exact Affine.Point.add_self_of_Y_eq (by simp [Affine.negY, curveOf, hy0])
    · right
      have hne : y ≠ (curveOf p c.B).negY x y := by
        intro he
        simp only [Affine.negY, curveOf] at he
        exact hy0 ((mul_eq_zero.1 (show 2 * y = 0 by linear_combination he)).resolve_left h2)
      have e := curve_eq hns
      have hz' : ((doubleJacobian c s).z : ZMod p) ≠ 0 := by
        rw [double_z hP, hy]
        exact mul_ne_zero (mul_ne_zero h2 (mul_ne_zero hy0 (pow_ne_zero _ hz))) hz
      have hl : (curveOf p c.B).slope x x y y * (2 * y) = 3 * x ^ 2 - 3 := by
        rw [Affine.slope_of_Y_ne rfl hne]
        have h2y : 2 * y ≠ 0 := mul_ne_zero h2 hy0
        simp only [Affine.negY, curveOf]
        rw [show y - (-y - 0 * x - 0) = 2 * y by ring, div_mul_cancel₀ _ h2y]
        ring
      refine ⟨hz', _, _, _, Affine.Point.add_self_of_Y_ne hne, ?_, ?_⟩
      all_goals
        simp only [double_x hP, double_y hP, double_z hP, hx, hy]
        simp only [Affine.addX, Affine.addY, Affine.negAddY, Affine.negY]
        generalize (curveOf p c.B).slope x x y y = l at hl ⊢
        generalize (s.z : ZMod p) = z at *
        simp only [curveOf]
        rw [show 3 * (x * z ^ 2 - z ^ 2) * (x * z ^ 2 + z ^ 2) = l * (2 * y) * z ^ 4 by
          linear_combination -(z ^ 4) * hl]
        ring

/-- The quantities of `addJacobian` in the field. -/
theorem add_coords (hP : c.P = p) (s t : Jac) (hs : s.z ≠ 0) (ht : t.z ≠ 0) :
    let u1 : ZMod p := s.x * t.z ^ 2
    let u2 : ZMod p := t.x * s.z ^ 2
    let s1 : ZMod p := s.y * t.z ^ 3
    let s2 : ZMod p := t.y * s.z ^ 3
    if u1 = u2 ∧ s1 = s2 then addJacobian c s t = doubleJacobian c s
    else
      ((addJacobian c s t).x : ZMod p) = 4 * ((s2 - s1) ^ 2 - (u2 - u1) ^ 3 - 2 * u1 * (u2 - u1) ^ 2) ∧
      ((addJacobian c s t).y : ZMod p) = 8 * ((s2 - s1) * (u1 * (u2 - u1) ^ 2 -
        ((s2 - s1) ^ 2 - (u2 - u1) ^ 3 - 2 * u1 * (u2 - u1) ^ 2)) - s1 * (u2 - u1) ^ 3) ∧
      ((addJacobian c s t).z : ZMod p) = 2 * s.z * t.z * (u2 - u1) ∧
      ((addJacobian c s t).z = 0 ↔ ((addJacobian c s t).z : ZMod p) = 0) := by
  intro u1 u2 s1 s2
  have hpos : (0 : Int) < c.P := by rw [hP]; exact_mod_cast (Fact.out : p.Prime).pos
  have hdiff : ∀ a b : Int, a % c.P - b % c.P = 0 ↔ (a : ZMod p) = b := by
    intro a b
    rw [sub_eq_zero, ← sub_eq_zero (a := (a : ZMod p)), ← Int.cast_sub, ← emod_eq_zero_iff hP]
    exact Int.emod_eq_emod_iff_emod_sub_eq_zero
  have hfix : ∀ a b : Int, fixSign c (a % c.P - b % c.P) = 0 ↔ (a : ZMod p) = b := by
    intro a b
    rw [← hdiff]
    have h1 := Int.emod_nonneg a hpos.ne'
    have h2 := Int.emod_lt_of_pos b hpos
    unfold fixSign
    split <;> omega
  have e : ((t.x * (s.z * s.z % c.P) % c.P - s.x * (t.z * t.z % c.P) % c.P = 0) ∧
      (fixSign c (t.y * s.z * (s.z * s.z % c.P) % c.P - s.y * t.z * (t.z * t.z % c.P) % c.P) = 0)) ↔
      (u1 = u2 ∧ s1 = s2) := by
    rw [hdiff, hfix]
    simp only [Int.cast_mul, cast_emod hP, u1, u2, s1, s2]
    constructor
    · rintro ⟨h1, h2⟩
      exact ⟨by linear_combination -h1, by linear_combination -h2⟩
    · rintro ⟨h1, h2⟩
      exact ⟨by linear_combination -h1, by linear_combination -h2⟩
  split
  · rename_i h
    unfold addJacobian
    rw [if_neg hs, if_neg ht]
    exact if_pos (e.2 h)
  · rename_i h
    unfold addJacobian
    rw [if_neg hs, if_neg ht]
    dsimp only
    rw [if_neg (mt e.1 h)]
    refine ⟨?_, ?_, ?_, ?_⟩
    · simp only [cast_emod hP, cast_fixSign hP, Int.cast_sub, Int.cast_mul, Int.cast_ofNat, u1, u2, s1, s2]
      ring
    · simp only [cast_emod hP, cast_fixSign hP, Int.cast_sub, Int.cast_mul, Int.cast_ofNat, u1, u2, s1, s2]
      ring
    · simp only [cast_emod hP, cast_fixSign hP, Int.cast_sub, Int.cast_mul, Int.cast_add, u1, u2]
      ring
    · simp only [cast_emod hP]
      exact emod_eq_zero_iff hP _

theorem rep_z {s : Jac} {Q : (curveOf p c.B).Point} (h : Rep c p s Q) : s.z = 0 ∨ (s.z : ZMod p) ≠ 0 := by
  rcases h with ⟨h, _⟩ | ⟨h, _⟩ <;> simp [h]

theorem rep_add (hP : c.P = p) (h2 : (2 : ZMod p) ≠ 0) {s t : Jac} {Q R : (curveOf p c.B).Point}
    (hs : Rep c p s Q) (ht : Rep c p t R) : Rep c p (addJacobian c s t) (Q + R) := by
  have hs' := hs
  rcases hs with ⟨hz, rfl⟩ | ⟨hz, x, y, hns, rfl, hx, hy⟩
  · rw [show addJacobian c s t = t by unfold addJacobian; rw [if_pos hz], zero_add]; exact ht
  · have hz0 : s.z ≠ 0 := by rintro h; simp [h] at hz
    rcases ht with ⟨hw, rfl⟩ | ⟨hw, x', y', hns', rfl, hx', hy'⟩
    · rw [show addJacobian c s t = s by unfold addJacobian; rw [if_neg hz0, if_pos hw], add_zero]; exact hs'
    · have hw0 : t.z ≠ 0 := by rintro h; simp [h] at hw
      have key := add_coords hP s t hz0 hw0
      simp only [hx, hy, hx', hy'] at key
      have hzw : (s.z : ZMod p) * t.z ≠ 0 := mul_ne_zero hz hw
      have ex : (x * s.z ^ 2 * t.z ^ 2 : ZMod p) = x' * t.z ^ 2 * s.z ^ 2 ↔ x = x' := by
        constructor
        · intro h; exact mul_right_cancel₀ (pow_ne_zero 2 hzw) (by linear_combination h)
        · rintro rfl; ring
      have ey : (y * s.z ^ 3 * t.z ^ 3 : ZMod p) = y' * t.z ^ 3 * s.z ^ 3 ↔ y = y' := by
        constructor
        · intro h; exact mul_right_cancel₀ (pow_ne_zero 3 hzw) (by linear_combination h)
        · rintro rfl; ring
      split at key
      · rename_i he
        rw [ex, ey] at he
        obtain ⟨rfl, rfl⟩ := he
        rw [key]
        exact rep_double hP h2 hs'
      · rename_i he
        rw [ex, ey] at he
        obtain ⟨kx, ky, kz, kz0⟩ := key
        by_cases hxx : x = x'
        · subst hxx
          have hyy : y = (curveOf p c.B).negY x y' := by
            have h1 := curve_eq hns
            have h2 := curve_eq hns'
            have h3 : (y - y') * (y + y') = 0 := by linear_combination h1 - h2
            simp only [Affine.negY, curveOf]
            have := (mul_eq_zero.1 h3).resolve_left (fun h => he ⟨rfl, sub_eq_zero.1 h⟩)
            linear_combination this
          left
          refine ⟨kz0.2 (by rw [kz]; ring), Affine.Point.add_of_Y_eq rfl hyy⟩
        · right
          have hd : x - x' ≠ 0 := sub_ne_zero.2 hxx
          have hl : (curveOf p c.B).slope x x' y y' * (x - x') = y - y' := by
            rw [Affine.slope_of_X_ne hxx, div_mul_cancel₀ _ hd]
          refine ⟨?_, _, _, _, Affine.Point.add_of_X_ne hxx, ?_, ?_⟩
          · rw [kz, show (2 * s.z * t.z * (x' * t.z ^ 2 * s.z ^ 2 - x * s.z ^ 2 * t.z ^ 2) : ZMod p) =
              2 * (s.z * t.z) * (-(x - x') * (s.z * t.z) ^ 2) by ring]
            exact mul_ne_zero (mul_ne_zero h2 hzw) (mul_ne_zero (neg_ne_zero.2 hd) (pow_ne_zero _ hzw))
          all_goals
            simp only [kx, ky, kz]
            simp only [Affine.addX, Affine.addY, Affine.negAddY, Affine.negY]
            generalize (curveOf p c.B).slope x x' y y' = l at hl ⊢
            obtain rfl : y' = y - l * (x - x') := by linear_combination hl
            generalize (s.z : ZMod p) = z at *
            generalize (t.z : ZMod p) = w at *
            simp only [curveOf]
            ring

/-- The pair of integers Go uses for a point: reduced affine coordinates, (0, 0) for the point at infinity. -/
def enc {b : Int} : (curveOf p b).Point → Int × Int
  | .zero => (0, 0)
  | .some x y _ => ((x.val : Int), (y.val : Int))

/-- The pair of integers `a`, not necessarily reduced, denotes the affine point `Q`. -/
def IsAff (c : CurveParams) (p : ℕ) [Fact p.Prime] (a : Int × Int) (Q : (curveOf p c.B).Point) : Prop :=
  ∃ h, Q = .some (a.1 : ZMod p) (a.2 : ZMod p) h

/-- The pair of integers `a` denotes the point `Q`, with (0, 0) for infinity. -/
def IsPt (c : CurveParams) (p : ℕ) [Fact p.Prime] (a : Int × Int) (Q : (curveOf p c.B).Point) : Prop :=
  (a = (0, 0) ∧ Q = 0) ∨ IsAff c p a Q

omit [Fact p.Prime] in
@[simp] theorem enc_zero {b : Int} : enc (0 : (curveOf p b).Point) = (0, 0) := rfl

theorem cast_val (x : ZMod p) : (((x.val : ℕ) : Int) : ZMod p) = x := by
  rw [Int.cast_natCast, ZMod.natCast_zmod_val]

theorem enc_isPt (Q : (curveOf p c.B).Point) : IsPt c p (enc Q) Q := by
  cases Q with
  | zero => exact Or.inl ⟨rfl, rfl⟩
  | some x y h =>
    refine Or.inr ⟨?_, ?_⟩
    · simp only [enc, cast_val]; exact h
    · simp only [enc, cast_val]

theorem rep_of_isAff {a : Int × Int} {Q : (curveOf p c.B).Point} (h : IsAff c p a Q) : Rep c p ⟨a.1, a.2, 1⟩ Q := by
  obtain ⟨h, rfl⟩ := h
  exact Or.inr ⟨by simp, _, _, h, rfl, by simp, by simp⟩

theorem isAff_ne {a : Int × Int} {Q : (curveOf p c.B).Point} (hb : (c.B : ZMod p) ≠ 0) (h : IsAff c p a Q) :
    a ≠ (0, 0) := by
  rintro rfl
  obtain ⟨h, -⟩ := h
  have := curve_eq h
  simp at this
  exact hb this.symm

theorem rep_of_isPt {a : Int × Int} {Q : (curveOf p c.B).Point} (hb : (c.B : ZMod p) ≠ 0) (h : IsPt c p a Q) :
    Rep c p ⟨a.1, a.2, zForAffine a.1 a.2⟩ Q := by
  rcases h with ⟨rfl, rfl⟩ | h
  · exact Or.inl ⟨by simp [zForAffine], rfl⟩
  · have hne := isAff_ne hb h
    have : zForAffine a.1 a.2 = 1 := by
      unfold zForAffine
      rw [if_pos]
      by_contra hc
      push Not at hc
      exact hne (Prod.ext hc.1 hc.2)
    rw [this]
    exact rep_of_isAff h

theorem modInverse_spec (hP : c.P = p) {z : Int} (hz : (z : ZMod p) ≠ 0) :
    ∃ w, modInverse z c.P = some w ∧ (w : ZMod p) * z = 1 := by
  have hco : Int.gcd (z % c.P) c.P = 1 := by
    rw [hP, Int.gcd_comm, ← Int.isCoprime_iff_gcd_eq_one, Int.isCoprime_iff_gcd_eq_one]
    rw [Int.gcd_eq_natAbs, Int.natAbs_natCast]
    refine (Nat.Prime.coprime_iff_not_dvd Fact.out).2 fun hd => hz ?_
    have : (p : Int) ∣ z % p := Int.natCast_dvd.2 hd
    rw [← ZMod.intCast_mod, ZMod.intCast_zmod_eq_zero_iff_dvd]
    exact this
  refine ⟨_, if_pos hco, ?_⟩
  rw [cast_emod hP]
  have := Int.gcd_eq_gcd_ab (z % c.P) c.P
  rw [hco] at this
  have h2 := congrArg (Int.cast : Int → ZMod p) this
  push_cast at h2
  rw [cast_P hP, cast_emod hP] at h2
  linear_combination -h2

theorem emod_val (hP : c.P = p) {v : Int} {x : ZMod p} (h : (v : ZMod p) = x) : v % c.P = (x.val : Int) := by
  rw [hP, ← h, ZMod.val_intCast]

theorem affine_of_rep (hP : c.P = p) {s : Jac} {Q : (curveOf p c.B).Point} (h : Rep c p s Q) :
    affineFromJacobian c s = .ok (enc Q) := by
  unfold affineFromJacobian
  rcases h with ⟨hz, rfl⟩ | ⟨hz, x, y, hns, rfl, hx, hy⟩
  · rw [if_pos hz]; rfl
  · rw [if_neg (by rintro h; simp [h] at hz)]
    obtain ⟨w, hw, hw1⟩ := modInverse_spec hP hz
    rw [hw]
    simp only [enc]
    rw [emod_val hP (x := x), emod_val hP (x := y)]
    · push_cast
      rw [hy, show (y * s.z ^ 3 * (w * w * w) : ZMod p) = y * (w * s.z) ^ 3 by ring, hw1]; ring
    · push_cast
      rw [hx, show (x * s.z ^ 2 * (w * w) : ZMod p) = x * (w * s.z) ^ 2 by ring, hw1]; ring

/-- `Add` computes the group law. -/
theorem add_spec (hP : c.P = p) (h2 : (2 : ZMod p) ≠ 0) (hb : (c.B : ZMod p) ≠ 0) {a b : Int × Int}
    {Q R : (curveOf p c.B).Point} (ha : IsPt c p a Q) (hb' : IsPt c p b R) : add c a b = .ok (enc (Q + R)) :=
  affine_of_rep hP (rep_add hP h2 (rep_of_isPt hb ha) (rep_of_isPt hb hb'))

theorem bits_arith (byte : Byte) (n : Nat) (hn : n ≤ 7) :
    (if byte &&& 0x80 = 0x80 then 1 else 0) * 2 ^ n + (byte <<< 1).toNat / 2 ^ (8 - n) = byte.toNat / 2 ^ (7 - n) := by
  have : ∀ n : Fin 8, ∀ byte : Byte,
    (if byte &&& 0x80 = 0x80 then 1 else 0) * 2 ^ n.1 + (byte <<< 1).toNat / 2 ^ (8 - n.1) =
      byte.toNat / 2 ^ (7 - n.1) := by decide +kernel
  exact this ⟨n, by omega⟩ byte

theorem rep_scalarBits (hP : c.P = p) (h2 : (2 : ZMod p) ≠ 0) {b : Int × Int} {B : (curveOf p c.B).Point}
    (hb : IsAff c p b B) (n : Nat) : ∀ (byte : Byte) (s : Jac) (m : Nat), n ≤ 8 → Rep c p s (m • B) →
    Rep c p (scalarBits c b n byte s) ((m * 2 ^ n + byte.toNat / 2 ^ (8 - n)) • B) := by
  induction n with
  | zero =>
    intro byte s m _ h
    simpa [scalarBits, Nat.div_eq_of_lt byte.isLt] using h
  | succ n ih =>
    intro byte s m hn h
    unfold scalarBits
    have hd : Rep c p (doubleJacobian c s) ((2 * m) • B) := by
      rw [two_mul, add_nsmul]; exact rep_double hP h2 h
    have ha : Rep c p (if byte &&& 0x80 = 0x80 then addJacobian c ⟨b.1, b.2, 1⟩ (doubleJacobian c s)
        else doubleJacobian c s) ((2 * m + (if byte &&& 0x80 = 0x80 then 1 else 0)) • B) := by
      split
      · rw [add_comm, add_nsmul, one_nsmul]
        exact rep_add hP h2 (rep_of_isAff hb) hd
      · exact hd
    have := ih (byte <<< 1) _ _ (by omega) ha
    rw [show (2 * m + (if byte &&& 0x80 = 0x80 then 1 else 0)) * 2 ^ n + (byte <<< 1).toNat / 2 ^ (8 - n) =
      m * 2 ^ (n + 1) + byte.toNat / 2 ^ (8 - (n + 1)) by
        rw [show 8 - (n + 1) = 7 - n by omega, ← bits_arith byte n (by omega)]; ring] at this
    exact this

theorem rep_scalar (hP : c.P = p) (h2 : (2 : ZMod p) ≠ 0) {b : Int × Int} {B : (curveOf p c.B).Point}
    (hb : IsAff c p b B) (k : Bytes) : ∀ (s : Jac) (m : Nat), Rep c p s (m • B) →
    Rep c p (k.foldl (fun s byte => scalarBits c b 8 byte s) s) ((m * 256 ^ k.length + beNat k) • B) := by
  induction k with
  | nil => intro s m h; simpa [beNat] using h
  | cons byte k ih =>
    intro s m h
    have := ih _ _ (rep_scalarBits hP h2 hb 8 byte s m le_rfl h)
    rw [List.foldl_cons, beNat_cons, List.length_cons]
    convert this using 2
    simp only [Nat.sub_self, pow_zero, Nat.div_one]
    ring

/-- `ScalarMult` on an affine point computes the multiple. -/
theorem scalarMult_spec (hP : c.P = p) (h2 : (2 : ZMod p) ≠ 0) {b : Int × Int} {B : (curveOf p c.B).Point}
    (hb : IsAff c p b B) (k : Bytes) : scalarMult c b k = .ok (enc (beNat k • B)) := by
  have := rep_scalar hP h2 hb k ⟨0, 0, 0⟩ 0 (Or.inl ⟨rfl, by simp⟩)
  rw [Nat.zero_mul, Nat.zero_add] at this
  exact affine_of_rep hP this

theorem enc_injective {b : Int} (hb : (b : ZMod p) ≠ 0) {Q R : (curveOf p b).Point} (h : enc Q = enc R) : Q = R := by
  have hz : ∀ {x y : ZMod p}, (curveOf p b).Nonsingular x y → ¬ (x = 0 ∧ y = 0) := by
    rintro x y h ⟨rfl, rfl⟩
    have := curve_eq h
    simp at this
    exact hb this.symm
  cases Q with
  | zero =>
    cases R with
    | zero => rfl
    | some x y hn =>
      simp only [enc, Prod.mk.injEq] at h
      exact absurd ⟨(ZMod.val_eq_zero x).1 (by omega), (ZMod.val_eq_zero y).1 (by omega)⟩ (hz hn)
  | some x y hn =>
    cases R with
    | zero =>
      simp only [enc, Prod.mk.injEq] at h
      exact absurd ⟨(ZMod.val_eq_zero x).1 (by omega), (ZMod.val_eq_zero y).1 (by omega)⟩ (hz hn)
    | some x' y' hn' =>
      simp only [enc, Prod.mk.injEq, Int.natCast_inj] at h
      obtain ⟨h1, h2⟩ := h
      obtain rfl := ZMod.val_injective p h1
      obtain rfl := ZMod.val_injective p h2
      rfl

theorem isOnCurve_iff (hP : c.P = p) (hd : (curveOf p c.B).Δ ≠ 0) (x y : Int) :
    isOnCurve c x y = true ↔ (curveOf p c.B).Nonsingular (x : ZMod p) (y : ZMod p) := by
  rw [← Affine.equation_iff_nonsingular_of_Δ_ne_zero hd, Affine.equation_iff]
  unfold isOnCurve
  rw [decide_eq_true_eq, Int.emod_eq_emod_iff_emod_sub_eq_zero, emod_eq_zero_iff hP]
  simp only [curveOf]
  push_cast
  constructor
  · intro h; linear_combination -h
  · intro h; linear_combination -h

end Verif.EC
