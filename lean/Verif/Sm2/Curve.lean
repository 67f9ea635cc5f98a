import Verif.EC.Group
import Verif.EC.Prime
import Verif.EC.Eval
/-!
# The curve of /repo/sm2/sm2.go:78-93, and the order of its base point

`Pt` is Mathlib's group of points of `y² = x³ - 3x + b` over the field with `P` elements; `G` is the base point;
`N • G = 0`, `N` is prime and `G ≠ 0`, so `G` has order exactly `N`.
-/
namespace Verif.Sm2
open Verif Verif.EC

/-- `P256V1Curve` (/repo/sm2/sm2.go:43-46): the embedded parameters and the coefficient `A`. -/
structure P256V1Curve extends CurveParams where
  A : Int

/-- `initSm2P256V1` (/repo/sm2/sm2.go:78-93) and `BitSize` (20). -/
def sm2P256V1 : P256V1Curve where
  P := 0xFFFFFFFEFFFFFFFFFFFFFFFFFFFFFFFFFFFFFFFF00000000FFFFFFFFFFFFFFFF
  A := 0xFFFFFFFEFFFFFFFFFFFFFFFFFFFFFFFFFFFFFFFF00000000FFFFFFFFFFFFFFFC
  B := 0x28E9FA9E9D9F5E344D5A9E4BCF6509A7F39789F515AB8F92DDBCBD414D940E93
  N := 0xFFFFFFFEFFFFFFFFFFFFFFFFFFFFFFFF7203DF6B21C6052B53BBF40939D54123
  Gx := 0x32C4AE2C1F1981195F9904466A39C9948FE30BBFF2660BE1715A4589334C74C7
  Gy := 0xBC3736A2F4F6779C59BDCEE36B692153D0A9877CC62A474002DF32E52139F0A0
  bitSize := 256

/-- The curve parameters as crypto/elliptic sees them. -/
abbrev cv : CurveParams := sm2P256V1.toCurveParams

/-- The field modulus as a natural number. -/
@[irreducible] def p : ℕ := 0xFFFFFFFEFFFFFFFFFFFFFFFFFFFFFFFFFFFFFFFF00000000FFFFFFFFFFFFFFFF
/-- The group order as a natural number. -/
@[irreducible] def n : ℕ := 0xFFFFFFFEFFFFFFFFFFFFFFFFFFFFFFFF7203DF6B21C6052B53BBF40939D54123

theorem p_val : p = 0xFFFFFFFEFFFFFFFFFFFFFFFFFFFFFFFFFFFFFFFF00000000FFFFFFFFFFFFFFFF := by unfold p; rfl
theorem n_val : n = 0xFFFFFFFEFFFFFFFFFFFFFFFFFFFFFFFF7203DF6B21C6052B53BBF40939D54123 := by unfold n; rfl

theorem p_prime : p.Prime := by rw [p_val]; exact prime_P
theorem n_prime : n.Prime := by rw [n_val]; exact prime_N

instance : Fact p.Prime := ⟨p_prime⟩
instance : Fact n.Prime := ⟨n_prime⟩

theorem cv_P : cv.P = (p : Int) := by rw [p_val]; rfl
theorem cv_N : cv.N = (n : Int) := by rw [n_val]; rfl

theorem two_ne_zero' : (2 : ZMod p) ≠ 0 := by
  rw [show (2 : ZMod p) = ((2 : ℕ) : ZMod p) by norm_num, Ne, ZMod.natCast_eq_zero_iff, p_val]
  decide

theorem B_ne_zero : ((cv.B : Int) : ZMod p) ≠ 0 := by
  rw [Ne, ZMod.intCast_zmod_eq_zero_iff_dvd, p_val]
  decide +kernel

/-- The group of points of the SM2 curve. -/
abbrev Pt := (curveOf p cv.B).Point

theorem disc_ne_zero : (curveOf p cv.B).Δ ≠ 0 := by
  have h : (curveOf p cv.B).Δ = ((432 * (4 - cv.B ^ 2) : Int) : ZMod p) := by
    simp only [WeierstrassCurve.Δ, WeierstrassCurve.b₂, WeierstrassCurve.b₄, WeierstrassCurve.b₆, WeierstrassCurve.b₈,
      curveOf]
    push_cast
    ring
  rw [h, Ne, ZMod.intCast_zmod_eq_zero_iff_dvd, p_val]
  decide +kernel

theorem onCurve_iff (x y : Int) : isOnCurve cv x y = true ↔ (curveOf p cv.B).Nonsingular (x : ZMod p) (y : ZMod p) :=
  isOnCurve_iff cv_P disc_ne_zero x y

theorem G_onCurve : (curveOf p cv.B).Nonsingular (cv.Gx : ZMod p) (cv.Gy : ZMod p) :=
  (onCurve_iff _ _).1 (by decide +kernel)

/-- The base point. -/
def G : Pt := .some _ _ G_onCurve

theorem G_isAff : IsAff cv p (cv.Gx, cv.Gy) G := ⟨G_onCurve, rfl⟩

/-- Any affine point given by integers on the curve. -/
def ptOf (a : Int × Int) (h : isOnCurve cv a.1 a.2 = true) : Pt := .some _ _ ((onCurve_iff a.1 a.2).1 h)

theorem ptOf_isAff (a : Int × Int) (h : isOnCurve cv a.1 a.2 = true) : IsAff cv p a (ptOf a h) := ⟨_, rfl⟩

theorem mult_spec {b : Int × Int} {Q : Pt} (hb : IsAff cv p b Q) (k : Bytes) :
    scalarMult cv b k = .ok (enc (beNat k • Q)) := scalarMult_spec cv_P two_ne_zero' hb k

theorem baseMult_spec (k : Bytes) : scalarBaseMult cv k = .ok (enc (beNat k • G)) := mult_spec G_isAff k

theorem cvAdd_spec {a b : Int × Int} {Q R : Pt} (ha : IsPt cv p a Q) (hb : IsPt cv p b R) :
    add cv a b = .ok (enc (Q + R)) := add_spec cv_P two_ne_zero' B_ne_zero ha hb

theorem enc_inj {Q R : Pt} (h : enc Q = enc R) : Q = R := enc_injective B_ne_zero h

theorem enc_eq_zero {Q : Pt} : enc Q = (0, 0) ↔ Q = 0 :=
  ⟨fun h => enc_inj (h.trans enc_zero.symm), fun h => by rw [h]; rfl⟩

theorem enc_isAff {Q : Pt} (h : Q ≠ 0) : IsAff cv p (enc Q) Q :=
  (enc_isPt Q).resolve_left (fun h' => h h'.2)

theorem enc_nonneg (Q : Pt) : 0 ≤ (enc Q).1 ∧ 0 ≤ (enc Q).2 := by
  cases Q <;> exact ⟨Int.natCast_nonneg _, Int.natCast_nonneg _⟩

theorem enc_lt (Q : Pt) : (enc Q).1 < p ∧ (enc Q).2 < p := by
  cases Q with
  | zero => simp [enc, p_prime.pos]
  | some x y h => exact ⟨Int.ofNat_lt.2 (ZMod.val_lt x), Int.ofNat_lt.2 (ZMod.val_lt y)⟩

theorem p_lt : p < 2 ^ 256 := by rw [p_val]; norm_num
theorem n_lt : n < 2 ^ 256 := by rw [n_val]; norm_num
theorem n_gt : 2 ^ 255 < n := by rw [n_val]; norm_num

theorem G_ne_zero : G ≠ 0 := WeierstrassCurve.Affine.Point.some_ne_zero _

/-- The group order annihilates the base point: the code's own scalar multiplication, run in the kernel. -/
theorem n_smul_G : n • G = 0 := by
  have h : scalarBaseMult cv (natBytes 0xFFFFFFFEFFFFFFFFFFFFFFFFFFFFFFFF7203DF6B21C6052B53BBF40939D54123) =
      .ok (0, 0) := by
    unfold scalarBaseMult
    rw [scalarMult_eq_F]
    decide +kernel
  rw [baseMult_spec, beNat_natBytes, ← n_val, Res.ok.injEq] at h
  exact enc_eq_zero.1 h

theorem addOrderOf_G : addOrderOf G = n :=
  addOrderOf_eq_prime n_smul_G G_ne_zero

theorem smul_G_eq_zero_iff (k : ℕ) : k • G = 0 ↔ n ∣ k := by
  rw [← addOrderOf_G]; exact addOrderOf_dvd_iff_nsmul_eq_zero.symm

theorem smul_G_eq_iff (k l : ℕ) : k • G = l • G ↔ k % n = l % n := by
  rw [← addOrderOf_G]; exact nsmul_eq_nsmul_iff_modEq

end Verif.Sm2
