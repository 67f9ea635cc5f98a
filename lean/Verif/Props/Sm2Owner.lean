import Verif.Props.Sm2Twins
import Verif.Props.Sm2Binding
import Verif.Props.Sm2Exchange
/-!
# Property C141: a signature belongs to one key

The public keys under which a pair `(r, s)` is accepted can be computed from the pair and the digest value. What prevents anybody
from choosing a key of their own for somebody else's signature is that the key is hashed into the digest.
-/
namespace Verif.Props
open EC Verif.Sm2
open Verif.Spec.SM2 (coords fe Accepts)

attribute [local irreducible] Spec.SM2.fe Spec.SM3.hash

/-- `[(r + s)⁻¹](R - [s]G)`: the public key under which `(r, s)` leads to the point `R`. -/
noncomputable def recoveredKey (R : Pt) (r s : Int) : Pt := ((((r + s : Int) : ZMod n))⁻¹).val • (R - s • G)

theorem emod_ne_zero_cast {t : Int} (h : t % n ≠ 0) : (t : ZMod n) ≠ 0 := by
  rw [Ne, cast_eq_zero_iff]
  exact fun hd => h (Int.emod_eq_zero_of_dvd hd)

theorem recovered_iff {P R : Pt} {r s : Int} (ht : (r + s) % n ≠ 0) : verifyPoint P r s = R ↔ P = recoveredKey R r s := by
  have hz := emod_ne_zero_cast ht
  have hc : (((r + s) % (n : Int) : Int) : ZMod n) = ((r + s : Int) : ZMod n) := by rw [← cv_N]; exact zn_cast_emod (r + s)
  have one : ∀ (a b : Int), ((a : ZMod n) * b = 1) → ∀ Q : Pt, a • (b • Q) = Q := by
    intro a b hab Q
    rw [← mul_zsmul]
    have := zsmul_congr (u := a * b) (v := 1) (by push_cast; exact hab) Q
    rw [this, one_zsmul]
  have hv : (((((r + s : Int) : ZMod n))⁻¹).val : ZMod n) = ((r + s : Int) : ZMod n)⁻¹ := ZMod.natCast_zmod_val _
  unfold verifyPoint recoveredKey
  rw [← natCast_zsmul]
  constructor
  · rintro rfl
    rw [add_sub_cancel_left, one]
    rw [Int.cast_natCast, hv, hc]
    exact inv_mul_cancel₀ hz
  · rintro rfl
    rw [one, add_sub_cancel]
    rw [Int.cast_natCast, hv, hc]
    exact mul_inv_cancel₀ hz

/-- **C141** The keys under which a pair is accepted are those that the pair and the digest value give: one for every point whose
x coordinate is `r - e` modulo `n`. -/
theorem C141_recover (P : Pt) (x y : ℕ) (hP : coords P = some (x, y)) (id : Option Bytes) (hid : (id.getD defaultUserId).length < 8192)
    (M : Bytes) (hM : M ≠ []) (hM' : M.length < 2 ^ 31) (r s : Int) :
    verifyByRS ⟨x, y⟩ id M r s = .ok true ↔ 1 ≤ r ∧ r < n ∧ 1 ≤ s ∧ s < n ∧ (r + s) % n ≠ 0 ∧
      ∃ R xR yR, coords R = some (xR, yR) ∧ r = ((Spec.SM2.e (id.getD defaultUserId) M x y : Int) + xR) % n ∧ P = recoveredKey R r s := by
  obtain ⟨b, hb, hb'⟩ := C36_exact P x y hP id hid M hM hM' r s
  rw [hb, Res.ok.injEq, hb']
  constructor
  · rintro ⟨a, c, h0, h1, h2, h3, h4, h5, x1, y1, h6, h7⟩
    rw [hP, Option.some.injEq, Prod.mk.injEq] at h0
    obtain ⟨rfl, rfl⟩ := h0
    exact ⟨h1, h2, h3, h4, h5, _, x1, y1, h6, h7, (recovered_iff h5).1 rfl⟩
  · rintro ⟨h1, h2, h3, h4, h5, R, xR, yR, h6, h7, h8⟩
    have := (recovered_iff (P := P) (R := R) h5).2 h8
    refine ⟨x, y, hP, h1, h2, h3, h4, h5, xR, yR, ?_, h7⟩
    rw [← h6, ← this]
    rfl

/-- **C141** For a pair and a digest value (modulo `n`) there are at most four public keys, whatever the ids and the messages. -/
theorem C141_four (r s : Int) (e : ℕ) (K : Finset Pt) (h : ∀ P ∈ K, ∃ x y id M, coords P = some (x, y) ∧ (id.getD defaultUserId).length < 8192 ∧
    verifyByRS ⟨x, y⟩ id M r s = .ok true ∧ Spec.SM2.e (id.getD defaultUserId) M x y ≡ e [MOD n]) : K.card ≤ 4 := by
  have hn := n_gt
  have hp := p_lt_two_n
  let T : Int → Set Pt := fun a => {Q : Pt | Q ≠ 0 ∧ (enc Q).1 = a}
  let a := (r - e) % (n : Int)
  have hf : (T a ∪ T (a + n)).Finite := (ncard_fst a).1.union (ncard_fst (a + n)).1
  have hc : (T a ∪ T (a + n)).ncard ≤ 4 :=
    le_trans (Set.ncard_union_le _ _) (by have := (ncard_fst a).2; have := (ncard_fst (a + n)).2; simp only [T]; omega)
  have hK : ∀ P ∈ K, (r + s) % n ≠ 0 ∧ verifyPoint P r s ∈ T a ∪ T (a + n) := by
    intro P hPK
    obtain ⟨x, y, id, M, hP, hid, hv, he⟩ := h P hPK
    obtain ⟨x', y', c1, h1, h2, h3, h4, h5, x1, y1, c2, c3⟩ := C36_sound P x y hP id hid M r s hv
    rw [hP, Option.some.injEq, Prod.mk.injEq] at c1
    obtain ⟨rfl, rfl⟩ := c1
    obtain ⟨g1, g2⟩ := x_of_enc.2 ⟨x1, y1, c2, c3⟩
    refine ⟨h5, ?_⟩
    have he' : r = ((e : Int) + (enc (verifyPoint P r s)).1) % n := by
      refine g2.trans ?_
      exact Int.ModEq.add_right _ (Int.natCast_modEq_iff.2 he)
    have l0 := (enc_nonneg (verifyPoint P r s)).1
    have l1 := (enc_lt (verifyPoint P r s)).1
    rcases two_candidates l0 (by omega) he' with hx | hx
    · exact .inl ⟨g1, hx⟩
    · exact .inr ⟨g1, hx⟩
  have hinj : Set.InjOn (fun P => verifyPoint P r s) (K : Set Pt) := by
    intro P hP P' hP' heq
    have ht := (hK P hP).1
    rw [(recovered_iff (R := verifyPoint P' r s) ht).1 heq]
    exact ((recovered_iff ht).1 rfl).symm
  rw [← Set.ncard_coe_finset]
  exact le_trans (Set.ncard_le_ncard_of_injOn _ (fun P hP => (hK P hP).2) hinj hf) hc

/-- **C141** Two different keys with the same digest value, for whatever ids and messages, are a collision of SM3. -/
theorem C141_collision (x y x' y' : ℕ) (hx : x < 2 ^ 256) (hy : y < 2 ^ 256) (hx' : x' < 2 ^ 256) (hy' : y' < 2 ^ 256) (id id' M M' : Bytes)
    (hne : (x, y) ≠ (x', y')) (h : Spec.SM2.e id M x y = Spec.SM2.e id' M' x' y') :
    ∃ a b : Bytes, a ≠ b ∧ Spec.SM3.hash a = Spec.SM3.hash b ∧
      (a = Spec.SM2.zInput id x y ∧ b = Spec.SM2.zInput id' x' y' ∨ a = Spec.SM2.Z id x y ++ M ∧ b = Spec.SM2.Z id' x' y' ++ M') := by
  by_cases hz : Spec.SM2.Z id x y = Spec.SM2.Z id' x' y'
  · refine ⟨_, _, ?_, hz, .inl ⟨rfl, rfl⟩⟩
    intro hi
    unfold Spec.SM2.zInput at hi
    obtain ⟨h1, h2⟩ := List.append_inj' hi (by rw [length_fe, length_fe])
    obtain ⟨_, h3⟩ := List.append_inj' h1 (by rw [length_fe, length_fe])
    exact hne (by rw [fe_inj hx hx' h3, fe_inj hy hy' h2])
  · refine ⟨_, _, ?_, ?_, .inr ⟨rfl, rfl⟩⟩
    · intro hi
      exact hz (List.append_inj hi (by rw [length_Z, length_Z])).1
    · exact beNat_inj (by rw [hash_length, hash_length]) h

/-- **C141** The pair and the digest value alone do not determine the key: for every accepted pair there is a second public key whose
verification leads to a point with the same x coordinate. Verification under that key differs in nothing but the digest. -/
theorem C141_second (P : Pt) (x y : ℕ) (hP : coords P = some (x, y)) (id : Option Bytes) (hid : (id.getD defaultUserId).length < 8192)
    (M : Bytes) (hM : M ≠ []) (hM' : M.length < 2 ^ 31) (r s : Int) (h : verifyByRS ⟨x, y⟩ id M r s = .ok true) :
    ∃ P', P' ≠ P ∧ (P' ≠ 0 → ∃ x' y', coords P' = some (x', y') ∧ ∀ id' M', (id'.getD defaultUserId).length < 8192 → M' ≠ [] → M'.length < 2 ^ 31 →
      (verifyByRS ⟨x', y'⟩ id' M' r s = .ok true ↔
        Spec.SM2.e (id'.getD defaultUserId) M' x' y' ≡ Spec.SM2.e (id.getD defaultUserId) M x y [MOD n])) := by
  obtain ⟨h1, h2, h3, h4, h5, R, xR, yR, h6, h7, h8⟩ := (C141_recover P x y hP id hid M hM hM' r s).1 h
  have hR : R ≠ 0 := by rintro rfl; cases h6
  have hR' : -R ≠ 0 := neg_ne_zero.2 hR
  obtain ⟨xN, yN, c6, _, _⟩ := coords_ne hR'
  have hx : xN = xR := by
    have e1 := enc_coords h6
    have e2 := enc_coords c6
    have e3 : (enc (-R)).1 = (enc R).1 := by
      cases R with
      | zero => exact absurd rfl hR
      | some a b hab => rfl
    rw [e1, e2] at e3
    exact Int.ofNat.inj e3
  subst hx
  have hne : recoveredKey (-R) r s ≠ P := by
    intro he
    have e1 := (recovered_iff (R := -R) h5).2 he.symm
    rw [(recovered_iff h5).2 h8] at e1
    have e2 : 2 • R = 0 := by rw [two_nsmul]; nth_rw 1 [e1]; exact neg_add_cancel R
    rw [smul_eq_zero hR, n_val] at e2
    norm_num at e2
  refine ⟨recoveredKey (-R) r s, hne, fun h0 => ?_⟩
  obtain ⟨x', y', c', _, _⟩ := coords_ne h0
  refine ⟨x', y', c', fun id' M' hid' hM1 hM2 => ?_⟩
  rw [C141_recover _ x' y' c' id' hid' M' hM1 hM2]
  constructor
  · rintro ⟨_, _, _, _, _, R', xR', yR', g1, g2, g3⟩
    have e1 : R' = -R := ((recovered_iff h5).2 g3).symm.trans ((recovered_iff h5).2 rfl)
    subst e1
    rw [c6, Option.some.injEq, Prod.mk.injEq] at g1
    obtain ⟨rfl, rfl⟩ := g1
    rw [h7] at g2
    exact (Int.natCast_modEq_iff.1 (Int.ModEq.add_right_cancel' _ (show (_ : Int) ≡ _ [ZMOD n] from g2))).symm
  · intro he
    refine ⟨h1, h2, h3, h4, h5, -R, xN, yN, c6, ?_, rfl⟩
    rw [h7]
    exact Int.ModEq.add_right _ (Int.natCast_modEq_iff.2 he.symm)

/-- The signature of "a" in `Sm2Sign` (key 2) meets the hypotheses of C141. -/
example : ∃ (P : Pt) (x y : ℕ), coords P = some (x, y) ∧ verifyByRS ⟨x, y⟩ none [0x61] exR exS = .ok true ∧
    ∃ R, P = recoveredKey R exR exS := by
  have hd : ¬ n ∣ 2 := by rw [n_val]; norm_num
  obtain ⟨x, y, hc, _, _⟩ := coords_dG hd
  obtain ⟨pub, h1⟩ : ∃ pub, calculatePubKey ⟨(2 : ℕ)⟩ = .ok pub := by
    unfold calculatePubKey; rw [baseMult_int]; exact ⟨_, rfl⟩
  have h2 := C35_verifies 2 pub h1 none _ _ _ _ example_sign
  rw [pub_of_coords h1 hc] at h2
  obtain ⟨_, _, _, _, _, R, _, _, _, _, h3⟩ := (C141_recover _ x y hc none (by decide) [0x61] (by simp) (by simp) _ _).1 h2
  exact ⟨2 • G, x, y, hc, h2, R, h3⟩

end Verif.Props
