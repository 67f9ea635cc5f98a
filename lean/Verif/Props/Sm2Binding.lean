import Verif.Props.Sm2SignCount
/-!
# What a signature is bound to (C95)
-/
namespace Verif.Props
open EC Verif.Sm2
open Verif.Spec.SM2 (coords fe Accepts)

attribute [local irreducible] Spec.SM2.fe Spec.SM3.hash

/-- C95: if a signature is accepted under one key for two messages (and ids), then `SM3(Z ‖ M)` is the same number modulo `n`
for both. Nothing but such a coincidence of hash values makes a signature fit another message or another id. -/
theorem C95_message (P : Pt) (x y : ℕ) (hP : coords P = some (x, y)) (id id' : Option Bytes)
    (hid : (id.getD defaultUserId).length < 8192) (hid' : (id'.getD defaultUserId).length < 8192) (M M' : Bytes) (r s : Int)
    (h : verifyByRS ⟨x, y⟩ id M r s = .ok true) (h' : verifyByRS ⟨x, y⟩ id' M' r s = .ok true) :
    Spec.SM2.e (id.getD defaultUserId) M x y ≡ Spec.SM2.e (id'.getD defaultUserId) M' x y [MOD n] := by
  obtain ⟨a, b, c1, _, _, _, _, _, x1, y1, c2, c3⟩ := C36_sound P x y hP id hid M r s h
  obtain ⟨a', b', c1', _, _, _, _, _, x1', y1', c2', c3'⟩ := C36_sound P x y hP id' hid' M' r s h'
  rw [hP, Option.some.injEq, Prod.mk.injEq] at c1 c1'
  obtain ⟨rfl, rfl⟩ := c1
  obtain ⟨rfl, rfl⟩ := c1'
  rw [c2, Option.some.injEq, Prod.mk.injEq] at c2'
  obtain ⟨rfl, rfl⟩ := c2'
  rw [c3] at c3'
  have := Int.ModEq.add_right_cancel' _ (show (_ : Int) ≡ _ [ZMOD n] from c3')
  exact Int.natCast_modEq_iff.1 this

/-- C95 for signatures in DER: two messages accepted with the same bytes. -/
theorem C95_der (P : Pt) (x y : ℕ) (hP : coords P = some (x, y)) (id id' : Option Bytes)
    (hid : (id.getD defaultUserId).length < 8192) (hid' : (id'.getD defaultUserId).length < 8192) (M M' sig : Bytes)
    (h : verify ⟨x, y⟩ id M sig = .ok true) (h' : verify ⟨x, y⟩ id' M' sig = .ok true) :
    Spec.SM2.e (id.getD defaultUserId) M x y ≡ Spec.SM2.e (id'.getD defaultUserId) M' x y [MOD n] := by
  unfold verify at h h'
  cases hu : unmarshalSign sig with
  | ok rs =>
    rw [hu] at h h'
    exact C95_message P x y hP id id' hid hid' M M' _ _ h h'
  | err m => rw [hu] at h; cases h
  | panic => rw [hu] at h; cases h
  | loop => rw [hu] at h; cases h

/-- The numbers below `2 n` in a residue class. -/
theorem two_candidates {v r c : Int} (hv : 0 ≤ v) (hv' : v < 2 * n) (h : r = (c + v) % n) :
    v = (r - c) % n ∨ v = (r - c) % n + n := by
  have hn := n_gt
  have h3 := Int.emod_nonneg (r - c) (b := (n : Int)) (by omega)
  have h4 := Int.emod_lt_of_pos (r - c) (b := (n : Int)) (by omega)
  have h5 : (n : Int) ∣ v - (r - c) % n := by
    have e1 : v - (r - c) % n = ((c + v) - (c + v) % n) + ((r - c) - (r - c) % n) := by rw [← h]; ring
    rw [e1]
    exact dvd_add Int.dvd_self_sub_emod Int.dvd_self_sub_emod
  obtain ⟨w, hw⟩ := h5
  have : -1 < w := by
    by_contra hc
    have : (n : Int) * w ≤ n * (-1) := Int.mul_le_mul_of_nonneg_left (by omega) (by omega)
    omega
  have : w < 2 := by
    by_contra hc
    have : (n : Int) * 2 ≤ n * w := Int.mul_le_mul_of_nonneg_left (by omega) (by omega)
    omega
  rcases (by omega : w = 0 ∨ w = 1) with rfl | rfl
  · left; omega
  · right; omega

/-- `s ↦ [s]G + [r+s]P` is injective unless `P = -G`. -/
theorem verify_point_inj {P : Pt} (hG : P ≠ -G) {r s s' : Int} (hs : 1 ≤ s ∧ s < n) (hs' : 1 ≤ s' ∧ s' < n)
    (h : s • G + ((r + s) % n) • P = s' • G + ((r + s') % n) • P) : s = s' := by
  have e : ∀ v : Int, ((r + v) % n) • P = (r + v) • P := fun v => by rw [← cv_N]; exact zsmul_congr (zn_cast_emod (r + v)) P
  rw [e, e, add_zsmul, add_zsmul] at h
  have h2 : (s - s') • (G + P) = 0 := by
    rw [sub_zsmul, zsmul_add, zsmul_add, ← sub_eq_add_neg, sub_eq_zero]
    have := sub_eq_zero.2 h
    rw [← sub_eq_zero, ← this]
    abel
  have hne : G + P ≠ 0 := fun h0 => hG (by rw [eq_neg_iff_add_eq_zero, add_comm]; exact h0)
  have h3 : (s - s').natAbs • (G + P) = 0 := by
    rcases Int.natAbs_eq (s - s') with h' | h'
    · rw [← natCast_zsmul, ← h', h2]
    · rw [← natCast_zsmul, ← neg_eq_zero, ← neg_zsmul, ← h', h2]
  have h4 := (smul_eq_zero hne).1 h3
  have : (s - s').natAbs = 0 := Nat.eq_zero_of_dvd_of_lt h4 (by omega)
  omega

/-- C95: for a public key other than `-G`, a message and an `r`, at most four values of `s` are accepted. (The points with a
given x coordinate modulo `n`: two abscissae, two points each.) -/
theorem C95_four (P : Pt) (x y : ℕ) (hP : coords P = some (x, y)) (hG : P ≠ -G) (id : Option Bytes)
    (hid : (id.getD defaultUserId).length < 8192) (M : Bytes) (r : Int) (S : Finset Int)
    (h : ∀ s ∈ S, verifyByRS ⟨x, y⟩ id M r s = .ok true) : S.card ≤ 4 := by
  have hp : p < 2 * n := by rw [p_val, n_val]; norm_num
  have key : ∀ s ∈ S, (1 ≤ s ∧ s < n) ∧ s • G + ((r + s) % n) • P ≠ 0 ∧
      r = ((Spec.SM2.e (id.getD defaultUserId) M x y : Int) + (enc (s • G + ((r + s) % n) • P)).1) % n := by
    intro s hs
    obtain ⟨a, b, c1, _, _, g1, g2, _, x1, y1, c2, c3⟩ := C36_sound P x y hP id hid M r s (h s hs)
    rw [hP, Option.some.injEq, Prod.mk.injEq] at c1
    obtain ⟨rfl, rfl⟩ := c1
    exact ⟨⟨g1, g2⟩, x_of_enc.2 ⟨x1, y1, c2, c3⟩⟩
  let f : Int → Int := fun s => (enc (s • G + ((r + s) % n) • P)).1
  have h1 := Finset.card_le_mul_card_image (f := f) S 2 (by
    intro v _
    by_contra hc
    obtain ⟨a, ha, b, hb, c, hc', hab, hac, hbc⟩ := Finset.two_lt_card.1 (not_le.1 hc)
    rw [Finset.mem_filter] at ha hb hc'
    obtain ⟨ra, na, _⟩ := key a ha.1
    obtain ⟨rb, nb, _⟩ := key b hb.1
    obtain ⟨rc, nc, _⟩ := key c hc'.1
    have qab := (eq_or_neg_of_fst nb na (hb.2.trans ha.2.symm)).resolve_left (fun e => hab (verify_point_inj hG ra rb e.symm))
    have qac := (eq_or_neg_of_fst nc na (hc'.2.trans ha.2.symm)).resolve_left (fun e => hac (verify_point_inj hG ra rc e.symm))
    exact hbc (verify_point_inj hG rb rc (qab.trans qac.symm)))
  have h2 : (S.image f).card ≤ ({(r - (Spec.SM2.e (id.getD defaultUserId) M x y : Int)) % (n : Int),
      (r - (Spec.SM2.e (id.getD defaultUserId) M x y : Int)) % (n : Int) + n} : Finset Int).card := by
    apply Finset.card_le_card
    intro v hv
    obtain ⟨s, hs, rfl⟩ := Finset.mem_image.1 hv
    have l0 := (enc_nonneg (s • G + ((r + s) % n) • P)).1
    have l1 := (enc_lt (s • G + ((r + s) % n) • P)).1
    have := two_candidates l0 (by omega) (key s hs).2.2
    rw [Finset.mem_insert, Finset.mem_singleton]
    exact this
  have h3 := Finset.card_le_two (a := (r - (Spec.SM2.e (id.getD defaultUserId) M x y : Int)) % (n : Int))
    (b := (r - (Spec.SM2.e (id.getD defaultUserId) M x y : Int)) % (n : Int) + n)
  omega

/-- Why `-G` (private key `n - 1`) is excepted: under it the point of the verification does not depend on `s`. -/
theorem C95_last_key (r s : Int) : s • G + ((r + s) % n) • (-G) = (-r) • G := by
  have e1 : ((r + s) % n) • (-G) = (r + s) • (-G) := by rw [← cv_N]; exact zsmul_congr (zn_cast_emod (r + s)) (-G)
  rw [e1, zsmul_neg, add_zsmul, neg_zsmul]
  abel

/-- The signature of "a" in `Sm2Sign` (key 2) meets the hypotheses of C95. -/
example : ∃ (P : Pt) (x y : ℕ), coords P = some (x, y) ∧ P ≠ -G ∧ verifyByRS ⟨x, y⟩ none [0x61] exR exS = .ok true := by
  have hd : ¬ n ∣ 2 := by rw [n_val]; norm_num
  obtain ⟨x, y, hc, _, _⟩ := coords_dG hd
  obtain ⟨pub, h1⟩ : ∃ pub, calculatePubKey ⟨(2 : ℕ)⟩ = .ok pub := by
    unfold calculatePubKey; rw [baseMult_int]; exact ⟨_, rfl⟩
  have h2 := C35_verifies 2 pub h1 none _ _ _ _ example_sign
  rw [pub_of_coords h1 hc] at h2
  refine ⟨2 • G, x, y, hc, fun h => ?_, h2⟩
  rw [eq_neg_iff_add_eq_zero, ← succ_nsmul, smul_eq_zero G_ne_zero, n_val] at h
  norm_num at h

end Verif.Props
