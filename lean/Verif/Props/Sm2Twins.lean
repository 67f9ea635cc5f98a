import Verif.Props.Sm2Producible
/-!
# Property C111: two signatures of a message with the same `r`
-/
namespace Verif.Props
open EC Verif.Sm2
open Verif.Spec.SM2 (coords fe IsCiphertext)

attribute [local irreducible] Spec.SM2.fe Spec.SM3.hash

/-- Two pairs with the same `r`, made with opposite nonces, solved for the private key. -/
def keyFromTwins (r s s' : Int) : ℕ := (-(s + s' : ZMod n) / (2 * r + s + s')).val

/-- The point that verification of `(r, s)` under the public key `P` computes (GB/T 32918.2, 7.1 B6). -/
noncomputable def verifyPoint (P : Pt) (r s : Int) : Pt := s • G + ((r + s) % (n : Int)) • P

theorem p_lt_two_n : p < 2 * n := by rw [p_val, n_val]; norm_num

/-- The numbers below `p` in a residue class modulo `n`. -/
theorem residue_cases {x x' e r : Int} (h0 : 0 ≤ x) (h1 : x < p) (h0' : 0 ≤ x') (h1' : x' < p) (h : r = (e + x) % n) (h' : r = (e + x') % n) :
    x = x' ∨ x' = x + n ∨ x = x' + n := by
  have hn := n_gt
  have hp := p_lt_two_n
  have hd : (n : Int) ∣ x' - x := by
    have : x' - x = (e + x') - (e + x) := by ring
    rw [this]
    exact Int.ModEq.dvd (show (e + x) % n = (e + x') % n by rw [← h, ← h'])
  obtain ⟨w, hw⟩ := hd
  have h3 : -2 < w := by
    by_contra hc
    have : (n : Int) * w ≤ n * (-2) := Int.mul_le_mul_of_nonneg_left (by omega) (by omega)
    omega
  have h4 : w < 2 := by
    by_contra hc
    have : (n : Int) * 2 ≤ n * w := Int.mul_le_mul_of_nonneg_left (by omega) (by omega)
    omega
  have : w = -1 ∨ w = 0 ∨ w = 1 := by omega
  rcases this with rfl | rfl | rfl
  · right; right; omega
  · left; omega
  · right; left; omega

theorem nonce_point {d k : ℕ} {r s : Int} (hk : (k : ZMod n) = s + (r + s) * d) : verifyPoint (d • G) r s = k • G := by
  unfold verifyPoint
  apply sign_verify_point
  rw [hk]
  ring

theorem smul_ne {k : ℕ} (h1 : 1 ≤ k) (h2 : k < n) : k • G ≠ 0 := fun h0 => not_dvd_of_lt h1 h2 ((smul_eq_zero G_ne_zero).1 h0)

theorem succ_ne_zero {d : ℕ} (hd1 : ¬ n ∣ d + 1) : (d : ZMod n) + 1 ≠ 0 := by
  intro h
  apply hd1
  rw [← ZMod.natCast_eq_zero_iff]
  push_cast
  exact h

theorem cast_ne_zero_of_range {r : Int} (h1 : 1 ≤ r) (h2 : r < n) : (r : ZMod n) ≠ 0 := by
  intro h0
  rw [cast_eq_zero_iff] at h0
  have := Int.le_of_dvd (by omega) h0
  omega

theorem two_ne_zero_n : (2 : ZMod n) ≠ 0 := by
  have : ((2 : ℕ) : ZMod n) ≠ 0 := by
    rw [Ne, ZMod.natCast_eq_zero_iff]
    exact not_dvd_of_lt (by norm_num) (by rw [n_val]; norm_num)
  exact_mod_cast this

/-- Two nonces that are opposite modulo `n`. -/
theorem twins_key {d : ℕ} (hd : d < n) {r s s' : Int} (hr1 : 1 ≤ r) (hr2 : r < n)
    (h : (s : ZMod n) + (r + s) * d + (s' + (r + s') * d) = 0) : keyFromTwins r s s' = d := by
  have e3 : (d : ZMod n) * (2 * r + s + s') = -(s + s') := by linear_combination h
  have hz : (2 * r + s + s' : ZMod n) ≠ 0 := by
    intro h0
    rw [h0, mul_zero] at e3
    have : (2 : ZMod n) * r = 0 := by linear_combination h0 - e3
    rcases mul_eq_zero.1 this with h2 | h2
    · exact two_ne_zero_n h2
    · exact cast_ne_zero_of_range hr1 hr2 h2
  unfold keyFromTwins
  rw [← e3, mul_div_assoc, div_self hz, mul_one, ZMod.val_natCast, Nat.mod_eq_of_lt hd]

/-- C111: whoever sees two different signatures of a message with the same `r` knows the private key, by a formula, unless one of
the two points has an x coordinate below `p - n` (a 128-bit number). -/
theorem C111_key (d : ℕ) (hd : d < n) (hd1 : ¬ n ∣ d + 1) (pub : PublicKey) (hpub : calculatePubKey ⟨d⟩ = .ok pub) (id : Option Bytes)
    (M : Bytes) (r s s' : Int) (h : verifyByRS pub id M r s = .ok true) (h' : verifyByRS pub id M r s' = .ok true) (hne : s ≠ s') :
    keyFromTwins r s s' = d ∨ ∃ x y, x < p - n ∧
      (coords (verifyPoint (d • G) r s) = some (x, y) ∨ coords (verifyPoint (d • G) r s') = some (x, y)) := by
  have hn := n_gt
  obtain ⟨e, k, he, hk1, hk2, hr1, hr2, hs1, hs2, _, hk, hr⟩ := verify_nonce hpub h
  obtain ⟨e', k', he', hk1', hk2', _, _, hs1', hs2', _, hk', hr'⟩ := verify_nonce hpub h'
  rw [he, Res.ok.injEq] at he'
  subst he'
  rw [nonce_point hk, nonce_point hk']
  have nk := smul_ne hk1 hk2
  have nk' := smul_ne hk1' hk2'
  have b := enc_nonneg (k • G)
  have b' := enc_nonneg (k' • G)
  have l := enc_lt (k • G)
  have l' := enc_lt (k' • G)
  obtain ⟨x, y, c, cx, cy⟩ := coords_ne nk
  obtain ⟨x', y', c', cx', cy'⟩ := coords_ne nk'
  have ex := enc_coords c
  have ex' := enc_coords c'
  rcases residue_cases b.1 l.1 b'.1 l'.1 hr hr' with hx | hx | hx
  · left
    apply twins_key hd hr1 hr2
    rw [← hk, ← hk']
    rcases eq_or_neg_of_fst nk nk' hx with hq | hq
    · exfalso
      rw [smul_G_eq_iff, Nat.mod_eq_of_lt hk2, Nat.mod_eq_of_lt hk2'] at hq
      rw [← hq, hk] at hk'
      have : ((d : ZMod n) + 1) * (s - s') = 0 := by linear_combination hk'
      rcases mul_eq_zero.1 this with h2 | h2
      · exact succ_ne_zero hd1 h2
      · exact hne (int_cast_inj_of_lt ⟨hs1, hs2⟩ ⟨hs1', hs2'⟩ (by linear_combination h2))
    · rw [eq_neg_iff_add_eq_zero, ← add_smul, smul_G_eq_zero_iff, ← ZMod.natCast_eq_zero_iff] at hq
      push_cast at hq
      exact hq
  · right
    rw [ex, ex'] at hx
    dsimp only at hx
    exact ⟨x, y, by omega, .inl c⟩
  · right
    rw [ex, ex'] at hx
    dsimp only at hx
    exact ⟨x', y', by omega, .inr c'⟩

/-- The points with a given x coordinate. -/
theorem ncard_fst (a : Int) : {Q : Pt | Q ≠ 0 ∧ (enc Q).1 = a}.Finite ∧ {Q : Pt | Q ≠ 0 ∧ (enc Q).1 = a}.ncard ≤ 2 := by
  by_cases h : ∃ R : Pt, R ≠ 0 ∧ (enc R).1 = a
  · obtain ⟨R, hR, hRa⟩ := h
    have hs : {Q : Pt | Q ≠ 0 ∧ (enc Q).1 = a} ⊆ {R, -R} := by
      rintro Q ⟨hQ, hQa⟩
      rcases eq_or_neg_of_fst hQ hR (by rw [hQa, hRa]) with rfl | rfl
      · left; rfl
      · right; rfl
    exact ⟨(Set.toFinite {R, -R}).subset hs, le_trans (Set.ncard_le_ncard hs (Set.toFinite _)) (le_trans (Set.ncard_insert_le _ _) (by simp))⟩
  · have hs : {Q : Pt | Q ≠ 0 ∧ (enc Q).1 = a} = ∅ := by
      ext Q
      simp only [Set.mem_ofPred_eq, Set.mem_empty_iff_false, iff_false]
      exact fun hQ => h ⟨Q, hQ⟩
    rw [hs]
    simp

/-- C111: for a message and an `r` at most four `s` are accepted. -/
theorem C111_four (d : ℕ) (hd1 : ¬ n ∣ d + 1) (pub : PublicKey) (hpub : calculatePubKey ⟨d⟩ = .ok pub) (id : Option Bytes)
    (M : Bytes) (r : Int) : {s : Int | verifyByRS pub id M r s = .ok true}.Finite ∧ {s : Int | verifyByRS pub id M r s = .ok true}.ncard ≤ 4 := by
  have hn := n_gt
  by_cases hex : ∃ s, verifyByRS pub id M r s = .ok true
  · obtain ⟨s0, h0⟩ := hex
    obtain ⟨e, k0, he, _⟩ := verify_nonce hpub h0
    let T : Int → Set Pt := fun a => {Q : Pt | Q ≠ 0 ∧ (enc Q).1 = a}
    let a := (r - e) % (n : Int)
    have hf : (T a ∪ T (a + n)).Finite := (ncard_fst a).1.union (ncard_fst (a + n)).1
    have hc : (T a ∪ T (a + n)).ncard ≤ 4 :=
      le_trans (Set.ncard_union_le _ _) (by have := (ncard_fst a).2; have := (ncard_fst (a + n)).2; simp only [T]; omega)
    have hmap : ∀ s, verifyByRS pub id M r s = .ok true → verifyPoint (d • G) r s ∈ T a ∪ T (a + n) := by
      intro s h
      obtain ⟨e', k, he', hk1, hk2, hr1, hr2, hs1, hs2, _, hk, hr⟩ := verify_nonce hpub h
      rw [he, Res.ok.injEq] at he'
      subst he'
      rw [nonce_point hk]
      have b := enc_nonneg (k • G)
      have l := enc_lt (k • G)
      have a0 : 0 ≤ a := Int.emod_nonneg _ (by omega)
      have a1 : a < n := Int.emod_lt_of_pos _ (by omega)
      have ha : r = (e + a) % n := by
        have : (e + a) % n = r % n := by
          show (e + (r - e) % n) % n = r % n
          rw [Int.add_emod_emod]
          congr 1
          ring
        rw [this, Int.emod_eq_of_lt (by omega) hr2]
      have hnp : n ≤ p := by rw [p_val, n_val]; norm_num
      rcases residue_cases a0 (by omega) b.1 l.1 ha hr with hx | hx | hx
      · exact .inl ⟨smul_ne hk1 hk2, hx.symm⟩
      · exact .inr ⟨smul_ne hk1 hk2, hx⟩
      · omega
    have hinj : Set.InjOn (verifyPoint (d • G) r) {s : Int | verifyByRS pub id M r s = .ok true} := by
      intro s h s' h' heq
      obtain ⟨e, k, he, hk1, hk2, hr1, hr2, hs1, hs2, _, hk, hr⟩ := verify_nonce hpub h
      obtain ⟨e', k', he', hk1', hk2', _, _, hs1', hs2', _, hk', hr'⟩ := verify_nonce hpub h'
      rw [nonce_point hk, nonce_point hk', smul_G_eq_iff, Nat.mod_eq_of_lt hk2, Nat.mod_eq_of_lt hk2'] at heq
      rw [← heq, hk] at hk'
      have : ((d : ZMod n) + 1) * (s - s') = 0 := by linear_combination hk'
      rcases mul_eq_zero.1 this with h2 | h2
      · exact absurd h2 (succ_ne_zero hd1)
      · exact int_cast_inj_of_lt ⟨hs1, hs2⟩ ⟨hs1', hs2'⟩ (by linear_combination h2)
    exact ⟨Set.Finite.of_injOn hmap hinj hf, le_trans (Set.ncard_le_ncard_of_injOn _ hmap hinj hf) hc⟩
  · have hs : {s : Int | verifyByRS pub id M r s = .ok true} = ∅ := by
      ext s
      simp only [Set.mem_ofPred_eq, Set.mem_empty_iff_false, iff_false]
      exact fun h => hex ⟨s, h⟩
    rw [hs]
    simp

/-- C111, how such a pair arises: two signatures of a message with random bytes for the nonces `k` and `n - k` have the same `r`,
different `s`, and give the private key. -/
theorem C111_opposite (d : ℕ) (hd : d < n) (id : Option Bytes) (M raw raw' : Bytes) (r s r' s' : Int)
    (h : signToRS ⟨d⟩ id M [some raw] = .ok (r, s)) (h' : signToRS ⟨d⟩ id M [some raw'] = .ok (r', s'))
    (hk : beNat raw + beNat raw' = n) : r' = r ∧ s' ≠ s ∧ keyFromTwins r s s' = d := by
  obtain ⟨e, k, he, ⟨b, hb, hbk⟩, k1, k2, hr, _, _, _, _, _, hs⟩ := signToRS_ok h
  obtain ⟨e', k', he', ⟨b', hb', hbk'⟩, k1', k2', hr', _, _, _, _, _, hs'⟩ := signToRS_ok h'
  rw [List.mem_singleton, Option.some.injEq] at hb hb'
  rw [hb] at hbk
  rw [hb'] at hbk'
  rw [he, Res.ok.injEq] at he'
  subst he'
  rw [Int.cast_natCast] at hs hs'
  have hkk : k + k' = n := by omega
  have hneg : k' • G = -(k • G) := by
    rw [eq_neg_iff_add_eq_zero, ← add_smul, add_comm, hkk]
    exact n_smul G
  have hx : (enc (k' • G)).1 = (enc (k • G)).1 := by
    rw [hneg]
    have nk := smul_ne k1 k2
    cases hq : k • G with
    | zero => exact absurd hq nk
    | some x y hxy => rfl
  have hrr : r' = r := by rw [hr', hr, hx]
  have hz : (k : ZMod n) + k' = 0 := by
    have : ((k + k' : ℕ) : ZMod n) = 0 := by rw [hkk]; simp
    exact_mod_cast this
  obtain ⟨g1, g2, _⟩ := C37_range _ _ _ _ _ _ h
  rw [hrr] at hs'
  refine ⟨hrr, ?_, ?_⟩
  · intro hss
    rw [hss] at hs'
    have h2 : (2 : ZMod n) * k = 0 := by linear_combination hs' - hs + hz
    rcases mul_eq_zero.1 h2 with h2 | h2
    · exact two_ne_zero_n h2
    · rw [ZMod.natCast_eq_zero_iff] at h2
      exact not_dvd_of_lt k1 k2 h2
  · apply twins_key hd g1 g2
    linear_combination hs + hs' + hz

/-- Key 2, message "a", nonces 3 and `n - 3`. -/
theorem example_twins : ∃ s', signToRS ⟨(2 : ℕ)⟩ none [0x61] [some (toBE 32 (n - 3))] = .ok (exR, s') ∧ s' ≠ exS ∧
    keyFromTwins exR exS s' = 2 := by
  have hn := n_gt
  have h0 := example_sign
  obtain ⟨e, k, he, ⟨b, hb, hbk⟩, k1, k2, hr, hr0, _⟩ := signToRS_ok h0
  rw [List.mem_singleton, Option.some.injEq] at hb
  have h3 : beNat (toBE 32 3) = 3 := beNat_toBE_of_lt (by norm_num)
  have h3' : beNat (toBE 32 (n - 3)) = n - 3 := beNat_toBE_of_lt (by rw [n_val]; norm_num)
  rw [hb, h3] at hbk
  subst hbk
  have hx : (enc ((n - 3) • G)).1 = (enc (3 • G)).1 := by
    have hneg : (n - 3) • G = -(3 • G) := by
      rw [eq_neg_iff_add_eq_zero, ← add_smul, Nat.sub_add_cancel (by omega)]
      exact n_smul G
    rw [hneg]
    have nk := smul_ne k1 k2
    cases hq : 3 • G with
    | zero => exact absurd hq nk
    | some x y hxy => rfl
  obtain ⟨⟨r', s'⟩, hs⟩ := signToRS_hits (d := 2) (id := none) (M := [0x61]) he
    (by rw [show ((2 : Int) : ZMod n) + 1 = ((3 : Int) : ZMod n) by push_cast; norm_num]
        exact cast_ne_zero_of_range (by norm_num) (by omega)) (good := fun j => j = n - 3)
    (fun j hj => by rw [hj]; omega) (by
      rintro j rfl
      rw [hx, ← hr]
      refine ⟨hr0, by unfold exR; omega, ?_⟩
      intro h
      have : ((2 * exR + 3 : Int) : ZMod n) = 0 := by
        push_cast at h ⊢
        rw [Nat.cast_sub (by omega)] at h
        push_cast at h
        rw [ZMod.natCast_self] at h
        linear_combination -h
      rw [cast_eq_zero_iff, n_val] at this
      revert this
      decide +kernel) (tape := [some (toBE 32 (n - 3))]) (.inl h3')
  obtain ⟨rfl, h4, h5⟩ := C111_opposite 2 (by omega) none [0x61] _ _ exR exS r' s' h0 hs (by rw [h3, h3']; omega)
  exact ⟨s', hs, h4, h5⟩

/-- Two accepted signatures with one `r`. -/
example : ∃ pub r s s', calculatePubKey ⟨(2 : ℕ)⟩ = .ok pub ∧ s' ≠ s ∧ verifyByRS pub none [0x61] r s = .ok true ∧
    verifyByRS pub none [0x61] r s' = .ok true := by
  obtain ⟨pub, hp, -⟩ := C62_derived_keys_partial 2 (by rw [n_val]; decide)
  obtain ⟨s', h2, hne, -⟩ := example_twins
  exact ⟨pub, exR, exS, s', hp, hne, C35_verifies 2 pub hp _ _ _ _ _ example_sign, C35_verifies 2 pub hp _ _ _ _ _ h2⟩

end Verif.Props
