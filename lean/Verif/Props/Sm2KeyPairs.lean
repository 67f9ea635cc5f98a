import Verif.Props.Sm2Keys
/-!
# Property C104: a public key has one private key
-/
namespace Verif.Props
open EC Verif.Sm2
open Verif.Spec.SM2 (coords fe)

attribute [local irreducible] Spec.SM2.fe

theorem pub_of_nat (d : ℕ) : calculatePubKey ⟨d⟩ = .ok ⟨(enc (d • G)).1, (enc (d • G)).2⟩ := by
  unfold calculatePubKey
  rw [baseMult_int, Res.ok_bind]
  rfl

theorem smul_G_inj {d d' : ℕ} (hd : d < n) (hd' : d' < n) (h : d • G = d' • G) : d = d' := by
  have key : ∀ {a b : ℕ}, a ≤ b → b < n → a • G = b • G → a = b := by
    intro a b hab hb he
    have : (b - a) • G = 0 := by
      have e : b • G = (b - a) • G + a • G := by rw [← add_nsmul]; congr 1; omega
      rw [he] at e
      simpa using e
    have hdv := (smul_eq_zero G_ne_zero).1 this
    have := Nat.eq_zero_of_dvd_of_lt hdv (by omega)
    omega
  rcases Nat.le_total d d' with hl | hl
  · exact key hl hd' h
  · exact (key hl hd h.symm).symm

/-- C104, the part that holds: among the scalars below the order, no two have the same public key. -/
theorem C104_unique_partial (d d' : ℕ) (hd : d < n) (hd' : d' < n) (h : calculatePubKey ⟨d⟩ = calculatePubKey ⟨d'⟩) : d = d' := by
  rw [pub_of_nat, pub_of_nat, Res.ok.injEq, PublicKey.mk.injEq] at h
  exact smul_G_inj hd hd' (enc_inj (Prod.ext h.1 h.2))

/-- In particular, key pairs from `GenerateKey` with the same public key are the same. -/
theorem C104_generated (tape tape' : Tape) (priv priv' : PrivateKey) (pub : PublicKey) (h : generateKey tape = .ok (priv, pub))
    (h' : generateKey tape' = .ok (priv', pub)) : priv = priv' := by
  obtain ⟨h1, h2, h3⟩ := C34_consistent tape priv pub h
  obtain ⟨h1', h2', h3'⟩ := C34_consistent tape' priv' pub h'
  obtain ⟨D⟩ := priv
  obtain ⟨D'⟩ := priv'
  obtain ⟨d, rfl⟩ := Int.eq_ofNat_of_zero_le h1
  obtain ⟨d', rfl⟩ := Int.eq_ofNat_of_zero_le h1'
  have := C104_unique_partial d d' (Int.ofNat_lt.1 h2) (Int.ofNat_lt.1 h2') (h3.trans h3'.symm)
  rw [this]

/-- C104: every point of the curve is the public key of a scalar from 1 to n - 1 (and of one only). So validating a public key as
a point of the curve is enough: there is no small subgroup and no point without a private key. -/
theorem C104_exists (P : Pt) (x y : ℕ) (hP : coords P = some (x, y)) : ∃ d : ℕ, 1 ≤ d ∧ d < n ∧ calculatePubKey ⟨d⟩ = .ok ⟨x, y⟩ := by
  obtain ⟨d, hd, rfl⟩ := exists_smul_G P
  have he := enc_coords hP
  refine ⟨d, ?_, hd, ?_⟩
  · rcases Nat.eq_zero_or_pos d with rfl | h
    · rw [zero_nsmul] at hP
      simp [coords] at hP
    · exact h
  · rw [pub_of_nat, he]

/-- C104 is violated by the encodings: the parser takes every 32 bytes, so each scalar below 2^256 - n is one of two private keys,
with different bytes, for the same public key. -/
theorem C104_encodings_violated (v : ℕ) (hv : v + n < 2 ^ 256) : ∃ (bs bs' : Bytes) (k k' : PrivateKey), bs ≠ bs' ∧ k ≠ k' ∧
    rawBytesToPrivateKey bs = .ok k ∧ rawBytesToPrivateKey bs' = .ok k' ∧ calculatePubKey k = calculatePubKey k' := by
  have hn := n_gt
  obtain ⟨b1, _, _, _, h1⟩ := C32_private_round_trip v (by omega)
  obtain ⟨b2, _, _, _, h2⟩ := C32_private_round_trip (v + n) hv
  have hne : (⟨(v : Int)⟩ : PrivateKey) ≠ ⟨((v + n : ℕ) : Int)⟩ := by
    intro e
    have := PrivateKey.mk.inj e
    omega
  refine ⟨b1, b2, ⟨(v : Int)⟩, ⟨((v + n : ℕ) : Int)⟩, ?_, hne, h1, h2, ?_⟩
  · rintro rfl
    rw [h1] at h2
    exact hne (Res.ok.inj h2)
  · rw [pub_of_nat, pub_of_nat, add_nsmul, (smul_eq_zero G_ne_zero).2 (dvd_refl n), add_zero]

/-- There are such scalars: 1, for one. -/
example : 1 + n < 2 ^ 256 := by rw [n_val]; norm_num

end Verif.Props
