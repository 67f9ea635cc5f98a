import Verif.Props.Sm2Sign
import Mathlib.Data.Fintype.BigOperators
import Mathlib.Analysis.SpecificLimits.Basic
/-!
# SM2 signatures: how many nonces can be used (C41)
-/
namespace Verif.Props
open EC Verif.Sm2
open Verif.Spec.SM2 (coords fe Accepts IsSignature)

attribute [local irreducible] Spec.SM2.fe Spec.SM3.hash

/-- The standard's conditions on the nonce `k` for hash value `e` and key `d`. -/
def CondOk (d e : Int) (k : ℕ) : Prop :=
  (e + (enc (k • G)).1) % n ≠ 0 ∧ (e + (enc (k • G)).1) % n + k ≠ n ∧
    (k : ZMod n) ≠ ((e + (enc (k • G)).1) % n : Int) * d

theorem signature_of_cond {d : ℕ} (hd1 : ¬ n ∣ d + 1) {id M : Bytes} {xP yP : ℕ}
    (hc : coords (d • G) = some (xP, yP)) {k : ℕ} (h1 : 1 ≤ k) (h2 : k < n) (h : CondOk d (Spec.SM2.e id M xP yP) k) :
    ∃ r s, IsSignature d id M k r s := by
  have hn := n_gt
  obtain ⟨h3, h4, h5⟩ := h
  obtain ⟨x1, y1, hk, _, _⟩ := coords_ne (fun h0 => not_dvd_of_lt h1 h2 ((smul_eq_zero G_ne_zero).1 h0))
  rw [enc_coords hk] at h3 h4 h5
  dsimp only at h3 h4 h5
  have hd' : (1 + (d : ZMod n)) ≠ 0 := by
    intro h
    apply hd1
    rw [← ZMod.natCast_eq_zero_iff]
    push_cast
    rw [add_comm]; exact h
  have hs : (((((1 + (d : ZMod n))⁻¹ * (k - ((((Spec.SM2.e id M xP yP : ℤ) + x1) % n : Int) : ZMod n) * d)).val : ℕ) : Int) : ZMod n)
      = (1 + (d : ZMod n))⁻¹ * (k - ((((Spec.SM2.e id M xP yP : ℤ) + x1) % n : Int) : ZMod n) * d) := by
    rw [Int.cast_natCast, ZMod.natCast_zmod_val]
  refine ⟨((Spec.SM2.e id M xP yP : ℤ) + x1) % n,
    (((1 + (d : ZMod n))⁻¹ * (k - ((((Spec.SM2.e id M xP yP : ℤ) + x1) % n : Int) : ZMod n) * d)).val : ℕ),
    h1, h2, xP, yP, x1, y1, hc, hk, rfl, h3, h4, ?_, by positivity, by exact_mod_cast ZMod.val_lt _, ?_⟩
  · intro h
    rw [h, Int.cast_zero] at hs
    rcases mul_eq_zero.1 hs.symm with h0 | h0
    · exact hd' (inv_eq_zero.1 h0)
    · apply h5
      push_cast at h0 ⊢
      linear_combination h0
  · rw [← Int.ModEq, ← ZMod.intCast_eq_intCast_iff, Int.cast_mul, hs]
    push_cast
    rw [← mul_assoc, mul_inv_cancel₀ hd', one_mul]

/-- Of `j` and `n - j` one satisfies the conditions, unless `r` is zero or `d` is 1. -/
theorem cond_pair {d e : Int} (hd : ((d : Int) : ZMod n) ≠ 1) {j : ℕ} (h1 : 1 ≤ j) (h2 : 2 * j < n)
    (hr : ((e + (enc (j • G)).1 : Int) : ZMod n) ≠ 0) : CondOk d e j ∨ CondOk d e (n - j) := by
  have hn := n_gt
  by_contra hcon
  rw [not_or] at hcon
  have hx : (enc ((n - j) • G)).1 = (enc (j • G)).1 := by
    rw [← enc_neg_fst (j • G)]
    congr 1
    congr 1
    rw [eq_neg_iff_add_eq_zero, ← add_smul, Nat.sub_add_cancel (by omega), n_smul]
  have hcast : ((n - j : ℕ) : ZMod n) = -j := by
    rw [Nat.cast_sub (by omega)]; simp
  have hmod : (((e + (enc (j • G)).1) % (n : Int) : Int) : ZMod n) = ((e + (enc (j • G)).1 : Int) : ZMod n) := by
    have := zn_cast_emod (e + (enc (j • G)).1)
    rwa [cv_N] at this
  have bad : ∀ k : ℕ, k < n → (enc (k • G)).1 = (enc (j • G)).1 → ¬ CondOk d e k →
      ((e + (enc (j • G)).1 : Int) : ZMod n) = -k ∨ (k : ZMod n) = ((e + (enc (j • G)).1 : Int) : ZMod n) * d := by
    intro k hk2 hk3 hb
    by_contra hc
    rw [not_or] at hc
    refine hb ⟨?_, ?_, ?_⟩
    · rw [hk3]; intro h; rw [h, Int.cast_zero] at hmod; exact hr hmod.symm
    · rw [hk3]
      intro h
      apply hc.1
      rw [← hmod, show (e + (enc (j • G)).1) % (n : Int) = n - k by omega]
      simp
    · rw [hk3, hmod]; exact hc.2
  have b1 := bad j (by omega) rfl hcon.1
  have b2 := bad (n - j) (by omega) hx hcon.2
  rw [hcast, neg_neg] at b2
  generalize ((e + (enc (j • G)).1 : Int) : ZMod n) = r at *
  have h2j : (2 : ZMod n) * j ≠ 0 := by
    intro h0
    have h0 : ((2 * j : ℕ) : ZMod n) = 0 := by push_cast; exact h0
    rw [ZMod.natCast_eq_zero_iff] at h0
    have := Nat.le_of_dvd (by omega) h0
    omega
  have hone : r = r * d → False := fun h => hd (mul_left_cancel₀ hr (by rw [← h, mul_one]))
  rcases b1 with b1 | b1 <;> rcases b2 with b2 | b2
  · exact h2j (by linear_combination b1 - b2)
  · exact hone (by rw [← b2, b1])
  · exact hone (by rw [← b1, b2])
  · exact h2j (by linear_combination b1 - b2)

/-- The x coordinate determines a point up to its sign. -/
theorem eq_or_neg_of_fst {Q R : Pt} (hQ : Q ≠ 0) (hR : R ≠ 0) (h : (enc Q).1 = (enc R).1) : Q = R ∨ Q = -R := by
  cases Q with
  | zero => exact absurd rfl hQ
  | some x y hxy =>
    cases R with
    | zero => exact absurd rfl hR
    | some x' y' hxy' =>
      have hx : x = x' := ZMod.val_injective p (Int.ofNat_inj.1 h)
      subst hx
      rcases WeierstrassCurve.Affine.Y_eq_of_X_eq hxy.1 hxy'.1 rfl with h | h
      · left; subst h; rfl
      · right; subst h; rfl

/-- The candidates `1 ≤ j < n/2` for which `r` would be zero. -/
noncomputable def zeroR (e : Int) : Finset ℕ :=
  (Finset.Ico 1 ((n + 1) / 2)).filter fun j => ((e + (enc (j • G)).1 : Int) : ZMod n) = 0

theorem card_zeroR (e : Int) : (zeroR e).card ≤ 2 := by
  have hn := n_gt
  have hp : p < 2 * n := by rw [p_val, n_val]; norm_num
  have h : (zeroR e).card ≤ ({(-e) % (n : Int), (-e) % (n : Int) + n} : Finset Int).card := by
    refine Finset.card_le_card_of_injOn (fun j => (enc (j • G)).1) ?_ ?_
    · intro j hj
      have hj := (Finset.mem_filter.1 hj).2
      rw [cast_eq_zero_iff] at hj
      have h0 := (enc_nonneg (j • G)).1
      have h1 := (enc_lt (j • G)).1
      simp only [Finset.coe_insert, Finset.coe_singleton, Set.mem_insert_iff, Set.mem_singleton_iff]
      generalize (enc (j • G)).1 = x at *
      have h3 := Int.emod_nonneg (-e) (b := (n : Int)) (by omega)
      have h4 := Int.emod_lt_of_pos (-e) (b := (n : Int)) (by omega)
      have h5 : (n : Int) ∣ x - (-e) % n := by
        have : x - (-e) % n = (e + x) + (-e - (-e) % n) := by ring
        rw [this]
        exact dvd_add hj (Int.dvd_self_sub_emod)
      obtain ⟨w, hw⟩ := h5
      have hw0 : w = 0 ∨ w = 1 := by
        have : -1 < w := by
          by_contra hc
          have : (n : Int) * w ≤ n * (-1) := Int.mul_le_mul_of_nonneg_left (by omega) (by omega)
          omega
        have : w < 2 := by
          by_contra hc
          have : (n : Int) * 2 ≤ n * w := Int.mul_le_mul_of_nonneg_left (by omega) (by omega)
          omega
        omega
      rcases hw0 with rfl | rfl
      · left; omega
      · right; omega
    · intro i hi j hj hij
      have hi := Finset.mem_Ico.1 (Finset.mem_filter.1 hi).1
      have hj := Finset.mem_Ico.1 (Finset.mem_filter.1 hj).1
      have ni : i • G ≠ 0 := fun h0 => not_dvd_of_lt hi.1 (by omega) ((smul_eq_zero G_ne_zero).1 h0)
      have nj : j • G ≠ 0 := fun h0 => not_dvd_of_lt hj.1 (by omega) ((smul_eq_zero G_ne_zero).1 h0)
      rcases eq_or_neg_of_fst ni nj hij with h | h
      · rw [smul_G_eq_iff, Nat.mod_eq_of_lt (by omega), Nat.mod_eq_of_lt (by omega)] at h
        exact h
      · rw [eq_neg_iff_add_eq_zero, ← add_smul, smul_G_eq_zero_iff] at h
        exact absurd h (not_dvd_of_lt (by omega) (by omega))
  exact le_trans h Finset.card_le_two

open Classical in
/-- The nonces with which the standard gives a signature. -/
noncomputable def usable (d : ℕ) (id M : Bytes) : Finset ℕ :=
  (Finset.Ico 1 n).filter fun k => ∃ r s, IsSignature d id M k r s

open Classical in
/-- The nonces that satisfy the conditions. -/
noncomputable def condSet (d e : Int) : Finset ℕ := (Finset.Ico 1 n).filter fun k => CondOk d e k

theorem n_odd : n % 2 = 1 := by rw [n_val]

theorem card_condSet {d e : Int} (hd' : (d : ZMod n) ≠ 1) : (n - 5) / 2 ≤ (condSet d e).card := by
  classical
  have hn := n_gt
  have ho := n_odd
  have key : (Finset.Ico 1 ((n + 1) / 2) \ zeroR e).card ≤ (condSet d e).card := by
    refine Finset.card_le_card_of_injOn (fun j => if CondOk d e j then j else n - j) ?_ ?_
    · intro j hj
      rw [Finset.mem_coe, Finset.mem_sdiff, Finset.mem_Ico, zeroR, Finset.mem_filter, Finset.mem_Ico] at hj
      obtain ⟨hj1, hj2⟩ := hj
      have hr : ((e + (enc (j • G)).1 : Int) : ZMod n) ≠ 0 := fun h => hj2 ⟨hj1, h⟩
      rw [Finset.mem_coe, condSet, Finset.mem_filter, Finset.mem_Ico]
      rcases Classical.em (CondOk d e j) with h | h
      · dsimp only
        rw [if_pos h]
        exact ⟨by omega, h⟩
      · dsimp only
        rw [if_neg h]
        exact ⟨by omega, (cond_pair hd' hj1.1 (by omega) hr).resolve_left h⟩
    · intro i hi j hj hij
      have hi := Finset.mem_Ico.1 (Finset.mem_sdiff.1 hi).1
      have hj := Finset.mem_Ico.1 (Finset.mem_sdiff.1 hj).1
      dsimp only at hij
      split at hij <;> split at hij <;> omega
  have hz := card_zeroR e
  have h1 := Finset.le_card_sdiff (zeroR e) (Finset.Ico 1 ((n + 1) / 2))
  rw [Nat.card_Ico] at h1
  omega

theorem cast_ne_one {d : ℕ} (hd2 : d % n ≠ 1) : (((d : ℕ) : Int) : ZMod n) ≠ 1 := by
  have hn := n_gt
  intro h
  apply hd2
  rw [Int.cast_natCast, ← Nat.cast_one, ZMod.natCast_eq_natCast_iff'] at h
  rw [h, Nat.mod_eq_of_lt (by omega)]

/-- C41, the part that holds: about half of all nonces give a signature of the standard, for every private key but the
multiples of `n` (which are no keys of the standard) and the numbers 1 and -1 modulo `n`, every id and every message. -/
theorem C41_half_partial (d : ℕ) (hd : ¬ n ∣ d) (hd1 : ¬ n ∣ d + 1) (hd2 : d % n ≠ 1) (id M : Bytes) :
    (n - 5) / 2 ≤ (usable d id M).card := by
  classical
  obtain ⟨xP, yP, hc, _, _⟩ := coords_dG hd
  refine le_trans (card_condSet (d := d) (e := Spec.SM2.e id M xP yP) (cast_ne_one hd2)) (Finset.card_le_card ?_)
  intro k hk
  rw [condSet, Finset.mem_filter, Finset.mem_Ico] at hk
  rw [usable, Finset.mem_filter, Finset.mem_Ico]
  exact ⟨hk.1, signature_of_cond hd1 hc hk.1.1 hk.1.2 hk.2⟩

/-! ## Tapes -/

/-- The tape that delivers these numbers as 32 bytes each. -/
def tapeOf {m : ℕ} (t : Fin m → Fin (2 ^ 256)) : Tape := List.ofFn fun i => some (toBE 32 (t i))

open Classical in
/-- How many of the tapes of `m` reads of 32 bytes end without a signature. -/
noncomputable def failures (d : ℕ) (id : Option Bytes) (M : Bytes) (m : ℕ) : ℕ :=
  (Finset.univ.filter fun t : Fin m → Fin (2 ^ 256) => ¬ ∃ rs, signToRS ⟨d⟩ id M (tapeOf t) = .ok rs).card

theorem tapeOf_split {m : ℕ} (t : Fin m → Fin (2 ^ 256)) (i : Fin m) :
    ∃ (pre : List Bytes) (rest : Tape), tapeOf t = pre.map some ++ some (toBE 32 (t i)) :: rest := by
  have h : tapeOf t = (List.ofFn fun i => toBE 32 (t i)).map some := by
    rw [tapeOf, List.map_ofFn]; rfl
  have hm : toBE 32 (t i) ∈ List.ofFn fun i => toBE 32 (t i : ℕ) := List.mem_ofFn.2 ⟨i, rfl⟩
  obtain ⟨pre, post, hs⟩ := List.append_of_mem hm
  exact ⟨pre, post.map some, by rw [h, hs, List.map_append, List.map_cons]⟩

/-- The message hash is computed for every key. -/
theorem calculateE_any (d : ℕ) {id M : Bytes} (hid : id.length < 2 ^ 31) (hM : M ≠ []) (hM' : M.length < 2 ^ 31) :
    ∃ e, calculateE (enc (((d : Int)).natAbs • G)).1 (enc (((d : Int)).natAbs • G)).2 id M = .ok e := by
  have hp := p_lt
  generalize (((d : Int)).natAbs • G) = Q
  have h1 := enc_nonneg Q
  have h2 := enc_lt Q
  generalize enc Q = q at *
  obtain ⟨x, y⟩ := q
  dsimp only at h1 h2 ⊢
  lift x to ℕ using h1.1
  lift y to ℕ using h1.2
  exact ⟨_, calculateE_eq (by omega) (by omega) hid hM hM'⟩

theorem failures_le (d : ℕ) (hd1 : ¬ n ∣ d + 1) (id : Option Bytes) (M : Bytes) {e : Int}
    (he : calculateE (enc (((d : Int)).natAbs • G)).1 (enc (((d : Int)).natAbs • G)).2 (id.getD defaultUserId) M = .ok e) (m : ℕ) :
    failures d id M m ≤ (2 ^ 256 - (condSet d e).card) ^ m := by
  classical
  have hd1' : (((d : Int) : ZMod n) + 1) ≠ 0 := by
    intro h
    apply hd1
    rw [← ZMod.natCast_eq_zero_iff]
    push_cast at h ⊢
    exact h
  let bad : Finset (Fin (2 ^ 256)) := Finset.univ.filter fun k => ¬ ((k : ℕ) ∈ condSet d e)
  have hsub : (Finset.univ.filter fun t : Fin m → Fin (2 ^ 256) => ¬ ∃ rs, signToRS ⟨d⟩ id M (tapeOf t) = .ok rs) ⊆
      Fintype.piFinset fun _ => bad := by
    intro t ht
    rw [Finset.mem_filter] at ht
    rw [Fintype.mem_piFinset]
    intro i
    rw [Finset.mem_filter]
    refine ⟨Finset.mem_univ _, fun hu => ht.2 ?_⟩
    obtain ⟨pre, rest, hs⟩ := tapeOf_split t i
    rw [hs]
    refine signToRS_hits he hd1' (good := fun k => k ∈ condSet d e) ?_ ?_ (hits_of_mem pre _ rest ?_)
    · intro k hk
      rw [condSet, Finset.mem_filter, Finset.mem_Ico] at hk
      exact hk.1
    · intro k hk
      rw [condSet, Finset.mem_filter] at hk
      exact hk.2
    · rw [beNat_toBE_of_lt]
      · exact hu
      · exact lt_of_lt_of_le (t i).2 (by norm_num)
  have hcard : bad.card + (condSet d e).card ≤ 2 ^ 256 := by
    have h1 : (Finset.univ.filter fun k : Fin (2 ^ 256) => (k : ℕ) ∈ condSet d e).card + bad.card = 2 ^ 256 := by
      have := Finset.card_filter_add_card_filter_not (s := (Finset.univ : Finset (Fin (2 ^ 256))))
        (fun k => (k : ℕ) ∈ condSet d e)
      rw [Finset.card_univ, Fintype.card_fin] at this
      exact this
    have h2 : (condSet d e).card ≤
        (Finset.univ.filter fun k : Fin (2 ^ 256) => (k : ℕ) ∈ condSet d e).card := by
      refine Finset.card_le_card_of_surjOn (fun k : Fin (2 ^ 256) => (k : ℕ)) ?_
      intro k hk
      have hlt : k < 2 ^ 256 := by
        have hk := Finset.mem_coe.1 hk
        rw [condSet, Finset.mem_filter, Finset.mem_Ico] at hk
        exact lt_trans hk.1.2 n_lt
      exact ⟨⟨k, hlt⟩, by simpa using hk, rfl⟩
    omega
  calc failures d id M m ≤ (Fintype.piFinset fun _ : Fin m => bad).card := Finset.card_le_card hsub
    _ = bad.card ^ m := by rw [Fintype.card_piFinset_const]
    _ ≤ _ := Nat.pow_le_pow_left (by omega) m

/-- C41, the part that holds: every further read roughly halves the number of tapes that give no signature. -/
theorem C41_halves_partial (d : ℕ) (hd1 : ¬ n ∣ d + 1) (hd2 : d % n ≠ 1) (id : Option Bytes)
    (hid : (id.getD defaultUserId).length < 2 ^ 31) (M : Bytes) (hM : M ≠ []) (hM' : M.length < 2 ^ 31) (m : ℕ) :
    failures d id M m ≤ (2 ^ 256 - (n - 5) / 2) ^ m := by
  obtain ⟨e, he⟩ := calculateE_any d hid hM hM'
  exact le_trans (failures_le d hd1 id M he m)
    (Nat.pow_le_pow_left (Nat.sub_le_sub_left (card_condSet (cast_ne_one hd2)) _) m)

/-- C41, decided for every private key that `RawBytesToPrivateKey` returns: with uniformly random 32-byte reads the
probability that signing has not returned after `m` reads tends to zero, except for the key `n - 1`, for which it is
one for every `m`. -/
theorem C41_probability_one_partial (raw : Bytes) (priv : PrivateKey) (hp : rawBytesToPrivateKey raw = .ok priv)
    (id : Option Bytes) (hid : (id.getD defaultUserId).length < 2 ^ 31) (M : Bytes) (hM : M ≠ []) (hM' : M.length < 2 ^ 31) :
    priv = ⟨(beNat raw : ℕ)⟩ ∧ (beNat raw ≠ n - 1 →
      Filter.Tendsto (fun m => (failures (beNat raw) id M m : ℝ) / ((2 ^ 256 : ℕ) ^ m : ℕ)) Filter.atTop (nhds 0)) ∧
    (beNat raw = n - 1 → ∀ m, (failures (beNat raw) id M m : ℝ) / ((2 ^ 256 : ℕ) ^ m : ℕ) = 1) := by
  classical
  have hn := n_lt
  have hn' := n_gt
  have hraw : beNat raw < 2 ^ 256 ∧ priv = ⟨(beNat raw : ℕ)⟩ := by
    unfold rawBytesToPrivateKey at hp
    split at hp
    · cases hp
    · rename_i hl
      rw [Res.ok.injEq] at hp
      refine ⟨?_, hp.symm⟩
      have := beNat_lt raw
      rw [show raw.length = 32 by simpa [show keyBytes = 32 from rfl] using hl] at this
      exact lt_of_lt_of_le this (by norm_num)
  generalize beNat raw = d at *
  refine ⟨hraw.2, fun hd => ?_, ?_⟩
  · have hd1 : ¬ n ∣ d + 1 := by
      rintro ⟨w, hw⟩
      have h1 : w = 1 := by
        have h2 : w < 2 := by
          by_contra hc
          have := Nat.mul_le_mul_left n (show 2 ≤ w by omega)
          omega
        have : w ≠ 0 := by rintro rfl; omega
        omega
      subst h1
      omega
    obtain ⟨e, he⟩ := calculateE_any d hid hM hM'
    have hpos : 1 ≤ (condSet d e).card := by
      obtain ⟨k, h1, h2, h3⟩ := usable_nonce d e
      refine Finset.card_pos.2 ⟨k, ?_⟩
      rw [condSet, Finset.mem_filter, Finset.mem_Ico]
      exact ⟨⟨h1, h2⟩, h3⟩
    have hb : ∀ m, (failures d id M m : ℝ) / ((2 ^ 256 : ℕ) ^ m : ℕ) ≤ (((2 ^ 256 - 1 : ℕ) : ℝ) / (2 ^ 256 : ℕ)) ^ m := by
      intro m
      rw [div_pow, Nat.cast_pow (2 ^ 256) m]
      refine div_le_div_of_nonneg_right ?_ (by positivity)
      rw [← Nat.cast_pow]
      refine Nat.cast_le.2 (le_trans (failures_le d hd1 id M he m) (Nat.pow_le_pow_left ?_ m))
      exact Nat.sub_le_sub_left hpos _
    refine squeeze_zero (fun m => by positivity) hb (tendsto_pow_atTop_nhds_zero_of_lt_one (by positivity) ?_)
    rw [div_lt_one (by positivity)]
    exact Nat.cast_lt.2 (by norm_num)
  · rintro rfl m
    have : failures (n - 1) id M m = (2 ^ 256) ^ m := by
      unfold failures
      rw [Finset.filter_true_of_mem]
      · rw [Finset.card_univ, Fintype.card_fun, Fintype.card_fin, Fintype.card_fin]
      · rintro t _ ⟨rs, h⟩
        exact signToRS_last _ _ _ rs h
    rw [this]
    exact div_self (by positivity)

/-- The hypotheses of C41_half_partial hold for the private key 2. -/
example : ¬ n ∣ 2 ∧ ¬ n ∣ 2 + 1 ∧ 2 % n ≠ 1 := by
  have hn := n_gt
  refine ⟨not_dvd_of_lt (by omega) (by omega), not_dvd_of_lt (by omega) (by omega), ?_⟩
  rw [Nat.mod_eq_of_lt (by omega)]; omega

end Verif.Props
