import Verif.CB.IntLemmas
/-! The contents octets written by the integer methods of asn1.go. -/
namespace Verif.CB
open Spec.DER Spec.Builder

theorem inRange_div (i : Int) (k : Nat) : InRange (i / 256) k ↔ InRange i (k + 1) := by
  unfold InRange
  rw [pow_succ]
  generalize (256 : Int) ^ k = P
  omega

theorem signedLen_spec : ∀ (fuel : Nat) (i : Int) (len : Nat), InRange i fuel →
    ∃ k, k ≤ fuel ∧ signedLen fuel i len = len + k ∧ InRange i k ∧ (k = 0 ∨ ¬ InRange i (k - 1)) := by
  intro fuel
  induction fuel with
  | zero => intro i len h; exact ⟨0, Nat.le_refl _, rfl, h, .inl rfl⟩
  | succ fuel ih =>
    intro i len h
    simp only [signedLen]
    by_cases hc : i ≥ 0x80 ∨ i < -0x80
    · rw [if_pos hc, Int.shiftRight_eq_div_pow]
      have h' : InRange (i / 2 ^ 8) fuel := (inRange_div i fuel).2 h
      obtain ⟨k, h1, h2, h3, h4⟩ := ih _ (len + 1) h'
      refine ⟨k + 1, by omega, by push_cast at *; rw [h2]; omega, (inRange_div i k).1 h3, .inr ?_⟩
      rw [Nat.add_sub_cancel]
      rcases h4 with rfl | h4
      · unfold InRange; omega
      · rcases Nat.eq_zero_or_pos k with rfl | hk
        · unfold InRange; omega
        · intro h5
          apply h4
          apply (inRange_div i (k - 1)).2
          rwa [Nat.sub_add_cancel hk]
    · rw [if_neg hc]
      exact ⟨0, Nat.zero_le _, rfl, by unfold InRange; omega, .inl rfl⟩

theorem unsignedLen_spec : ∀ (fuel : Nat) (i len : Nat), i < 128 * 256 ^ fuel →
    ∃ k, k ≤ fuel ∧ unsignedLen fuel i len = len + k ∧ InRange i k ∧ (k = 0 ∨ ¬ InRange i (k - 1)) := by
  intro fuel
  induction fuel with
  | zero => intro i len h; exact ⟨0, Nat.le_refl _, rfl, by unfold InRange; omega, .inl rfl⟩
  | succ fuel ih =>
    intro i len h
    simp only [unsignedLen]
    by_cases hc : i ≥ 0x80
    · rw [if_pos hc, Nat.shiftRight_eq_div_pow]
      have h' : i / 2 ^ 8 < 128 * 256 ^ fuel := by rw [Nat.pow_succ] at h; omega
      obtain ⟨k, h1, h2, h3, h4⟩ := ih _ (len + 1) h'
      push_cast at h3 h4
      refine ⟨k + 1, by omega, by rw [h2]; omega, (inRange_div i k).1 h3, .inr ?_⟩
      rw [Nat.add_sub_cancel]
      rcases Nat.eq_zero_or_pos k with rfl | hk
      · unfold InRange; omega
      · rcases h4 with rfl | h4
        · omega
        · intro h5
          apply h4
          apply (inRange_div i (k - 1)).2
          rwa [Nat.sub_add_cancel hk]
    · rw [if_neg hc]
      exact ⟨0, Nat.zero_le _, rfl, by unfold InRange; omega, .inl rfl⟩

theorem toBE_cons (L n : Nat) : toBE (L + 1) n = BitVec.ofNat 8 (n / 256 ^ L) :: toBE L n := by
  have h : (BitVec.ofNat 8 (n / 256 ^ L) :: toBE L n).length = (toBE (L + 1) n).length := by simp
  symm
  apply beNat_inj h
  rw [beNat_cons, beNat_toBE, beNat_toBE, length_toBE, BitVec.toNat_ofNat, Nat.pow_succ 256 L, Nat.mod_mul]
  rw [show (2 ^ 8 : Nat) = 256 from rfl]
  ring

theorem sshiftRight_byte (v : BitVec 64) (i : Nat) (hi : i < 8) :
    ((v.sshiftRight (i * 8)) &&& 0xff).setWidth 8 = BitVec.ofNat 8 (v.toNat / 256 ^ i) := by
  rw [pow256, ← Nat.shiftRight_eq_div_pow]
  apply BitVec.eq_of_getLsbD_eq
  intro j hj
  have h1 : (BitVec.ofNat 8 (v.toNat >>> (8 * i))).getLsbD j = v.getLsbD (8 * i + j) := by
    rw [BitVec.getLsbD_ofNat, Nat.testBit_shiftRight]
    simp [hj, BitVec.testBit_toNat]
  rw [h1, BitVec.getLsbD_setWidth, BitVec.getLsbD_and, BitVec.getLsbD_sshiftRight]
  have h2 : (0xff : BitVec 64).getLsbD j = true := by
    clear h1; revert hj; revert j; decide
  rw [h2]
  have h3 : ¬ 64 ≤ j := by omega
  have h4 : i * 8 + j < 64 := by omega
  simp only [hj, h3, h4, decide_true, decide_false, Bool.not_false, Bool.true_and, Bool.and_true, if_true]
  rw [Nat.mul_comm]

theorem signedBytes_eq (v : BitVec 64) (L : Nat) (hL : L ≤ 8) : signedBytes v L = toBE L v.toNat := by
  induction L with
  | zero => rfl
  | succ L ih => rw [signedBytes, toBE_cons, ih (by omega), sshiftRight_byte v L (by omega)]

theorem unsignedBytes_eq (v : BitVec 64) (L : Nat) : unsignedBytes v L = toBE L v.toNat := by
  induction L with
  | zero => rfl
  | succ L ih =>
    rw [unsignedBytes, toBE_cons, ih]
    congr 1
    apply BitVec.eq_of_toNat_eq
    rw [BitVec.toNat_setWidth, BitVec.toNat_and, BitVec.toNat_ushiftRight, BitVec.toNat_ofNat, Nat.shiftRight_eq_div_pow, pow256,
      Nat.mul_comm]
    have : (0xff : BitVec 64).toNat = 2 ^ 8 - 1 := by decide
    rw [this, Nat.and_two_pow_sub_one_eq_mod]
    omega

theorem inRange64 (v : BitVec 64) : InRange v.toInt 7 := by
  unfold InRange
  have a := BitVec.le_toInt v
  have b := BitVec.toInt_lt (x := v)
  norm_num at *
  omega

theorem toBE_emod (L n : Nat) : toBE L (n % 256 ^ L) = toBE L n := by
  apply beNat_inj (by simp)
  rw [beNat_toBE, beNat_toBE, Nat.mod_mod]

/-- The contents written by `addASN1Signed`. -/
theorem isInt_signedBytes (v : BitVec 64) : IsInt v.toInt (signedBytes v (signedLen 8 v.toInt 1)) := by
  obtain ⟨k, h1, h2, h3, h4⟩ := signedLen_spec 8 v.toInt 1 ((inRange64 v).mono (by omega))
  have hk : k ≤ 7 := by
    rcases h4 with h4 | h4
    · omega
    · by_contra hk
      exact h4 ((inRange64 v).mono (by omega))
  rw [h2, Nat.add_comm, signedBytes_eq v _ (by omega)]
  have := isInt_toBE h3 h4
  convert this using 1
  rw [← toBE_emod]
  congr 1
  have e : (v.toInt % 256 ^ (k + 1)) = ((v.toNat % 256 ^ (k + 1) : Nat) : Int) := by
    have hd : (256 : Int) ^ (k + 1) ∣ 2 ^ 64 := by
      rw [show (256 : Int) = 2 ^ 8 by norm_num, ← pow_mul]
      exact pow_dvd_pow 2 (by omega)
    push_cast
    rw [BitVec.toInt_eq_toNat_bmod]
    rw [← Int.emod_emod_of_dvd _ hd, show (2 : Int) ^ 64 = ((2 ^ 64 : Nat) : Int) by norm_num, Int.bmod_emod, ← show (2 : Int) ^ 64 = ((2 ^ 64 : Nat) : Int) by norm_num, Int.emod_emod_of_dvd _ hd]
  rw [e]
  rfl

/-- The contents written by `AddASN1Uint64`. -/
theorem isInt_unsignedBytes (v : BitVec 64) : IsInt v.toNat (unsignedBytes v (unsignedLen 8 v.toNat 1)) := by
  have hv := v.isLt
  obtain ⟨k, h1, h2, h3, h4⟩ := unsignedLen_spec 8 v.toNat 1 (by omega)
  rw [h2, Nat.add_comm, unsignedBytes_eq v _]
  have := isInt_toBE h3 h4
  convert this using 1
  rw [← toBE_emod]
  congr 1

theorem natBytes_head {n : Nat} (h : n ≠ 0) : ∃ b bs, natBytes n = b :: bs ∧ b ≠ 0 := by
  cases hb : natBytes n with
  | nil => exact absurd (natBytes_eq_nil.1 hb) h
  | cons d ds =>
    refine ⟨d, ds, rfl, ?_⟩
    rintro rfl
    have hl : byteLen n = ds.length + 1 := by rw [← length_natBytes, hb]; rfl
    have hv : n = beNat (0 :: ds) := by rw [← hb]; simp
    have h1 := pow_byteLen_le h
    have h2 := beNat_lt ds
    rw [beNat_cons] at hv
    simp at hv
    rw [hl] at h1
    simp at h1
    omega

theorem xor_ff (b : Byte) : b ^^^ 0xff = ~~~b := by revert b; decide +kernel

/-- The contents written by `AddASN1BigInt`. -/
theorem eval_bigIntBody {n : Int} (hn : n ≠ -1) (anc : List Bool) :
    ∃ c, eval (bigIntBody n) false anc = .done (some c) anc ∧ IsInt n c := by
  unfold bigIntBody
  by_cases hneg : n < 0
  · rw [if_pos hneg]
    obtain ⟨b, bs, hb, hb0⟩ := natBytes_head (n := (-n - 1).toNat) (by omega)
    have hval : (beNat (b :: bs) : Int) = -n - 1 := by
      rw [← hb, beNat_natBytes]; omega
    simp only [hb, List.map_cons, xor_ff]
    have hnot := beNat_not (b :: bs)
    rw [List.map_cons] at hnot
    generalize hm : (~~~b :: bs.map fun x => ~~~x) = m at *
    have hlen : m.length = (b :: bs).length := by rw [← hm]; simp
    have hblt := b.isLt
    have hnb : (~~~b).toNat = 255 - b.toNat := by rw [BitVec.toNat_not]
    have hpz : ((256 ^ (b :: bs).length : Nat) : Int) = (256 : Int) ^ (b :: bs).length := by push_cast; rfl
    have hbpos : 0 < b.toNat := by
      rcases Nat.eq_zero_or_pos b.toNat with h | h
      · exact absurd (BitVec.eq_of_toNat_eq (by simpa using h)) hb0
      · exact h
    by_cases hc : ~~~b &&& 0x80 = 0
    · rw [if_pos hc]
      refine ⟨0xff :: m, by simp [eval, Den.prepend], ?_, ?_⟩
      · rw [and_80] at hc
        rw [← hm]
        refine ⟨?_, ?_⟩
        · rintro ⟨h, _⟩; exact absurd h (by decide)
        · rintro ⟨_, h⟩; omega
      · rw [intValue_cons, if_neg (by decide), hlen, ← hpz]
        rw [show ((0xff : Byte).toNat : Int) - 256 = -1 by decide]
        omega
    · rw [if_neg hc]
      rw [and_80] at hc
      refine ⟨m, by simp [eval, Den.prepend], ?_, ?_⟩
      · rw [← hm]
        cases hbs : bs with
        | nil => trivial
        | cons b1 bs =>
          rw [List.map_cons]
          refine ⟨?_, ?_⟩
          · rintro ⟨h, _⟩; rw [h] at hc; exact hc (by decide)
          · rintro ⟨h, _⟩
            have := congrArg BitVec.toNat h
            rw [hnb] at this
            simp at this
            omega
      · rw [← hm] at hlen hnot ⊢
        unfold intValue
        simp only
        rw [if_neg hc, hlen, ← hpz]
        omega
  · rw [if_neg hneg]
    by_cases h0 : n = 0
    · subst h0
      exact ⟨[0], by simp [eval, Den.prepend], by decide⟩
    · rw [if_neg h0]
      obtain ⟨b, bs, hb, hb0⟩ := natBytes_head (n := n.toNat) (by omega)
      have hval : (beNat (b :: bs) : Int) = n := by
        rw [← hb, beNat_natBytes]; omega
      simp only [hb]
      by_cases hc : b &&& 0x80 ≠ 0
      · rw [if_pos hc]
        rw [and80_ne] at hc
        refine ⟨0 :: b :: bs, by simp [eval, Den.prepend], ?_, ?_⟩
        · refine ⟨?_, ?_⟩
          · rintro ⟨_, h⟩; omega
          · rintro ⟨h, _⟩; exact absurd h (by decide)
        · rw [intValue_cons, if_pos (by decide)]
          simp
          exact hval
      · rw [if_neg hc]
        rw [and80_ne] at hc
        refine ⟨b :: bs, by simp [eval, Den.prepend], ?_, ?_⟩
        · cases bs with
          | nil => trivial
          | cons b1 bs =>
            refine ⟨?_, ?_⟩
            · rintro ⟨h, _⟩; exact hb0 h
            · rintro ⟨h, _⟩; rw [h] at hc; exact hc (by decide)
        · unfold intValue
          simp only
          rw [if_pos (by omega)]
          exact hval

end Verif.CB
