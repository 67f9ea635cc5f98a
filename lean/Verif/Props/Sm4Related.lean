import Verif.Base.Rotate
import Verif.Props.Sm4Schedule
/-!
# Property C136: no related keys of SM4
-/
namespace Verif.Props
open Verif Verif.Sm4

theorem sBox_inj_fin : ∀ a b : Fin 256, Spec.SM4.S a.val = Spec.SM4.S b.val → a = b := by
  have h : ∀ a : Fin 256, (sBoxTable.findIdx (fun x => x == sBoxTable.getD a.val 0)) = a.val := by decide +kernel
  intro a b hab
  have e := BitVec.eq_of_toNat_eq (((sBox_spec_fin a).trans hab).trans (sBox_spec_fin b).symm)
  have ha := h a
  rw [e, h b] at ha
  exact Fin.ext ha.symm

theorem sBox_small : ∀ a : Fin 256, Spec.SM4.S a.val < 256 := fun a => by
  rw [← sBox_spec_fin a]; exact (sBoxTable.getD a.val 0).isLt

theorem S_inj {a b : Nat} (ha : a < 256) (hb : b < 256) (h : Spec.SM4.S a = Spec.SM4.S b) : a = b :=
  congrArg Fin.val (sBox_inj_fin ⟨a, ha⟩ ⟨b, hb⟩ h)

theorem tau_inj {a b : Word} (h : Spec.SM4.tau a = Spec.SM4.tau b) : a = b := by
  unfold Spec.SM4.tau at h
  have hs : ∀ n, Spec.SM4.S (n % 256) < 256 := fun n => sBox_small ⟨n % 256, Nat.mod_lt _ (by omega)⟩
  have h' := congrArg BitVec.toNat h
  rw [BitVec.toNat_ofNat, BitVec.toNat_ofNat] at h'
  have a3 := hs (a.toNat / 2 ^ 24)
  have a2 := hs (a.toNat / 2 ^ 16)
  have a1 := hs (a.toNat / 2 ^ 8)
  have a0 := hs a.toNat
  have b3 := hs (b.toNat / 2 ^ 24)
  have b2 := hs (b.toNat / 2 ^ 16)
  have b1 := hs (b.toNat / 2 ^ 8)
  have b0 := hs b.toNat
  have e3 := S_inj (a := a.toNat / 2 ^ 24 % 256) (b := b.toNat / 2 ^ 24 % 256) (by omega) (by omega) (by omega)
  have e2 := S_inj (a := a.toNat / 2 ^ 16 % 256) (b := b.toNat / 2 ^ 16 % 256) (by omega) (by omega) (by omega)
  have e1 := S_inj (a := a.toNat / 2 ^ 8 % 256) (b := b.toNat / 2 ^ 8 % 256) (by omega) (by omega) (by omega)
  have e0 := S_inj (a := a.toNat % 256) (b := b.toNat % 256) (by omega) (by omega) (by omega)
  have ha := a.isLt
  have hb := b.isLt
  exact BitVec.eq_of_toNat_eq (by omega)

/-- L' of the key schedule is one-to-one: applied sixteen times it is the identity. -/
theorem lin_inj {x y : Word} (h : lin 13 23 x = lin 13 23 y) : x = y := by
  have e1 := congrArg (lin 13 23) h
  rw [lin_twice, lin_twice] at e1
  have e2 := congrArg (lin (2 * 13) (2 * 23)) e1
  rw [lin_twice, lin_twice] at e2
  have e3 := congrArg (lin (2 * (2 * 13)) (2 * (2 * 23))) e2
  rw [lin_twice, lin_twice] at e3
  have e4 := congrArg (lin (2 * (2 * (2 * 13))) (2 * (2 * (2 * 23)))) e3
  rw [lin_twice, lin_twice] at e4
  unfold lin at e4
  rw [rot_mod x (2 * (2 * (2 * (2 * 13)))) 16 rfl, rot_mod x (2 * (2 * (2 * (2 * 23)))) 16 rfl,
    rot_mod y (2 * (2 * (2 * (2 * 13)))) 16 rfl, rot_mod y (2 * (2 * (2 * (2 * 23)))) 16 rfl] at e4
  simpa [BitVec.xor_assoc] using e4

theorem T'_inj {a b : Word} (h : Spec.SM4.T' a = Spec.SM4.T' b) : a = b := tau_inj (lin_inj h)

theorem CK_inj_fin : ∀ i j : Fin 32, Spec.SM4.CK i.val = Spec.SM4.CK j.val → i = j := by decide +kernel

theorem CK_inj {i j : Nat} (hi : i < 32) (hj : j < 32) (h : Spec.SM4.CK i = Spec.SM4.CK j) : i = j :=
  congrArg Fin.val (CK_inj_fin ⟨i, hi⟩ ⟨j, hj⟩ h)

theorem rk_step (key : Bytes) (i : Nat) : Spec.SM4.rk key (i + 4) =
    Spec.SM4.rk key i ^^^ Spec.SM4.T' (Spec.SM4.rk key (i + 1) ^^^ Spec.SM4.rk key (i + 2) ^^^ Spec.SM4.rk key (i + 3) ^^^ Spec.SM4.CK (i + 4)) := rfl

theorem xor_cancel_left {a b c : Word} (h : c ^^^ a = c ^^^ b) : a = b := by
  rw [BitVec.xor_comm c a, BitVec.xor_comm c b] at h
  exact xor_right_cancel h

/-- Five consecutive round keys that are, up to one mask, five consecutive round keys of another key (or of the same one): the
mask is the difference of two constants of the schedule. -/
theorem mask_of_windows (key key' : Bytes) (i i' : Nat) (d : Word)
    (h : ∀ j, j < 5 → Spec.SM4.rk key' (i' + j) = Spec.SM4.rk key (i + j) ^^^ d) : d = Spec.SM4.CK (i + 4) ^^^ Spec.SM4.CK (i' + 4) := by
  have h0 := h 0 (by omega)
  have h1 := h 1 (by omega)
  have h2 := h 2 (by omega)
  have h3 := h 3 (by omega)
  have h4 := h 4 (by omega)
  rw [Nat.add_zero, Nat.add_zero] at h0
  rw [rk_step, rk_step, h0, h1, h2, h3] at h4
  generalize Spec.SM4.rk key i = a at h4
  generalize Spec.SM4.rk key (i + 1) = b at h4
  generalize Spec.SM4.rk key (i + 2) = c at h4
  generalize Spec.SM4.rk key (i + 3) = e at h4
  have : ∀ t, a ^^^ t ^^^ d = a ^^^ d ^^^ t := fun t => by ac_rfl
  rw [this] at h4
  have h5 := T'_inj (xor_cancel_left h4)
  have p1 : ∀ k, b ^^^ d ^^^ (c ^^^ d) ^^^ (e ^^^ d) ^^^ k = (b ^^^ c ^^^ e) ^^^ (d ^^^ d) ^^^ (d ^^^ k) := fun k => by ac_rfl
  rw [p1, BitVec.xor_self, BitVec.xor_zero] at h5
  have h6 := xor_cancel_left h5
  rw [← h6, BitVec.xor_assoc, BitVec.xor_self, BitVec.xor_zero]

/-- Five consecutive round keys that are five consecutive ones of another key in the opposite order stand at the same place. -/
theorem place_of_reversed (key key' : Bytes) (i i' : Nat) (hi : i + 5 ≤ 32) (hi' : i' + 5 ≤ 32)
    (h : ∀ j, j < 5 → Spec.SM4.rk key' (i' + j) = Spec.SM4.rk key (i + (4 - j))) : i = i' := by
  have h0 := h 0 (by omega)
  have h1 := h 1 (by omega)
  have h2 := h 2 (by omega)
  have h3 := h 3 (by omega)
  have h4 := h 4 (by omega)
  simp only [Nat.add_zero, Nat.sub_zero, Nat.reduceSub] at h0 h1 h2 h3 h4
  rw [rk_step, h0, h1, h2, h3, rk_step] at h4
  generalize Spec.SM4.rk key i = a at h4
  generalize Spec.SM4.rk key (i + 1) = b at h4
  generalize Spec.SM4.rk key (i + 2) = c at h4
  generalize Spec.SM4.rk key (i + 3) = e at h4
  rw [BitVec.xor_assoc] at h4
  have h5 := congrArg (a ^^^ ·) h4
  simp only [← BitVec.xor_assoc, BitVec.xor_self, BitVec.zero_xor] at h5
  have h6 := congrArg (· ^^^ Spec.SM4.T' (e ^^^ c ^^^ b ^^^ Spec.SM4.CK (i' + 4))) h5
  simp only [BitVec.xor_assoc, BitVec.xor_self, BitVec.xor_zero, BitVec.zero_xor] at h6
  simp only [← BitVec.xor_assoc] at h6
  have h7 := T'_inj h6
  rw [show e ^^^ c ^^^ b = b ^^^ c ^^^ e by ac_rfl] at h7
  have := CK_inj (by omega) (by omega) (xor_cancel_left h7)
  omega

/-- C136: no key has round keys that are those of another key, or its own, moved by some rounds: not even for five rounds. -/
theorem C136_slide (key key' : Bytes) (c c' : Cipher) (h : newCipher key = .ok c) (h' : newCipher key' = .ok c')
    (i i' : Nat) (hi : i + 5 ≤ 32) (hi' : i' + 5 ≤ 32) (hne : i ≠ i') : ∃ j, j < 5 ∧ c.enc.getD (i + j) 0 ≠ c'.enc.getD (i' + j) 0 := by
  obtain ⟨_, e1, _⟩ := newCipher_ok h
  obtain ⟨_, e1', _⟩ := newCipher_ok h'
  refine Classical.byContradiction fun hc => hne ?_
  have hall : ∀ j, j < 5 → Spec.SM4.rk key' (i' + j) = Spec.SM4.rk key (i + j) ^^^ 0 := fun j hj => by
    rw [show Spec.SM4.rk key (i + j) ^^^ 0 = Spec.SM4.rk key (i + j) from BitVec.xor_zero, ← expandKey_enc key (j := i + j) (by omega), ← expandKey_enc key' (j := i' + j) (by omega), ← e1, ← e1']
    exact (Classical.byContradiction fun hn => hc ⟨j, hj, hn⟩ : c.enc.getD (i + j) 0 = c'.enc.getD (i' + j) 0).symm
  have := mask_of_windows key key' i i' 0 hall
  have h2 : Spec.SM4.CK (i + 4) = Spec.SM4.CK (i' + 4) := by
    have := congrArg (· ^^^ Spec.SM4.CK (i' + 4)) this
    simpa [BitVec.xor_assoc] using this.symm
  have := CK_inj (by omega) (by omega) h2
  omega

theorem X_mask (k k' : Nat → Word) (d : Word) (n : Nat) (hk : ∀ j, j < n → k' j = k j ^^^ d) (inp inp' : Bytes)
    (hw : ∀ i, i < 4 → Spec.SM4.word inp' i = Spec.SM4.word inp i ^^^ d) :
    ∀ i, i < n + 4 → Spec.SM4.X k' inp' i = Spec.SM4.X k inp i ^^^ d := by
  intro i
  induction i using Nat.strongRecOn with
  | _ i ih =>
    intro hi
    match i, hi with
    | 0, _ => exact hw 0 (by omega)
    | 1, _ => exact hw 1 (by omega)
    | 2, _ => exact hw 2 (by omega)
    | 3, _ => exact hw 3 (by omega)
    | i + 4, hi =>
      rw [Spec.SM4.X, Spec.SM4.X, ih i (by omega) (by omega), ih (i + 1) (by omega) (by omega), ih (i + 2) (by omega) (by omega),
        ih (i + 3) (by omega) (by omega), hk i (by omega)]
      generalize Spec.SM4.X k inp i = a
      generalize Spec.SM4.X k inp (i + 1) = b
      generalize Spec.SM4.X k inp (i + 2) = c
      generalize Spec.SM4.X k inp (i + 3) = e
      have : b ^^^ d ^^^ (c ^^^ d) ^^^ (e ^^^ d) ^^^ (k i ^^^ d) = (b ^^^ c ^^^ e ^^^ k i) ^^^ (d ^^^ d) ^^^ (d ^^^ d) := by ac_rfl
      rw [this, BitVec.xor_self, BitVec.xor_zero, BitVec.xor_zero]
      ac_rfl

/-- C136: the rounds by themselves do have such a rule: a word added to all round keys and to the four words of the block is added to
the four words of the result. That no key is related so to another is due to the key schedule alone. -/
theorem C136_rounds (ks ks' : List Word) (d : Word) (hk : ∀ j, j < 32 → ks'.getD j 0 = ks.getD j 0 ^^^ d) (inp inp' : Bytes)
    (hw : ∀ i, i < 4 → Spec.SM4.word inp' i = Spec.SM4.word inp i ^^^ d) :
    ∀ i, i < 4 → Spec.SM4.word (processBlock ks' inp') i = Spec.SM4.word (processBlock ks inp) i ^^^ d := by
  intro i hi
  rw [processBlock_spec ks (fun j => ks.getD j 0) (fun _ _ => rfl), processBlock_spec ks' (fun j => ks'.getD j 0) (fun _ _ => rfl),
    word_crypt _ _ i hi, word_crypt _ _ i hi]
  exact X_mask _ _ d 32 hk inp inp' hw (35 - i) (by omega)

/-- C136: no two keys have round keys that differ in all of five consecutive rounds by the same word, though the rounds by
themselves keep such a difference (`C136_rounds`). In particular there is no rule for the complement, as DES has one. -/
theorem C136_mask (key key' : Bytes) (c c' : Cipher) (h : newCipher key = .ok c) (h' : newCipher key' = .ok c') (hne : key ≠ key')
    (d : Word) (i : Nat) (hi : i + 5 ≤ 32) : ∃ j, j < 5 ∧ c'.enc.getD (i + j) 0 ≠ c.enc.getD (i + j) 0 ^^^ d := by
  refine Classical.byContradiction fun hc => hne ?_
  have hall : ∀ j, j < 5 → c'.enc.getD (i + j) 0 = c.enc.getD (i + j) 0 ^^^ d := fun j hj =>
    Classical.byContradiction fun hn => hc ⟨j, hj, hn⟩
  have hd : d = 0 := by
    obtain ⟨_, e1, _⟩ := newCipher_ok h
    obtain ⟨_, e1', _⟩ := newCipher_ok h'
    have := mask_of_windows key key' i i d fun j hj => by
      rw [← expandKey_enc key (j := i + j) (by omega), ← expandKey_enc key' (j := i + j) (by omega), ← e1, ← e1']
      exact hall j hj
    rwa [BitVec.xor_self] at this
  subst hd
  exact C102_injective key key' c c' h h' i (by omega) fun j hj => by
    rw [hall j (by omega)]; exact BitVec.xor_zero.symm

/-- C136: no key is the inverse of another or of itself: the round keys in the order of decryption are not those of a key in
the order of encryption, not even in any five consecutive rounds. -/
theorem C136_dual (key key' : Bytes) (c c' : Cipher) (h : newCipher key = .ok c) (h' : newCipher key' = .ok c')
    (i : Nat) (hi : i + 5 ≤ 32) : ∃ j, j < 5 ∧ c.dec.getD (i + j) 0 ≠ c'.enc.getD (i + j) 0 := by
  obtain ⟨_, _, e1⟩ := newCipher_ok h
  obtain ⟨_, e1', _⟩ := newCipher_ok h'
  refine Classical.byContradiction fun hc => ?_
  have := place_of_reversed key key' (27 - i) i (by omega) (by omega) fun j hj => by
    have h1 : c.dec.getD (i + j) 0 = c'.enc.getD (i + j) 0 := Classical.byContradiction fun hn => hc ⟨j, hj, hn⟩
    rw [e1, e1', expandKey_dec key (by omega), expandKey_enc key' (by omega)] at h1
    rw [← h1]
    congr 1
    omega
  omega

/-! The hypotheses are met by any two keys; the rule of the rounds, with the complement, on a key schedule that is no key's. -/
example : (do let c ← newCipher (List.replicate 16 0); let c' ← newCipher (List.replicate 16 0xff)
              Res.ok (decide (c'.enc.getD 5 0 = c.enc.getD 5 0 ^^^ -1), c.enc.length)) = .ok (false, 32) := by decide +kernel
example : (processBlock (List.replicate 32 (-1)) (List.replicate 16 0xff)).map (· ^^^ 0xff) = processBlock (List.replicate 32 0) (List.replicate 16 0) := by
  decide +kernel
/-- The cipher does not have it. -/
example : (processBlock (expandKey (List.replicate 16 0xff) true) (List.replicate 16 0xff)).map (· ^^^ 0xff) ≠
    processBlock (expandKey (List.replicate 16 0) true) (List.replicate 16 0) := by decide +kernel

end Verif.Props
