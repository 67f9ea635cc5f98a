import Verif.Props.Sm4
/-!
# Property C102: different keys have different round keys
-/
namespace Verif.Props
open Verif Verif.Sm4

theorem xor_right_cancel {a b c : Word} (h : a ^^^ c = b ^^^ c) : a = b := by
  have := congrArg (· ^^^ c) h
  simpa [BitVec.xor_assoc] using this

/-- Four consecutive words of the schedule determine the ones before them. -/
theorem schedule_back (key key' : Bytes) (i : Nat) (h : ∀ j, j < 4 → Spec.SM4.K key (i + j) = Spec.SM4.K key' (i + j)) :
    ∀ j, j < 4 → Spec.SM4.K key j = Spec.SM4.K key' j := by
  induction i with
  | zero => intro j hj; have := h j hj; rwa [Nat.zero_add] at this
  | succ i ih =>
    apply ih
    have e1 := h 0 (by omega)
    have e2 := h 1 (by omega)
    have e3 := h 2 (by omega)
    have e4 := h 3 (by omega)
    rw [show i + 1 + 0 = i + 1 by omega] at e1
    rw [show i + 1 + 1 = i + 2 by omega] at e2
    rw [show i + 1 + 2 = i + 3 by omega] at e3
    rw [show i + 1 + 3 = i + 4 by omega, Spec.SM4.K, Spec.SM4.K, e1, e2, e3] at e4
    have e0 := xor_right_cancel e4
    intro j hj
    match j, hj with
    | 0, _ => exact e0
    | 1, _ => exact e1
    | 2, _ => exact e2
    | 3, _ => exact e3

theorem key_of_words {key key' : Bytes} (hk : key.length = 16) (hk' : key'.length = 16)
    (h : ∀ j, j < 4 → Spec.SM4.K key j = Spec.SM4.K key' j) : key = key' := by
  have h0 := xor_right_cancel (h 0 (by omega))
  have h1 := xor_right_cancel (h 1 (by omega))
  have h2 := xor_right_cancel (h 2 (by omega))
  have h3 := xor_right_cancel (h 3 (by omega))
  rw [← words_of_block hk, ← words_of_block hk', h0, h1, h2, h3]

/-- C102: the round keys of any four consecutive rounds determine the key: no two keys agree on them, so no two keys are
equivalent, and the schedule loses nothing of the key's 128 bits. For the array of `NewCipher`. -/
theorem C102_injective (key key' : Bytes) (c c' : Cipher) (h : newCipher key = .ok c) (h' : newCipher key' = .ok c') (i : Nat) (hi : i + 4 ≤ 32)
    (he : ∀ j, j < 4 → c.enc.getD (i + j) 0 = c'.enc.getD (i + j) 0) : key = key' := by
  obtain ⟨hk, e1, _⟩ := newCipher_ok h
  obtain ⟨hk', e1', _⟩ := newCipher_ok h'
  rw [e1, e1'] at he
  refine key_of_words hk hk' (schedule_back key key' (i + 4) fun j hj => ?_)
  have := he j hj
  rw [expandKey_enc key (by omega), expandKey_enc key' (by omega), Spec.SM4.rk, Spec.SM4.rk] at this
  rw [show i + 4 + j = i + j + 4 by omega]
  exact this

/-- C102 for decryption, whose array is the same in reverse. -/
theorem C102_decryption (key key' : Bytes) (c c' : Cipher) (h : newCipher key = .ok c) (h' : newCipher key' = .ok c') (i : Nat) (hi : i + 4 ≤ 32)
    (he : ∀ j, j < 4 → c.dec.getD (i + j) 0 = c'.dec.getD (i + j) 0) : key = key' := by
  obtain ⟨hk, _, e1⟩ := newCipher_ok h
  obtain ⟨hk', _, e1'⟩ := newCipher_ok h'
  rw [e1, e1'] at he
  refine key_of_words hk hk' (schedule_back key key' (32 - i) fun j hj => ?_)
  have := he (3 - j) (by omega)
  rw [expandKey_dec key (by omega), expandKey_dec key' (by omega), Spec.SM4.rk, Spec.SM4.rk] at this
  rw [show 31 - (i + (3 - j)) + 4 = 32 - i + j by omega] at this
  exact this

theorem words_cat (a b c d : Word) :
    Spec.SM4.word (toBE 4 a.toNat ++ toBE 4 b.toNat ++ toBE 4 c.toNat ++ toBE 4 d.toNat) 0 = a ∧
    Spec.SM4.word (toBE 4 a.toNat ++ toBE 4 b.toNat ++ toBE 4 c.toNat ++ toBE 4 d.toNat) 1 = b ∧
    Spec.SM4.word (toBE 4 a.toNat ++ toBE 4 b.toNat ++ toBE 4 c.toNat ++ toBE 4 d.toNat) 2 = c ∧
    Spec.SM4.word (toBE 4 a.toNat ++ toBE 4 b.toNat ++ toBE 4 c.toNat ++ toBE 4 d.toNat) 3 = d := by
  have hw : ∀ x : Word, BitVec.ofNat 32 (beNat (toBE 4 x.toNat)) = x := fun x => by
    rw [beNat_toBE_of_lt (by have := x.isLt; omega)]; simp
  have hl : ∀ x : Word, (toBE 4 x.toNat).length = 4 := fun x => by simp
  have hA := hl a; have hB := hl b; have hC := hl c; have hD := hl d
  have wA := hw a; have wB := hw b; have wC := hw c; have wD := hw d
  unfold Spec.SM4.word
  generalize toBE 4 a.toNat = A at *
  generalize toBE 4 b.toNat = B at *
  generalize toBE 4 c.toNat = C at *
  generalize toBE 4 d.toNat = D at *
  refine ⟨?_, ?_, ?_, ?_⟩
  · rw [show 4 * 0 = 0 from rfl, List.drop_zero, List.append_assoc, List.append_assoc, List.take_left' hA, wA]
  · rw [show 4 * 1 = 4 from rfl, List.append_assoc, List.append_assoc, List.drop_left' hA, List.take_left' hB, wB]
  · rw [show 4 * 2 = 8 from rfl, List.append_assoc, List.drop_left' (by simp [hA, hB]), List.take_left' hC, wC]
  · rw [show 4 * 3 = 12 from rfl, List.drop_left' (by simp [hA, hB, hC]), List.take_of_length_le (by omega), wD]

theorem schedule_onto (i : Nat) (w : Nat → Word) : ∃ key : Bytes, key.length = 16 ∧ ∀ j, j < 4 → Spec.SM4.rk key (i + j) = w j := by
  have base : ∀ (v : Nat → Word), ∃ key : Bytes, key.length = 16 ∧ ∀ j, j < 4 → Spec.SM4.K key j = v j := by
    intro v
    refine ⟨toBE 4 (v 0 ^^^ Spec.SM4.FK 0).toNat ++ toBE 4 (v 1 ^^^ Spec.SM4.FK 1).toNat ++ toBE 4 (v 2 ^^^ Spec.SM4.FK 2).toNat ++
      toBE 4 (v 3 ^^^ Spec.SM4.FK 3).toNat, by simp, fun j hj => ?_⟩
    obtain ⟨q0, q1, q2, q3⟩ := words_cat (v 0 ^^^ Spec.SM4.FK 0) (v 1 ^^^ Spec.SM4.FK 1) (v 2 ^^^ Spec.SM4.FK 2) (v 3 ^^^ Spec.SM4.FK 3)
    match j, hj with
    | 0, _ => rw [Spec.SM4.K, q0, BitVec.xor_assoc, BitVec.xor_self, BitVec.xor_zero]
    | 1, _ => rw [Spec.SM4.K, q1, BitVec.xor_assoc, BitVec.xor_self, BitVec.xor_zero]
    | 2, _ => rw [Spec.SM4.K, q2, BitVec.xor_assoc, BitVec.xor_self, BitVec.xor_zero]
    | 3, _ => rw [Spec.SM4.K, q3, BitVec.xor_assoc, BitVec.xor_self, BitVec.xor_zero]
  have key : ∀ (i : Nat) (v : Nat → Word), ∃ key : Bytes, key.length = 16 ∧ ∀ j, j < 4 → Spec.SM4.K key (i + j) = v j := by
    intro i
    induction i with
    | zero => intro v; simpa using base v
    | succ i ih =>
      intro v
      obtain ⟨key, hk, h⟩ := ih fun j => match j with
        | 0 => v 3 ^^^ Spec.SM4.T' (v 0 ^^^ v 1 ^^^ v 2 ^^^ Spec.SM4.CK i)
        | j + 1 => v j
      refine ⟨key, hk, fun j hj => ?_⟩
      have h0 := h 0 (by omega)
      have h1 := h 1 (by omega)
      have h2 := h 2 (by omega)
      have h3 := h 3 (by omega)
      match j, hj with
      | 0, _ => exact h1
      | 1, _ => exact h2
      | 2, _ => exact h3
      | 3, _ =>
        rw [show i + 1 + 3 = i + 4 by omega, Spec.SM4.K, h1, h2, h3]
        rw [Nat.add_zero] at h0
        rw [h0]
        simp [BitVec.xor_assoc]
  obtain ⟨k, hk, h⟩ := key (i + 4) w
  refine ⟨k, hk, fun j hj => ?_⟩
  rw [Spec.SM4.rk, show i + j + 4 = i + 4 + j by omega]
  exact h j hj

/-- C102: every four words are the round keys of some key, for any four consecutive rounds: nothing is left out either. -/
theorem C102_onto (i : Nat) (hi : i + 4 ≤ 32) (w : Nat → Word) : ∃ key c, newCipher key = .ok c ∧ ∀ j, j < 4 → c.enc.getD (i + j) 0 = w j := by
  obtain ⟨key, hk, h⟩ := schedule_onto i w
  refine ⟨key, ⟨expandKey key true, expandKey key false⟩, by unfold newCipher; rw [if_neg (by omega)], fun j hj => ?_⟩
  rw [expandKey_enc key (by omega)]
  exact h j hj

/-- Keys that differ in one bit have different last round keys here. -/
example : (do let c ← newCipher (List.replicate 16 0); let c' ← newCipher (List.replicate 15 0 ++ [1])
              Res.ok (decide (c.enc.getD 31 0 = c'.enc.getD 31 0), c.enc.length)) = .ok (false, 32) := by decide +kernel

end Verif.Props
