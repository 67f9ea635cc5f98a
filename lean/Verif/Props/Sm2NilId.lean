import Verif.Props.Sm2Transcript
/-!
# What a missing identity means in the key exchange (C160)
-/
namespace Verif.Props
open EC Verif.Sm2
open Verif.Spec.SM2 (coords fe sharedPoint)

attribute [local irreducible] Spec.SM2.fe Spec.SM3.hash

/-- The identity that `Sign` and `Verify` take for nil (C40). -/
def idForNil : Bytes := "1234567812345678".toList.map fun c => BitVec.ofNat 8 c.toNat

/-- **C160**, what holds: nil means one identity on both sides and in both roles, the empty one. -/
theorem C160_empty_partial (initiator : Bool) (keyBits : Int) (tag : Option Bytes) (s e : PrivateKey) (op oe : PublicKey) (id : Option Bytes) :
    calculateKeyWithConfirmation initiator keyBits tag s e none op oe id =
      calculateKeyWithConfirmation initiator keyBits tag s e (some []) op oe id ∧
    calculateKeyWithConfirmation initiator keyBits tag s e id op oe none =
      calculateKeyWithConfirmation initiator keyBits tag s e id op oe (some []) := ⟨rfl, rfl⟩

/-- C160 is violated: in an undisturbed exchange between keys of the curve, an initiator that names the responder by the default identity of
signatures does not accept the tag of a responder without identity, unless one of three explicit pairs of inputs is a collision of SM3. -/
theorem C160_refused_violated {dA rA dB rB xA yA x1 y1 xB yB x2 y2 xU yU : ℕ}
    (hA : Run dA rA (dB • G) (rB • G) xA yA x1 y1 xB yB x2 y2 xU yU) (bits bits' : Int) (tag idA : Option Bytes)
    (hid : (idA.getD []).length < 8192) (resA resB : ExchangeResult)
    (h : calculateKeyWithConfirmation false bits' tag ⟨dB⟩ ⟨rB⟩ none ⟨xA, yA⟩ ⟨x1, y1⟩ idA = .ok resB)
    (h' : calculateKeyWithConfirmation true bits (some resB.S1) ⟨dA⟩ ⟨rA⟩ idA ⟨xB, yB⟩ ⟨x2, y2⟩ (some idForNil) = .ok resA) :
    let zA := Spec.SM2.Z (idA.getD []) xA yA
    Collide (outerIn 2 xU yU zA (Spec.SM2.Z idForNil xB yB) x1 y1 x2 y2) (outerIn 2 xU yU zA (Spec.SM2.Z [] xB yB) x1 y1 x2 y2) ∨
    Collide (innerIn xU zA (Spec.SM2.Z idForNil xB yB) x1 y1 x2 y2) (innerIn xU zA (Spec.SM2.Z [] xB yB) x1 y1 x2 y2) ∨
    Collide (Spec.SM2.zInput idForNil xB yB) (Spec.SM2.zInput [] xB yB) := by
  intro zA
  have hB : Run dB rB (dA • G) (rA • G) xB yB x2 y2 xA yA x1 y1 xU yU :=
    ⟨hA.other, hA.otherEph, hA.self, hA.selfEph, by rw [← shared_symm]; exact hA.shared⟩
  have ht := C49_tag hA bits resB.S1 idA (some idForNil) hid (by decide) resA h'
  obtain ⟨_, _, e⟩ := responder_ok hB (by decide) hid h
  rw [e] at ht
  dsimp only [Option.getD_none, Option.getD_some] at ht
  have hlt : xB < 2 ^ 256 ∧ yB < 2 ^ 256 := ⟨lt_trans (coords_some hB.self).2.1 p_lt, lt_trans (coords_some hB.self).2.2 p_lt⟩
  by_cases hz : Spec.SM2.Z idForNil xB yB = Spec.SM2.Z [] xB yB
  · refine .inr (.inr ⟨fun he => ?_, hz⟩)
    exact absurd (zInput_inj hlt.1 hlt.2 hlt.1 hlt.2 he).1 (by decide)
  · by_cases ho : outerIn 2 xU yU zA (Spec.SM2.Z idForNil xB yB) x1 y1 x2 y2 = outerIn 2 xU yU zA (Spec.SM2.Z [] xB yB) x1 y1 x2 y2
    · refine .inr (.inl ⟨fun he => hz ?_, ?_⟩)
      · unfold innerIn at he
        simp only [List.append_assoc] at he
        exact (List.append_inj (List.append_cancel_left (List.append_cancel_left he)) (by rw [length_Z, length_Z])).1
      · unfold outerIn at ho
        exact List.append_cancel_left (List.cons.inj ho).2
    · exact .inl ⟨ho, ht.symm⟩

def exZd : Bytes := toBE 32 0x5b32bfe35482899b195d72c09d33ccdb465b2ded883240ff91f120a68bc91de8

theorem exZd_eq : Spec.SM2.Z idForNil exGx exGy = exZd := hash_eval (by decide +kernel)

/-- C160 is violated in the exchange of `Sm2Exchange`: the key of a responder without identity is not the one of a responder with the default
identity, and an initiator that names it so refuses its tag. -/
theorem C160_key_violated : ∃ resN resD,
    calculateKeyWithConfirmation false 128 none ⟨(1 : ℕ)⟩ ⟨(3 : ℕ)⟩ none ⟨exGx, exGy⟩ ⟨exGx, exGy⟩ none = .ok resN ∧
    calculateKeyWithConfirmation false 128 none ⟨(1 : ℕ)⟩ ⟨(3 : ℕ)⟩ (some idForNil) ⟨exGx, exGy⟩ ⟨exGx, exGy⟩ none = .ok resD ∧
    resN.Key ≠ resD.Key ∧
    calculateKeyWithConfirmation true 128 (some resN.S1) ⟨(1 : ℕ)⟩ ⟨(1 : ℕ)⟩ none ⟨exGx, exGy⟩ ⟨ex3x, ex3y⟩ (some idForNil) =
      .err "confirmation tag mismatch" := by
  obtain ⟨resN, hN⟩ := exResponder
  obtain ⟨resD, hD⟩ := C48_responder_returns exRun (by decide +kernel) 128 (by decide) none (some idForNil) none (by decide) (by decide)
  have p1 := pub_eq_of_coords coords_1G
  obtain ⟨resA, h1, _, _⟩ := C48_agree 1 1 1 3 _ _ _ _ p1 p1 p1 (pub_eq_of_coords coords_3G) none (some idForNil) none 128 resD hD
  obtain ⟨_, _, eN⟩ := responder_ok exRun (by decide) (by decide) hN
  obtain ⟨_, _, eD⟩ := responder_ok exRun (by decide) (by decide) hD
  have k1 : shortKey exUx exUy exZ exZ ((Int.toNat 128 + 7) / 8) = (toBE 32 0xc1a947ba50634a14cdbb7c7bad800ad1fd884efc16759c257d7fd35a805a24fb).take 16 := by
    unfold shortKey
    rw [hash_eval (v := (toBE 32 0xc1a947ba50634a14cdbb7c7bad800ad1fd884efc16759c257d7fd35a805a24fb)) (by decide +kernel)]
    decide +kernel
  have k2 : shortKey exUx exUy exZ exZd ((Int.toNat 128 + 7) / 8) = (toBE 32 0xf4fafbb9393cd23851d299ffdd5af7c949542d6cb784012e40c012c726772d19).take 16 := by
    unfold shortKey
    rw [hash_eval (v := (toBE 32 0xf4fafbb9393cd23851d299ffdd5af7c949542d6cb784012e40c012c726772d19)) (by decide +kernel)]
    decide +kernel
  have t1 : shortTag 2 exUx exUy exZ exZ exGx exGy ex3x ex3y = (toBE 32 0x6698fc5ca4b5fbfdfcd25ee6b5c6919d272ffe2d2437c870066d1df79dbf68c8) := by
    unfold shortTag
    rw [hash_eval (m := natBytes exUx ++ exZ ++ exZ ++ natBytes exGx ++ natBytes exGy ++ natBytes ex3x ++ natBytes ex3y)
      (v := (toBE 32 0x92c0a2c561e8514749539aba13a0fcbcb0cb7bdb969bbca2e98616de177189e4)) (by decide +kernel)]
    exact hash_eval (by decide +kernel)
  have t2 : shortTag 2 exUx exUy exZ exZd exGx exGy ex3x ex3y = (toBE 32 0x7cc562dc6e26fcae8d4594d35972bfc14878a625fa1e5a6b78ac86d1c9287ec7) := by
    unfold shortTag
    rw [hash_eval (m := natBytes exUx ++ exZ ++ exZd ++ natBytes exGx ++ natBytes exGy ++ natBytes ex3x ++ natBytes ex3y)
      (v := (toBE 32 0x65bd239454f12d3fb2377d0c51685998632c9f96f4e4582622c3df60d8e4a9ae)) (by decide +kernel)]
    exact hash_eval (by decide +kernel)
  refine ⟨resN, resD, hN, hD, ?_, C49_other_tag 128 resD.S1 resN.S1 _ _ _ _ _ _ resA h1 ?_⟩
  · rw [eN, eD]
    dsimp only [Option.getD_none, Option.getD_some]
    rw [exZ_eq, exZd_eq, k1, k2]
    decide +kernel
  · rw [eN, eD]
    dsimp only [Option.getD_none, Option.getD_some]
    rw [exZ_eq, exZd_eq, t1, t2]
    decide +kernel

/-- Signatures take nil for the identity that the exchange does not. -/
example (pub : PublicKey) (M sig : Bytes) : verify pub none M sig = verify pub (some idForNil) M sig :=
  (C40_nil_is_default ⟨0⟩ pub M sig []).2

end Verif.Props
