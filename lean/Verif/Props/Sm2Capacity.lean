import Verif.Sm2.Capacity
import Verif.Props.Sm2Cipher
/-!
# What lies behind the input slice does not matter (C46, C63)
-/
namespace Verif.Props
open Verif Verif.EC Verif.Sm2 Verif.Spec.SM2

theorem sliceCap_inside {inp : Bytes} (spare : Bytes) {lo hi : Int} (h : hi ≤ inp.length) : sliceCap inp spare lo hi = slice inp lo hi := by
  unfold sliceCap slice
  by_cases hc : 0 ≤ lo ∧ lo ≤ hi
  · rw [if_pos ⟨hc.1, hc.2, by omega⟩, if_pos ⟨hc.1, hc.2, h⟩, List.drop_append_of_le_length (by omega), List.take_append_of_le_length (by simp; omega)]
  · rw [if_neg (fun x => hc ⟨x.1, x.2.1⟩), if_neg (fun x => hc ⟨x.1, x.2.1⟩)]

theorem splitCipherCap_eq (inp spare : Bytes) (t : Int) : splitCipherCap 65 inp spare t = splitCipher 65 inp t := by
  have s32 : ((Sm3.size : ℕ) : Int) = 32 := rfl
  by_cases h : inp.length < 97
  · rw [splitCipher_short h]
    unfold splitCipherCap makeBytes
    dsimp only
    rw [if_pos (by rw [s32]; omega)]
    rfl
  · unfold splitCipherCap splitCipher
    dsimp only
    rw [s32, sliceCap_inside spare (by omega), sliceCap_inside spare (by omega), sliceCap_inside spare (by omega), sliceCap_inside spare (by omega)]

/-- C46: the outcome of `Decrypt` does not depend on what the caller's array holds behind the ciphertext, nor on how much. In
particular a ciphertext that is cut off is never completed from there. -/
theorem C46_capacity (d : ℕ) (inp spare : Bytes) (t : Int) : decryptCap ⟨d⟩ inp spare t = decrypt ⟨d⟩ inp t := by
  have e65 : ((((cv.bitSize + 7) >>> 3) * 2 + 1 : Nat) : Int) = 65 := rfl
  by_cases h : 65 ≤ inp.length
  · unfold decryptCap decrypt decryptRest
    dsimp only
    rw [e65, sliceCap_inside spare (by omega)]
    simp only [splitCipherCap_eq]
    rfl
  · rw [decrypt_short (by omega)]
    unfold decryptCap
    dsimp only
    rw [e65]
    unfold sliceCap
    split
    · rw [Res.ok_bind]
      split
      · rfl
      · rename_i q hq
        obtain ⟨Q, x, y, hQ, rfl, _⟩ := (unmarshal_iff _ _).1 hq
        have hinf : ¬ isEcPointInfinity (enc ((sm2H).natAbs • Q)) = true := by
          rw [isInf_enc, show sm2H.natAbs = 1 from rfl, one_smul]; exact (coords_some hQ).1
        rw [mult_int (coords_isAff hQ), Res.ok_bind, if_neg hinf, mult_int (coords_isAff hQ), Res.ok_bind, splitCipherCap_eq, splitCipher_short (by omega)]
        rfl
    · rfl

/-- C63: the same for `MarshalCipher`. -/
theorem C63_capacity (inp spare : Bytes) (t : Int) : marshalCipherCap inp spare t = marshalCipher inp t := by
  have e32 : (((cv.bitSize + 7) >>> 3 : Nat) : Int) = 32 := rfl
  have s32 : ((Sm3.size : ℕ) : Int) = 32 := rfl
  unfold marshalCipherCap marshalCipher
  dsimp only
  rw [e32, s32]
  by_cases h : inp.length < 97
  · unfold makeBytes
    rw [if_pos (by omega)]
    rfl
  · rw [sliceCap_inside spare (by omega), sliceCap_inside spare (by omega), sliceCap_inside spare (by omega), sliceCap_inside spare (by omega),
      sliceCap_inside spare (by omega), sliceCap_inside spare (by omega)]

/-- The slice expression itself does reach behind the slice. -/
theorem C46_slice_reaches : sliceCap [1, 2] [3, 4] 0 3 = .ok [1, 2, 3] ∧ slice [1, 2] 0 3 = .panic := by decide

end Verif.Props
