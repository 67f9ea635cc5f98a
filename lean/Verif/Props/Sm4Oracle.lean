import Verif.Props.Sm4
import Verif.Props.Padding
/-!
# C117: what decrypting and removing the padding shows of a message in CBC mode

`CBCDecrypt` followed by `PKCS5UnPadding`, as in the tests of the package. The observer chooses initialisation vector and ciphertext
and sees the number of bytes returned.
-/
namespace Verif.Props
open Verif Verif.Sm4 Verif.Spec.SM4

/-- Decrypt, then remove the padding. -/
def openCbc (key iv c : Bytes) : Res Bytes := do
  let q ← cbcDecrypt key iv c
  Padding.pkcs5UnPadding q

/-- No ciphertext of at least 16 blocks is refused, whatever was changed in it. -/
theorem C117_accepts_violated (key iv c : Bytes) (n : Nat) (hk : key.length = 16) (hv : iv.length = 16) (hn : 16 ≤ n)
    (hc : c.length = 16 * n) : ∃ text, openCbc key iv c = .ok text := by
  obtain ⟨o, ho, hl, _⟩ := C11_cbc_decrypt_conforms key iv c n hk hv hc
  unfold openCbc
  rw [ho, Res.ok_bind]
  rcases List.eq_nil_or_concat o with rfl | ⟨m, b, rfl⟩
  · simp at hl; omega
  · refine ⟨_, ((C15_unpad_exact _).2 m b (by simp)).2 ?_⟩
    have := b.isLt
    omega

/-- The last byte of block `i` of a message is found by asking about that block alone with 256 initialisation vectors: one of them, `x`,
makes the answer 15 bytes long, and that one tells the byte. -/
theorem C117_last_violated (key iv c o : Bytes) (n i : Nat) (hk : key.length = 16) (hv : iv.length = 16) (hc : c.length = 16 * n) (hi : i < n)
    (ho : cbcDecrypt key iv c = .ok o) :
    (∃ x : Byte, ∃ text, openCbc key (List.replicate 15 0 ++ [x]) (blk c i) = .ok text ∧ text.length = 15) ∧
    ∀ (x : Byte) (text : Bytes), openCbc key (List.replicate 15 0 ++ [x]) (blk c i) = .ok text → text.length = 15 →
      (blk o i)[15]? = ((if i = 0 then iv else blk c (i - 1))[15]?).map fun p => x ^^^ 1 ^^^ p := by
  have hb := length_blk hc hi
  obtain ⟨o', ho', _, hblk⟩ := C11_cbc_decrypt_conforms key iv c n hk hv hc
  rw [ho, Res.ok.injEq] at ho'
  rw [← ho'] at hblk
  rw [hblk i hi]
  have hd : (Spec.SM4.decrypt key (blk c i)).length = 16 := length_crypt _ _
  rcases List.eq_nil_or_concat (Spec.SM4.decrypt key (blk c i)) with h | ⟨m, b, h⟩
  · rw [h] at hd; simp at hd
  rw [h] at hd ⊢
  rw [List.concat_eq_append] at h hd ⊢
  have hm : m.length = 15 := by simpa using hd
  have hopen : ∀ x : Byte, openCbc key (List.replicate 15 0 ++ [x]) (blk c i) =
      if 16 < (b ^^^ x).toNat then .panic else .ok ((List.zipWith (· ^^^ ·) m (List.replicate 15 0) ++ [b ^^^ x]).take (16 - (b ^^^ x).toNat)) := by
    intro x
    obtain ⟨q, hq, hql, hqb⟩ := C11_cbc_decrypt_conforms key (List.replicate 15 0 ++ [x]) (blk c i) 1 hk (by simp) (by omega)
    have h0 := hqb 0 (by omega)
    have hself : ∀ l : Bytes, l.length = 16 → blk l 0 = l := by
      intro l hl
      unfold blk
      rw [Nat.mul_zero, List.drop_zero, List.take_of_length_le (by omega)]
    rw [hself q (by omega), hself _ hb, h, if_pos rfl, Spec.SM4.xor, List.zipWith_append (by simp [hm])] at h0
    have hlen : q.length = 16 := by omega
    unfold openCbc
    rw [hq, Res.ok_bind]
    have hx := (C15_unpad_exact q).2 _ (b ^^^ x) h0
    split
    · exact hx.1 (by omega)
    · rw [hx.2 (by omega), hlen, h0]
      rfl
  constructor
  · refine ⟨b ^^^ 1, ?_⟩
    rw [hopen, ← BitVec.xor_assoc, BitVec.xor_self, BitVec.zero_xor]
    exact ⟨_, rfl, by simp [hm]⟩
  · intro x text ht hl
    rw [hopen] at ht
    split at ht
    · cases ht
    · rw [Res.ok.injEq] at ht
      rw [← ht] at hl
      simp [hm] at hl
      have hx : b ^^^ x = 1 := BitVec.eq_of_toNat_eq (by simp; omega)
      have hb1 : b = x ^^^ 1 := by rw [← hx, BitVec.xor_comm b, ← BitVec.xor_assoc, BitVec.xor_self, BitVec.zero_xor]
      rw [Spec.SM4.xor, List.getElem?_zipWith, List.getElem?_append_right (by omega), hm, hb1]
      simp
      cases (if i = 0 then iv else blk c (i - 1))[15]? <;> rfl

/-- The message "a", padded and encrypted with the key and the initialisation vector 0: of the 256 vectors tried the one
that ends in 14 is answered with 15 bytes, and the last byte of the padded message is 14 xor 1 xor 0 = 15. -/
example : (do
    let p ← Padding.pkcs5Padding [0x61] 16
    let c ← cbcEncrypt (List.replicate 16 0) (List.replicate 16 0) p
    let q ← openCbc (List.replicate 16 0) (List.replicate 15 0 ++ [14]) c
    .ok (c.length, p[15]?, q.length)) = .ok (16, some 15, 15) := by decide +kernel

/-- 16 blocks of anything. -/
example : ∃ text, openCbc (List.replicate 16 1) (List.replicate 16 2) (List.replicate 256 3) = .ok text :=
  C117_accepts_violated _ _ _ 16 rfl rfl (by omega) (List.length_replicate ..)

end Verif.Props
