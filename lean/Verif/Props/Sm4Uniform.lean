import Verif.Props.Sm4Leak
import Mathlib.Logic.ExistsUnique
/-!
# C120, what holds: what is uniformly distributed in the ciphertexts of the two modes
-/
namespace Verif.Props
open Verif Verif.Sm4 Verif.Spec.SM4

/-- **C120**, what holds for CBC: whatever the key and the message, for every block position and every value of a block there is exactly one
initialisation vector with which the ciphertext has this value there. So if the vector is chosen uniformly, every single block of the
ciphertext is uniformly distributed, and says nothing about the message. Missing: several blocks together, see `C120_cbc_violated`. -/
theorem C120_iv_partial (key p : Bytes) (n i : Nat) (hk : key.length = 16) (hp : p.length = 16 * n) (hi : i < n) (x : Bytes) (hx : x.length = 16) :
    ∃! iv : Bytes, iv.length = 16 ∧ ∃ c, cbcEncrypt key iv p = .ok c ∧ blk c i = x := by
  have enc_dec : ∀ y : Bytes, y.length = 16 → Spec.SM4.encrypt key (Spec.SM4.decrypt key y) = y ∧ (Spec.SM4.decrypt key y).length = 16 := by
    intro y hy
    obtain ⟨⟨_, _⟩, d, hd, hdl, hdb⟩ := C10_ecb_blocks key y 1 hk (by omega)
    have h2 := (C10_ecb_roundtrip key y hk ⟨1, by omega⟩).2
    rw [hd, Res.ok_bind] at h2
    obtain ⟨⟨e, he, hel, heb⟩, _⟩ := C10_ecb_blocks key d 1 hk (by omega)
    rw [h2] at he
    cases he
    have whole : ∀ z : Bytes, z.length = 16 → blk z 0 = z := fun z hz => by
      show (z.drop 0).take 16 = z
      rw [List.drop_zero, List.take_of_length_le (by omega)]
    have a := hdb 0 (by omega)
    have b := heb 0 (by omega)
    rw [whole _ (by omega), whole _ hy] at a
    rw [whole _ hy, whole _ (by omega)] at b
    rw [← a]
    exact ⟨b.symm, by omega⟩
  have step : ∀ {iv c : Bytes}, iv.length = 16 → cbcEncrypt key iv p = .ok c → c.length = 16 * n ∧
      ∀ j, j < n → blk c j = Spec.SM4.encrypt key (Spec.SM4.xor (blk p j) (before iv c j)) ∧ (before iv c j).length = 16 := by
    intro iv c hv hc
    obtain ⟨c', h1, h2, h3⟩ := C11_cbc_encrypt_conforms key iv p n hk hv hp
    rw [hc] at h1
    cases h1
    refine ⟨h2.trans hp, fun j hj => ⟨h3 j hj, ?_⟩⟩
    unfold before
    split
    · exact hv
    · exact length_blk (h2.trans hp) (by omega)
  induction i generalizing x with
  | zero =>
    have lp := length_blk hp hi
    obtain ⟨d1, d2⟩ := enc_dec x hx
    refine ⟨Spec.SM4.xor (Spec.SM4.decrypt key x) (blk p 0), ⟨xor_length16 d2 lp, ?_⟩, ?_⟩
    · obtain ⟨c, h1, _⟩ := C11_cbc_encrypt_conforms key (Spec.SM4.xor (Spec.SM4.decrypt key x) (blk p 0)) p n hk (xor_length16 d2 lp) hp
      refine ⟨c, h1, ?_⟩
      rw [((step (xor_length16 d2 lp) h1).2 0 hi).1]
      show Spec.SM4.encrypt key (Spec.SM4.xor (blk p 0) (Spec.SM4.xor (Spec.SM4.decrypt key x) (blk p 0))) = x
      rw [xor_comm', xor_xor_cancel (d2.trans lp.symm), d1]
    · rintro iv ⟨hv, c, hc, rfl⟩
      rw [((step hv hc).2 0 hi).1]
      show iv = Spec.SM4.xor (Spec.SM4.decrypt key (Spec.SM4.encrypt key (Spec.SM4.xor (blk p 0) iv))) (blk p 0)
      rw [dec_enc key (xor_length16 lp hv), xor_comm' (blk p 0), xor_xor_cancel (hv.trans lp.symm)]
  | succ i ih =>
    have lp := length_blk hp hi
    obtain ⟨d1, d2⟩ := enc_dec x hx
    obtain ⟨iv, ⟨hv, c, hc, hb⟩, hu⟩ := ih (by omega) (Spec.SM4.xor (Spec.SM4.decrypt key x) (blk p (i + 1))) (xor_length16 d2 lp)
    refine ⟨iv, ⟨hv, c, hc, ?_⟩, ?_⟩
    · rw [((step hv hc).2 (i + 1) hi).1]
      show Spec.SM4.encrypt key (Spec.SM4.xor (blk p (i + 1)) (blk c i)) = x
      rw [hb, xor_comm', xor_xor_cancel (d2.trans lp.symm), d1]
    · rintro iv' ⟨hv', c', hc', rfl⟩
      refine hu iv' ⟨hv', c', hc', ?_⟩
      rw [((step hv' hc').2 (i + 1) hi).1]
      have hl := length_blk (step hv' hc').1 (i := i) (by omega)
      show blk c' i = Spec.SM4.xor (Spec.SM4.decrypt key (Spec.SM4.encrypt key (Spec.SM4.xor (blk p (i + 1)) (blk c' i)))) (blk p (i + 1))
      rw [dec_enc key (xor_length16 lp hl), xor_comm' (blk p (i + 1)), xor_xor_cancel (hl.trans lp.symm)]

/-- **C120**, what holds for both modes: under every key, and with every initialisation vector, every string of whole blocks is the ciphertext
of exactly one message, which is as long; so if the message is chosen uniformly, so is the ciphertext. -/
theorem C120_message_partial (key iv c : Bytes) (hk : key.length = 16) (hv : iv.length = 16) (hc : 16 ∣ c.length) :
    (∃! p : Bytes, 16 ∣ p.length ∧ ecbEncrypt key p = .ok c) ∧ (∃! p : Bytes, 16 ∣ p.length ∧ cbcEncrypt key iv p = .ok c) ∧
      (∀ p, 16 ∣ p.length → ecbEncrypt key p = .ok c ∨ cbcEncrypt key iv p = .ok c → p.length = c.length) := by
  refine ⟨?_, ?_, ?_⟩
  · obtain ⟨n, hn⟩ := hc
    obtain ⟨_, d, hd, hdl, _⟩ := C10_ecb_blocks key c n hk hn
    have h2 := (C10_ecb_roundtrip key c hk ⟨n, hn⟩).2
    rw [hd, Res.ok_bind] at h2
    refine ⟨d, ⟨⟨n, hdl.trans hn⟩, h2⟩, ?_⟩
    rintro q ⟨hq, h⟩
    have := (C10_ecb_roundtrip key q hk hq).1
    rw [h, Res.ok_bind, hd, Res.ok.injEq] at this
    exact this.symm
  · obtain ⟨n, hn⟩ := hc
    obtain ⟨d, hd, hdl, _⟩ := C11_cbc_decrypt_conforms key iv c n hk hv hn
    have h2 := (C11_cbc_roundtrip key iv c hk hv ⟨n, hn⟩).2
    rw [hd, Res.ok_bind] at h2
    refine ⟨d, ⟨⟨n, hdl.trans hn⟩, h2⟩, ?_⟩
    rintro q ⟨hq, h⟩
    have := (C11_cbc_roundtrip key iv q hk hv hq).1
    rw [h, Res.ok_bind, hd, Res.ok.injEq] at this
    exact this.symm
  · rintro p ⟨n, hn⟩ (h | h)
    · obtain ⟨⟨o, ho, hl, _⟩, _⟩ := C10_ecb_blocks key p n hk hn
      rw [h] at ho
      cases ho
      exact hl.symm
    · obtain ⟨o, ho, hl, _⟩ := C11_cbc_encrypt_conforms key iv p n hk hv hn
      rw [h] at ho
      cases ho
      exact hl.symm

/-- The vector for which the second block of this ciphertext is all zero, and what is encrypted with it. -/
example : (do
    let z := List.replicate 16 (0 : Byte)
    let y ← ecbDecrypt z z
    let iv ← ecbDecrypt z y
    let c ← cbcEncrypt z iv (List.replicate 32 0)
    Res.ok (iv.length, blk c 1, decide (blk c 0 = z))) = .ok (16, List.replicate 16 0, false) := by decide +kernel

end Verif.Props
