import Verif.Props.Sm4Pieces
/-!
# C157: what the ciphertexts of ECB and CBC show of the messages

Exactly which equalities can be seen: in ECB equal blocks of messages, in CBC equal blocks after chaining, and with one IV for two
messages how many blocks they have in common at the beginning.
-/
namespace Verif.Props
open Verif Verif.Sm4 Verif.Spec.SM4

theorem encrypt_inj {key a b : Bytes} (ha : a.length = 16) (hb : b.length = 16) :
    Spec.SM4.encrypt key a = Spec.SM4.encrypt key b ↔ a = b :=
  ⟨fun h => by rw [← dec_enc key ha, h, dec_enc key hb], fun h => by rw [h]⟩

theorem ecb_sizes_of_ok {key m c : Bytes} (h : ecbEncrypt key m = .ok c) : key.length = 16 ∧ 16 ∣ m.length := by
  by_contra hne
  obtain ⟨e, he⟩ := ((C09_ecb_sizes key m).2 hne).1
  rw [he] at h
  cases h

theorem cbc_sizes_of_ok {key iv m c : Bytes} (h : cbcEncrypt key iv m = .ok c) : key.length = 16 ∧ 16 ∣ m.length ∧ iv.length = 16 := by
  by_contra hne
  obtain ⟨-, s2, s3⟩ := C09_cbc_sizes key iv m
  by_cases h1 : key.length = 16 ∧ 16 ∣ m.length
  · rw [(s2 ⟨h1.1, h1.2, fun hv => hne ⟨h1.1, h1.2, hv⟩⟩).1] at h
    cases h
  · obtain ⟨e, he⟩ := (s3 h1).1
    rw [he] at h
    cases h

/-- Block `i` of a CBC ciphertext, with the ciphertext read behind its IV. -/
theorem cbc_block {key iv m c : Bytes} (h : cbcEncrypt key iv m = .ok c) {i : ℕ} (hi : 16 * i + 16 ≤ m.length) :
    blk c i = Spec.SM4.encrypt key (xor (blk m i) (blk (iv ++ c) i)) ∧ (xor (blk m i) (blk (iv ++ c) i)).length = 16 := by
  obtain ⟨hk, ⟨n, hn⟩, hv⟩ := cbc_sizes_of_ok h
  obtain ⟨o, h1, h2, h3⟩ := cbc_enc_ok hk hv hn
  rw [h] at h1
  cases h1
  have hp : blk (iv ++ c) i = if i = 0 then iv else blk c (i - 1) := by
    by_cases h0 : i = 0
    · subst h0
      rw [if_pos rfl]
      unfold blk
      rw [Nat.mul_zero, List.drop_zero, ← hv, List.take_left]
    · obtain ⟨j, rfl⟩ := Nat.exists_eq_succ_of_ne_zero h0
      rw [if_neg h0, Nat.succ_eq_add_one, Nat.add_comm, blk_append_right (n := 1) (by omega), Nat.add_sub_cancel_left]
  refine ⟨by rw [hp]; exact h3 i (by omega), ?_⟩
  rw [length_xor, length_blk hn (by omega), length_blk_full (by rw [List.length_append]; omega)]
  rfl

/-- C157 for ECB: two blocks of ciphertexts under a key, of one message or of two, are equal exactly if the blocks of the messages are. -/
theorem C157_ecb (key m m' c c' : Bytes) (h : ecbEncrypt key m = .ok c) (h' : ecbEncrypt key m' = .ok c') (i j : ℕ)
    (hi : 16 * i + 16 ≤ m.length) (hj : 16 * j + 16 ≤ m'.length) : blk c i = blk c' j ↔ blk m i = blk m' j := by
  obtain ⟨hk, n, hn⟩ := ecb_sizes_of_ok h
  obtain ⟨-, n', hn'⟩ := ecb_sizes_of_ok h'
  obtain ⟨⟨o, h1, -, h3⟩, -⟩ := ecb_ok hk hn
  obtain ⟨⟨o', h1', -, h3'⟩, -⟩ := ecb_ok hk hn'
  rw [h] at h1
  rw [h'] at h1'
  cases h1
  cases h1'
  rw [h3 i (by omega), h3' j (by omega), encrypt_inj (length_blk hn (by omega)) (length_blk hn' (by omega))]

/-- C157 for CBC: two blocks of ciphertexts under a key are equal exactly if the blocks of the messages differ by what the blocks
before them in the ciphertexts (the IVs, for the first) differ by. Equal blocks thus show the difference of two blocks of messages. -/
theorem C157_cbc (key iv iv' m m' c c' : Bytes) (h : cbcEncrypt key iv m = .ok c) (h' : cbcEncrypt key iv' m' = .ok c') (i j : ℕ)
    (hi : 16 * i + 16 ≤ m.length) (hj : 16 * j + 16 ≤ m'.length) :
    blk c i = blk c' j ↔ xor (blk m i) (blk (iv ++ c) i) = xor (blk m' j) (blk (iv' ++ c') j) := by
  obtain ⟨e, l⟩ := cbc_block h hi
  obtain ⟨e', l'⟩ := cbc_block h' hj
  rw [e, e', encrypt_inj l l']

/-- The first blocks of a CBC ciphertext are the ciphertext of the first blocks. -/
theorem cbc_take {key iv m c : Bytes} (h : cbcEncrypt key iv m = .ok c) {k : ℕ} (hk : 16 * k ≤ m.length) :
    cbcEncrypt key iv (m.take (16 * k)) = .ok (c.take (16 * k)) := by
  obtain ⟨h1, h2, h3⟩ := cbc_sizes_of_ok h
  have hl : (m.take (16 * k)).length = 16 * k := by rw [List.length_take]; omega
  obtain ⟨x, y, e1, -, e3⟩ := C156_cbc_encrypt key iv (m.take (16 * k)) (m.drop (16 * k)) h1 h3 (by rw [hl]; omega)
    (by rw [List.length_drop]; omega)
  rw [List.take_append_drop, h] at e3
  cases e3
  obtain ⟨o, g1, g2, -⟩ := cbc_enc_ok h1 h3 hl
  rw [e1] at g1
  cases g1
  rw [e1, ← g2, List.take_left]

/-- C157 for two messages with the same IV: the ciphertexts agree in exactly as many blocks at the beginning as the messages. -/
theorem C157_cbc_same_iv (key iv m m' c c' : Bytes) (h : cbcEncrypt key iv m = .ok c) (h' : cbcEncrypt key iv m' = .ok c') (k : ℕ)
    (hk : 16 * k ≤ m.length) (hk' : 16 * k ≤ m'.length) :
    c.take (16 * k) = c'.take (16 * k) ↔ m.take (16 * k) = m'.take (16 * k) := by
  have e := cbc_take h hk
  have e' := cbc_take h' hk'
  obtain ⟨s1, -, s3⟩ := cbc_sizes_of_ok h
  constructor
  · intro hc
    have r := (C11_cbc_roundtrip key iv (m.take (16 * k)) s1 s3 (by rw [List.length_take]; omega)).1
    have r' := (C11_cbc_roundtrip key iv (m'.take (16 * k)) s1 s3 (by rw [List.length_take]; omega)).1
    rw [e, Res.ok_bind] at r
    rw [e', Res.ok_bind, ← hc, r] at r'
    exact Res.ok.inj r'
  · intro hm
    rw [hm, e'] at e
    exact (Res.ok.inj e).symm

/-- C157: with one key, one IV and messages that differ, the ciphertexts differ. -/
theorem C157_cbc_injective (key iv m m' c : Bytes) (h : cbcEncrypt key iv m = .ok c) (h' : cbcEncrypt key iv m' = .ok c) : m = m' := by
  obtain ⟨s1, s2, s3⟩ := cbc_sizes_of_ok h
  obtain ⟨-, s2', -⟩ := cbc_sizes_of_ok h'
  have r := (C11_cbc_roundtrip key iv m s1 s3 s2).1
  have r' := (C11_cbc_roundtrip key iv m' s1 s3 s2').1
  rw [h, Res.ok_bind] at r
  rw [h', Res.ok_bind, r] at r'
  exact Res.ok.inj r'

/-! ## Cases -/

/-- ECB shows that the first and the third block of a message are the same and the second is another one; CBC does not, but shows it of
the first blocks of two messages with one IV. -/
example : (ecbEncrypt (List.replicate 16 0) (List.replicate 16 1 ++ List.replicate 16 2 ++ List.replicate 16 1)).bind (fun c =>
      .ok (decide (blk c 0 = blk c 2), decide (blk c 0 = blk c 1))) = .ok (true, false) ∧
    (cbcEncrypt (List.replicate 16 0) (List.replicate 16 9) (List.replicate 16 1 ++ List.replicate 16 2 ++ List.replicate 16 1)).bind (fun c =>
      (cbcEncrypt (List.replicate 16 0) (List.replicate 16 9) (List.replicate 16 1 ++ List.replicate 16 3)).bind fun c' =>
      .ok (decide (blk c 0 = blk c 2), decide (c.take 16 = c'.take 16), decide (c.take 32 = c'.take 32))) = .ok (false, true, false) := by
  decide +kernel
end Verif.Props
