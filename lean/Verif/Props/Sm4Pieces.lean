import Verif.Props.Sm4
import Verif.Sm4.StreamLemmas
/-!
# C156: messages can be processed in pieces

`CBCEncrypt` and `CBCDecrypt` take whole messages. A message cut at block borders can be encrypted piece by piece, each piece with the
last ciphertext block before it as IV, and any piece of a ciphertext can be decrypted alone.
-/
namespace Verif.Props
open Verif Verif.Sm4 Verif.Spec.SM4

/-- The block that the next one is chained to: the last one of the ciphertext so far, or the IV. -/
def chained (iv c : Bytes) : Bytes := if c = [] then iv else c.drop (c.length - 16)

theorem length_chained {iv c : Bytes} {n : ℕ} (hv : iv.length = 16) (hc : c.length = 16 * n) : (chained iv c).length = 16 := by
  unfold chained
  split
  · exact hv
  · rename_i h
    have := List.length_pos_iff.2 h
    rw [List.length_drop]
    omega

theorem chained_blk {iv c : Bytes} {n : ℕ} (hc : c.length = 16 * n) : chained iv c = if n = 0 then iv else blk c (n - 1) := by
  unfold chained
  by_cases h : n = 0
  · subst h
    rw [if_pos (List.length_eq_zero_iff.1 hc), if_pos rfl]
  · rw [if_neg (by rintro rfl; simp at hc; omega), if_neg h, blk_eq_drop (by omega)]
    congr 1
    omega

theorem blk_append_right {a b : Bytes} {n : ℕ} (ha : a.length = 16 * n) (i : ℕ) : blk (a ++ b) (n + i) = blk b i := by
  unfold blk
  rw [List.drop_append, List.drop_of_length_le (by omega), List.nil_append]
  congr 2
  omega

/-- The block before block `i` of the second piece. -/
theorem before_piece {iv a b : Bytes} {n i : ℕ} (ha : a.length = 16 * n) :
    (if n + i = 0 then iv else blk (a ++ b) (n + i - 1)) = if i = 0 then chained iv a else blk b (i - 1) := by
  by_cases hi : i = 0
  · subst hi
    rw [if_pos rfl, chained_blk ha, Nat.add_zero]
    by_cases hn : n = 0
    · rw [if_pos hn, if_pos hn]
    · rw [if_neg hn, if_neg hn, blk_append (by omega)]
  · rw [if_neg (by omega), if_neg hi, Nat.add_sub_assoc (by omega), blk_append_right ha]

/-- C156 for ECB: the pieces are independent. -/
theorem C156_ecb (key a b : Bytes) (hk : key.length = 16) (ha : 16 ∣ a.length) (hb : 16 ∣ b.length) :
    (∃ x y, ecbEncrypt key a = .ok x ∧ ecbEncrypt key b = .ok y ∧ ecbEncrypt key (a ++ b) = .ok (x ++ y)) ∧
    (∃ x y, ecbDecrypt key a = .ok x ∧ ecbDecrypt key b = .ok y ∧ ecbDecrypt key (a ++ b) = .ok (x ++ y)) := by
  obtain ⟨n, hn⟩ := ha
  obtain ⟨m, hm⟩ := hb
  have hs : (a ++ b).length = 16 * (n + m) := by rw [List.length_append]; omega
  obtain ⟨⟨x, x1, x2, x3⟩, ⟨x', x1', x2', x3'⟩⟩ := ecb_ok hk hn
  obtain ⟨⟨y, y1, y2, y3⟩, ⟨y', y1', y2', y3'⟩⟩ := ecb_ok hk hm
  obtain ⟨⟨o, o1, o2, o3⟩, ⟨o', o1', o2', o3'⟩⟩ := ecb_ok hk hs
  refine ⟨⟨x, y, x1, y1, ?_⟩, ⟨x', y', x1', y1', ?_⟩⟩
  · rw [o1, blk_ext o2 (b := x ++ y) (by rw [List.length_append]; omega)]
    intro i hi
    rw [o3 i hi]
    by_cases h : i < n
    · rw [blk_append (by omega), blk_append (by omega), x3 i h]
    · obtain ⟨j, rfl⟩ := Nat.exists_eq_add_of_le (Nat.not_lt.1 h)
      rw [blk_append_right hn, blk_append_right x2, y3 j (by omega)]
  · rw [o1', blk_ext o2' (b := x' ++ y') (by rw [List.length_append]; omega)]
    intro i hi
    rw [o3' i hi]
    by_cases h : i < n
    · rw [blk_append (by omega), blk_append (by omega), x3' i h]
    · obtain ⟨j, rfl⟩ := Nat.exists_eq_add_of_le (Nat.not_lt.1 h)
      rw [blk_append_right hn, blk_append_right x2', y3' j (by omega)]

/-- C156 for encrypting in CBC: the second piece is encrypted with the last ciphertext block of the first as IV. -/
theorem C156_cbc_encrypt (key iv a b : Bytes) (hk : key.length = 16) (hv : iv.length = 16) (ha : 16 ∣ a.length) (hb : 16 ∣ b.length) :
    ∃ x y, cbcEncrypt key iv a = .ok x ∧ cbcEncrypt key (chained iv x) b = .ok y ∧ cbcEncrypt key iv (a ++ b) = .ok (x ++ y) := by
  obtain ⟨n, hn⟩ := ha
  obtain ⟨m, hm⟩ := hb
  have hs : (a ++ b).length = 16 * (n + m) := by rw [List.length_append]; omega
  obtain ⟨x, x1, x2, x3⟩ := cbc_enc_ok hk hv hn
  obtain ⟨y, y1, y2, y3⟩ := cbc_enc_ok hk (length_chained hv x2) hm
  obtain ⟨o, o1, o2, o3⟩ := cbc_enc_ok hk hv hs
  refine ⟨x, y, x1, y1, ?_⟩
  rw [o1, blk_ext o2 (b := x ++ y) (by rw [List.length_append]; omega)]
  intro i
  induction i with
  | zero =>
    intro hi
    rw [o3 0 hi, if_pos rfl]
    by_cases h : 0 < n
    · rw [blk_append (by omega), blk_append (by omega), x3 0 h, if_pos rfl]
    · obtain rfl : n = 0 := by omega
      have h1 := blk_append_right (b := b) hn 0
      have h2 := blk_append_right (b := y) x2 0
      rw [Nat.zero_add] at h1 h2
      rw [h1, h2, y3 0 (by omega), if_pos rfl, chained_blk x2, if_pos rfl]
  | succ i ih =>
    intro hi
    rw [o3 _ hi, if_neg (by omega), Nat.add_sub_cancel, ih (by omega)]
    by_cases h : i + 1 < n
    · rw [blk_append (by omega), blk_append (by omega), blk_append (by omega), x3 _ h, if_neg (by omega), Nat.add_sub_cancel]
    · obtain ⟨j, hj⟩ := Nat.exists_eq_add_of_le (Nat.not_lt.1 h)
      have hp := before_piece (iv := iv) (b := y) (i := j) x2
      rw [← hj, if_neg (by omega), Nat.add_sub_cancel] at hp
      rw [hp, hj, blk_append_right hn, blk_append_right x2, y3 j (by omega)]

/-- C156 for decrypting in CBC. -/
theorem C156_cbc_decrypt (key iv a b : Bytes) (hk : key.length = 16) (hv : iv.length = 16) (ha : 16 ∣ a.length) (hb : 16 ∣ b.length) :
    ∃ x y, cbcDecrypt key iv a = .ok x ∧ cbcDecrypt key (chained iv a) b = .ok y ∧ cbcDecrypt key iv (a ++ b) = .ok (x ++ y) := by
  obtain ⟨n, hn⟩ := ha
  obtain ⟨m, hm⟩ := hb
  have hs : (a ++ b).length = 16 * (n + m) := by rw [List.length_append]; omega
  obtain ⟨x, x1, x2, x3⟩ := cbc_dec_ok hk hv hn
  obtain ⟨y, y1, y2, y3⟩ := cbc_dec_ok hk (length_chained hv hn) hm
  obtain ⟨o, o1, o2, o3⟩ := cbc_dec_ok hk hv hs
  refine ⟨x, y, x1, y1, ?_⟩
  rw [o1, blk_ext o2 (b := x ++ y) (by rw [List.length_append]; omega)]
  intro i hi
  rw [o3 i hi]
  by_cases h : i < n
  · rw [blk_append (by omega), blk_append (s := y) (by omega), x3 i h]
    by_cases h0 : i = 0
    · rw [if_pos h0, if_pos h0]
    · rw [if_neg h0, if_neg h0, blk_append (by omega)]
  · obtain ⟨j, rfl⟩ := Nat.exists_eq_add_of_le (Nat.not_lt.1 h)
    rw [before_piece hn, blk_append_right hn, blk_append_right x2, y3 j (by omega)]

/-- C156, random access: a piece from the middle of a CBC ciphertext, decrypted with the block before it as IV, is that piece of the
message. -/
theorem C156_cbc_piece (key iv plain cipher before piece after : Bytes) (h : cbcEncrypt key iv plain = .ok cipher)
    (hc : cipher = before ++ piece ++ after) (hb : 16 ∣ before.length) (hp : 16 ∣ piece.length) :
    cbcDecrypt key (chained iv before) piece = .ok ((plain.drop before.length).take piece.length) := by
  obtain ⟨hk, hl, hv⟩ : key.length = 16 ∧ 16 ∣ plain.length ∧ iv.length = 16 := by
    by_contra hne
    obtain ⟨s1, s2, s3⟩ := C09_cbc_sizes key iv plain
    by_cases h1 : key.length = 16 ∧ 16 ∣ plain.length
    · have := (s2 ⟨h1.1, h1.2, fun hv => hne ⟨h1.1, h1.2, hv⟩⟩).1
      rw [this] at h; cases h
    · obtain ⟨m, hm⟩ := (s3 h1).1
      rw [hm] at h; cases h
  have hd := (C11_cbc_roundtrip key iv plain hk hv hl).1
  rw [h, Res.ok_bind] at hd
  obtain ⟨n, hn⟩ := hl
  have hcl : cipher.length = 16 * n := by
    obtain ⟨o, h1, h2, -⟩ := cbc_enc_ok hk hv hn
    rw [h] at h1
    cases h1
    exact h2
  have ha : 16 ∣ after.length := by
    rw [hc, List.length_append, List.length_append] at hcl
    omega
  have hpa : 16 ∣ (piece ++ after).length := by rw [List.length_append]; exact Nat.dvd_add hp ha
  obtain ⟨x, y, h1, h2, h3⟩ := C156_cbc_decrypt key iv before (piece ++ after) hk hv hb hpa
  obtain ⟨k, hk'⟩ := hb
  have hv' := length_chained hv hk'
  obtain ⟨u, v, g1, g2, g3⟩ := C156_cbc_decrypt key (chained iv before) piece after hk hv' hp ha
  rw [g3] at h2
  cases h2
  rw [hc, List.append_assoc, h3] at hd
  cases hd
  have lx : x.length = before.length := by
    obtain ⟨o, e1, e2, -⟩ := cbc_dec_ok hk hv hk'
    rw [h1] at e1
    cases e1
    omega
  have lu : u.length = piece.length := by
    obtain ⟨j, hj⟩ := hp
    obtain ⟨o, e1, e2, -⟩ := cbc_dec_ok hk hv' hj
    rw [g1] at e1
    cases e1
    omega
  rw [g1, ← lx, ← lu, List.drop_left, List.take_left]

/-! ## Cases -/

/-- A message of three blocks, cut after the first: the hypotheses, and what the second piece is chained to. -/
example : 16 ∣ (List.replicate 16 (1 : Byte)).length ∧ 16 ∣ (List.replicate 32 (2 : Byte)).length ∧
    chained (List.replicate 16 9) (List.replicate 16 1 ++ List.replicate 16 7) = List.replicate 16 7 ∧
    chained (List.replicate 16 9) [] = List.replicate 16 9 := by decide

/-- The middle block of a ciphertext of three blocks of zeros under the key of zeros, decrypted alone. -/
example : ∃ cipher, cbcEncrypt (List.replicate 16 0) (List.replicate 16 0) (List.replicate 16 0 ++ List.replicate 16 5 ++ List.replicate 16 0) = .ok cipher ∧
    cbcDecrypt (List.replicate 16 0) (blk cipher 0) (blk cipher 1) = .ok (List.replicate 16 5) := by
  refine ⟨_, rfl, ?_⟩
  decide +kernel
end Verif.Props
