import Verif.Sm2.SignLemmas
/-!
# Lemmas about encryption and decryption
-/
namespace Verif.Sm2
open EC
open Verif.Spec.SM2 (coords fe)

attribute [local irreducible] Spec.SM2.fe Spec.SM3.hash streamBlock

/-- Where a ciphertext layout puts `C2` and `C3`. -/
def arrange (t : Int) (c2 c3 : Bytes) : Bytes := if t = C1C2C3 then c2 ++ c3 else c3 ++ c2

theorem length_arrange (t : Int) (c2 c3 : Bytes) : (arrange t c2 c3).length = c2.length + c3.length := by
  unfold arrange; split <;> simp; omega

/-- The x and y coordinates of a multiple, as natural numbers, (0, 0) for the point at infinity. -/
theorem enc_nat (Q : Pt) : ∃ x y : ℕ, enc Q = ((x : Int), (y : Int)) ∧ x < 2 ^ 256 ∧ y < 2 ^ 256 := by
  by_cases h : Q = 0
  · subst h; exact ⟨0, 0, rfl, by norm_num, by norm_num⟩
  · obtain ⟨x, y, h1, h2, h3⟩ := coords_ne h
    exact ⟨x, y, enc_coords h1, lt_trans h2 p_lt, lt_trans h3 p_lt⟩

/-! ## Encryption -/

/-- What `Encrypt` returns, for a public key whose multiples the curve code computes as `kp`. -/
theorem encrypt_ok {X Y : Int} {kp : ℕ → ℕ × ℕ} (hkp : ∀ k, (kp k).1 < 2 ^ 256 ∧ (kp k).2 < 2 ^ 256)
    (hpub : ∀ k : ℕ, scalarMult cv (X, Y) (intBytes k) = .ok (((kp k).1 : Int), ((kp k).2 : Int)))
    {M : Bytes} {t : Int} {tape : Tape} {c : Bytes} (h : encrypt ⟨X, Y⟩ M t tape = .ok c) :
    ∃ (k x1 y1 : ℕ), Delivers tape k ∧ 1 ≤ k ∧ k < n ∧ coords (k • G) = some (x1, y1) ∧ (t = C1C2C3 ∨ t = C1C3C2) ∧
      (M ≠ [] ∧ M.length < 2 ^ 31 + 8) ∧
      hashOf [fe (kp k).1, M, fe (kp k).2] = .ok (Spec.SM3.hash (fe (kp k).1 ++ M ++ fe (kp k).2)) ∧
      List.zipWith (· ^^^ ·) M (stream (kp k).1 (kp k).2 0 M.length) ≠ M ∧
      c = 4 :: (fe x1 ++ fe y1) ++ arrange t (List.zipWith (· ^^^ ·) M (stream (kp k).1 (kp k).2 0 M.length))
        (Spec.SM3.hash (fe (kp k).1 ++ M ++ fe (kp k).2)) := by
  unfold encrypt at h
  rw [Res.bind_eq_ok] at h
  obtain ⟨⟨c1, c2, kPB⟩, h1, h2⟩ := h
  obtain ⟨⟨t', m'⟩, ⟨hI1, hI2⟩, hb⟩ := forLoop_inv (fun s => s.1 <:+ tape ∧ s.2 = M) (fun s s' hs h => by
    obtain ⟨hs1, hs2⟩ := hs
    rw [Res.bind_eq_ok] at h
    obtain ⟨r, g1, g2⟩ := h
    obtain ⟨_, _, _, hsuf⟩ := nextK_mem g1
    dsimp only at g2
    rw [baseMult_int, Res.ok_bind, Res.bind_eq_ok] at g2
    obtain ⟨_, _, g2⟩ := g2
    rw [Res.bind_eq_ok] at g2
    obtain ⟨_, _, g2⟩ := g2
    rw [Res.bind_eq_ok] at g2
    obtain ⟨c2, _, g2⟩ := g2
    split at g2
    · simp at g2
    · rename_i hne
      simp only [Res.ok.injEq, Sum.inl.injEq] at g2
      subst g2
      refine ⟨hsuf.trans hs1, ?_⟩
      simpa [notEncrypted] using hne) _ _ _ ⟨List.suffix_refl tape, rfl⟩ h1
  dsimp only at hI1 hI2
  subst hI2
  rw [Res.bind_eq_ok] at hb
  obtain ⟨r, g1, g2⟩ := hb
  obtain ⟨raw, g3, g4, _⟩ := nextK_mem g1
  obtain ⟨k, hk, hk1, hk2⟩ := nextK_nat g1
  dsimp only at g2 g3
  rw [hk, baseMult_int, Res.ok_bind, Int.natAbs_natCast] at g2
  obtain ⟨x1, y1, hc, _, _⟩ := coords_ne (fun h0 => not_dvd_of_lt hk1 hk2 ((smul_eq_zero G_ne_zero).1 h0))
  rw [marshal_coords hc, Res.ok_bind, hpub, Res.ok_bind, kdf_eq (hkp k).1 (hkp k).2, Res.ok_bind] at g2
  split at g2
  · rename_i hne
    simp only [Res.ok.injEq, Sum.inr.injEq, Prod.mk.injEq] at g2
    obtain ⟨rfl, rfl, rfl⟩ := g2
    dsimp only at h2
    rw [bigIntTo32Bytes_nat (hkp k).1, Res.ok_bind, bigIntTo32Bytes_nat (hkp k).2, Res.ok_bind, Res.bind_eq_ok] at h2
    obtain ⟨c3, h3, h4⟩ := h2
    obtain ⟨h5, h6⟩ := hashOf_ok h3
    have hM := h6 m' (by simp)
    have hf : [fe (kp k).1, m', fe (kp k).2].flatten = fe (kp k).1 ++ m' ++ fe (kp k).2 := by simp
    rw [hf] at h5
    subst h5
    refine ⟨k, x1, y1, ⟨raw, hI1.subset g3, by omega⟩, hk1, hk2, hc, ?_, hM, h3, ?_, ?_⟩
    · by_contra hc
      rw [not_or] at hc
      rw [if_neg hc.1, if_neg hc.2] at h4
      cases h4
    · simpa [notEncrypted] using hne
    · split at h4
      · rename_i ht
        rw [Res.ok.injEq] at h4
        rw [← h4, copy3, arrange, if_pos ht, List.append_assoc]
      · rename_i ht
        split at h4
        · rw [Res.ok.injEq] at h4
          have : ∀ a b c : ℕ, a + b + c = a + c + b := by omega
          rw [← h4, this, copy3, arrange, if_neg ht, List.append_assoc]
        · cases h4
  · simp at g2

/-! ## Decryption -/

theorem slice_eq (a b c : Bytes) (lo hi : Int) (h1 : lo = a.length) (h2 : hi = a.length + b.length) :
    slice (a ++ b ++ c) lo hi = .ok b := by
  unfold slice
  rw [if_pos]
  · subst h1 h2
    congr 1
    have e1 : (a.length : Int).toNat = a.length := by simp
    have e2 : ((a.length : Int) + b.length - a.length).toNat = b.length := by omega
    rw [e1, e2, List.append_assoc, List.drop_left, List.take_left]
  · simp only [List.length_append]; push_cast; omega

theorem slice_short {s : Bytes} {lo hi : Int} (h : (s.length : Int) < hi) : slice s lo hi = .panic := by
  unfold slice; rw [if_neg (by omega)]

theorem unmarshal_coords {Q : Pt} {x y : ℕ} (h : coords Q = some (x, y)) :
    unmarshal cv (4 :: (fe x ++ fe y)) = some ((x : Int), (y : Int)) :=
  (unmarshal_iff _ _).2 ⟨Q, x, y, h, rfl, rfl⟩

/-- Too short for `C1`. -/
theorem decrypt_short {priv : PrivateKey} {inp : Bytes} {t : Int} (h : inp.length < 65) : decrypt priv inp t = .panic := by
  unfold decrypt
  dsimp only
  rw [slice_short]
  · rfl
  · have : ((((cv.bitSize + 7) >>> 3) * 2 + 1 : Nat) : Int) = 65 := rfl
    rw [this]; omega

theorem take_slice {inp : Bytes} (h : 65 ≤ inp.length) :
    slice inp 0 ((((cv.bitSize + 7) >>> 3) * 2 + 1 : Nat) : Int) = .ok (inp.take 65) := by
  have e : ((((cv.bitSize + 7) >>> 3) * 2 + 1 : Nat) : Int) = 65 := rfl
  rw [e]
  unfold slice
  rw [if_pos (by omega)]
  rfl

/-- `C1` is not an uncompressed point of the curve. -/
theorem decrypt_bad_point {priv : PrivateKey} {inp : Bytes} {t : Int} (h : unmarshal cv (inp.take 65) = none) :
    decrypt priv inp t = .panic := by
  by_cases hl : inp.length < 65
  · exact decrypt_short hl
  · unfold decrypt
    dsimp only
    rw [take_slice (by omega), Res.ok_bind, h]

/-- The point is fine: the rest works with the shared point. -/
theorem decrypt_point {d : Int} {Q : Pt} {x y : ℕ} (hQ : coords Q = some (x, y)) (t : Int) (rest : Bytes) :
    decrypt ⟨d⟩ (4 :: (fe x ++ fe y) ++ rest) t = decryptRest (enc (d.natAbs • Q)) 65 (4 :: (fe x ++ fe y) ++ rest) t := by
  have hl : (4 :: (fe x ++ fe y) : Bytes).length = 65 := by simp [length_fe]
  have hlen : (4 :: (fe x ++ fe y) ++ rest).length = 65 + rest.length := by rw [List.length_append, hl]
  have e65 : ((((cv.bitSize + 7) >>> 3) * 2 + 1 : Nat) : Int) = 65 := rfl
  have hinf : ¬ isEcPointInfinity (enc ((sm2H).natAbs • Q)) = true := by
    rw [isInf_enc, show sm2H.natAbs = 1 from rfl, one_smul]; exact (coords_some hQ).1
  unfold decrypt
  dsimp only
  rw [take_slice (by omega), Res.ok_bind, List.take_left' hl, unmarshal_coords hQ]
  dsimp only
  rw [mult_int (coords_isAff hQ), Res.ok_bind, if_neg hinf, mult_int (coords_isAff hQ), Res.ok_bind, e65]

theorem makeBytes_nat (m : ℕ) : makeBytes (m : Int) = .ok (List.replicate m 0) := by
  unfold makeBytes; rw [if_neg (by omega)]; simp

/-- Too short for `C3`. -/
theorem splitCipher_short {inp : Bytes} {t : Int} (h : inp.length < 97) : splitCipher 65 inp t = .panic := by
  have s32 : ((Sm3.size : ℕ) : Int) = 32 := rfl
  unfold splitCipher makeBytes
  dsimp only
  rw [if_pos (by rw [s32]; omega)]
  rfl

/-- An unknown layout. -/
theorem splitCipher_unknown {inp : Bytes} {t : Int} (h : 97 ≤ inp.length) (h1 : t ≠ C1C2C3) (h2 : t ≠ C1C3C2) :
    splitCipher 65 inp t = .err "unknown cipherTextType" := by
  have s32 : ((Sm3.size : ℕ) : Int) = 32 := rfl
  unfold splitCipher makeBytes
  dsimp only
  rw [if_neg (by rw [s32]; omega), Res.ok_bind, if_neg (by rw [s32]; omega), Res.ok_bind, if_neg h1, if_neg h2]

theorem splitCipher_eq {c1 c2 c3 : Bytes} {t : Int} (h1 : c1.length = 65) (h3 : c3.length = 32) (ht : t = C1C2C3 ∨ t = C1C3C2) :
    splitCipher 65 (c1 ++ arrange t c2 c3) t = .ok (c2, c3) := by
  have s32 : ((Sm3.size : ℕ) : Int) = 32 := rfl
  have hlen : (c1 ++ arrange t c2 c3).length = 65 + c2.length + 32 := by
    rw [List.length_append, length_arrange, h1, h3]; omega
  have e2 : ((c1 ++ arrange t c2 c3).length : Int) - 65 - 32 = c2.length := by rw [hlen]; push_cast; omega
  have m2 : makeBytes 32 = .ok (List.replicate 32 0) := rfl
  unfold splitCipher
  dsimp only
  rw [s32, e2, makeBytes_nat, Res.ok_bind, m2, Res.ok_bind]
  by_cases h : t = C1C2C3
  · have s1 : slice (c1 ++ arrange t c2 c3) 65 (65 + (c2.length : Int)) = .ok c2 := by
      rw [arrange, if_pos h, ← List.append_assoc]
      exact slice_eq _ _ _ _ _ (by rw [h1]; rfl) (by rw [h1]; rfl)
    have s2 : slice (c1 ++ arrange t c2 c3) (65 + (c2.length : Int)) (c1 ++ arrange t c2 c3).length = .ok c3 := by
      rw [hlen, arrange, if_pos h, ← List.append_assoc, ← List.append_nil (c1 ++ c2 ++ c3)]
      exact slice_eq _ _ _ _ _ (by rw [List.length_append, h1]; push_cast; omega)
        (by rw [List.length_append, h1, h3]; push_cast; omega)
    rw [if_pos h, s1, Res.ok_bind, s2, Res.ok_bind, copyAt_full (by simp), copyAt_full (by simp [h3])]
  · have s1 : slice (c1 ++ arrange t c2 c3) 65 (65 + 32) = .ok c3 := by
      rw [arrange, if_neg h, ← List.append_assoc]
      exact slice_eq _ _ _ _ _ (by rw [h1]; rfl) (by rw [h1, h3]; rfl)
    have s2 : slice (c1 ++ arrange t c2 c3) (65 + 32) (c1 ++ arrange t c2 c3).length = .ok c2 := by
      rw [hlen, arrange, if_neg h, ← List.append_assoc, ← List.append_nil (c1 ++ c3 ++ c2)]
      exact slice_eq _ _ _ _ _ (by rw [List.length_append, h1, h3]; rfl)
        (by rw [List.length_append, h1, h3]; push_cast; omega)
    rw [if_neg h, if_pos (ht.resolve_left h), s1, Res.ok_bind, s2, Res.ok_bind, copyAt_full (by simp),
      copyAt_full (by simp [h3])]

/-- Every input of at least 97 bytes has the three parts. -/
theorem exists_parts {inp : Bytes} (t : Int) (h : 97 ≤ inp.length) :
    ∃ c2 c3, inp = inp.take 65 ++ arrange t c2 c3 ∧ c3.length = 32 ∧ c2.length = inp.length - 97 := by
  unfold arrange
  split
  · refine ⟨(inp.drop 65).take (inp.length - 97), (inp.drop 65).drop (inp.length - 97), ?_, ?_, ?_⟩
    · rw [List.take_append_drop, List.take_append_drop]
    · simp only [List.length_drop]; omega
    · simp only [List.length_take, List.length_drop]; omega
  · refine ⟨(inp.drop 65).drop 32, (inp.drop 65).take 32, ?_, ?_, ?_⟩
    · rw [List.take_append_drop, List.take_append_drop]
    · simp only [List.length_take, List.length_drop]; omega
    · simp only [List.length_drop]; omega

/-- The end of `Decrypt` on a ciphertext with its parts. -/
theorem decryptRest_eq {x2 y2 : ℕ} (hx : x2 < 2 ^ 256) (hy : y2 < 2 ^ 256) {c1 c2 c3 : Bytes} {t : Int} (h1 : c1.length = 65)
    (h3 : c3.length = 32) (ht : t = C1C2C3 ∨ t = C1C3C2) :
    decryptRest ((x2 : Int), (y2 : Int)) 65 (c1 ++ arrange t c2 c3) t = (do
      let h ← hashOf [fe x2, List.zipWith (· ^^^ ·) c2 (stream x2 y2 0 c2.length), fe y2]
      if h = c3 then .ok (List.zipWith (· ^^^ ·) c2 (stream x2 y2 0 c2.length)) else .err "invalid cipher text") := by
  unfold decryptRest
  rw [splitCipher_eq h1 h3 ht, Res.ok_bind]
  dsimp only
  rw [kdf_eq hx hy, Res.ok_bind, bigIntTo32Bytes_nat hx, Res.ok_bind, bigIntTo32Bytes_nat hy, Res.ok_bind]

end Verif.Sm2
