import Verif.Sm2.Lemmas
/-!
# SM2 keys: C32, C33, C34
-/
namespace Verif.Props
open EC Verif.Sm2
open Verif.Spec.SM2 (coords fe)

attribute [local irreducible] Spec.SM2.fe

theorem getUnCompressBytes_eq {x y : ℕ} (hx : x < 2 ^ 256) (hy : y < 2 ^ 256) :
    PublicKey.getUnCompressBytes ⟨x, y⟩ = .ok (4 :: (fe x ++ fe y)) := by
  unfold PublicKey.getUnCompressBytes
  simp only [bigIntTo32Bytes_nat hx, bigIntTo32Bytes_nat hy, Res.ok_bind, length_fe, keyBytes_eq, gt_iff_lt, lt_irrefl,
    if_false]
  rw [copyAt_tile' (off := 1) (src := fe x) [unCompress] (List.replicate 32 0#8) (List.replicate 32 0#8) (by
      rw [List.append_assoc, List.replicate_append_replicate]; rfl) rfl (by simp [length_fe])]
  rw [copyAt_tile' (off := 1 + 32) (src := fe y) ([unCompress] ++ fe x) (List.replicate 32 0#8) [] (by simp)
    (by simp [length_fe]) (by simp [length_fe])]
  simp [unCompress]

/-! ## C32 -/

/-- C32, private keys: the raw form has 32 bytes and gives back the key, for every scalar below 2^256. -/
theorem C32_private_round_trip (d : ℕ) (hd : d < 2 ^ 256) :
    ∃ bs, PrivateKey.getRawBytes ⟨d⟩ = .ok bs ∧ bs.length = 32 ∧ beNat bs = d ∧
      rawBytesToPrivateKey bs = .ok ⟨d⟩ := by
  refine ⟨fe d, ?_, length_fe d, beNat_fe hd, ?_⟩
  · unfold PrivateKey.getRawBytes
    simp only [bigIntTo32Bytes_nat hd, Res.ok_bind, length_fe, keyBytes_eq, gt_iff_lt, lt_irrefl, if_false]
  · unfold rawBytesToPrivateKey
    rw [if_neg (by rw [length_fe]; decide), beNat_fe hd]

/-- C32, public keys: 64 bytes, the uncompressed form is 0x04 and these 64 bytes, and they give back the key. -/
theorem C32_public_round_trip (x y : ℕ) (hx : x < 2 ^ 256) (hy : y < 2 ^ 256) :
    ∃ bs, PublicKey.getRawBytes ⟨x, y⟩ = .ok bs ∧ bs.length = 64 ∧
      PublicKey.getUnCompressBytes ⟨x, y⟩ = .ok (0x04 :: bs) ∧
      beNat (bs.take 32) = x ∧ beNat (bs.drop 32) = y ∧
      rawBytesToPublicKey bs = .ok ⟨x, y⟩ := by
  have e1 : (fe x ++ fe y).take 32 = fe x := List.take_left' (length_fe x)
  have e2 : (fe x ++ fe y).drop 32 = fe y := List.drop_left' (length_fe x)
  refine ⟨fe x ++ fe y, ?_, by simp [length_fe], getUnCompressBytes_eq hx hy, by rw [e1, beNat_fe hx],
    by rw [e2, beNat_fe hy], ?_⟩
  · unfold PublicKey.getRawBytes
    rw [getUnCompressBytes_eq hx hy]; rfl
  · unfold rawBytesToPublicKey
    rw [if_neg (by rw [List.length_append, length_fe, length_fe]; decide), keyBytes_eq, e1, e2, beNat_fe hx, beNat_fe hy]

/-- C32, the other direction: every 32 bytes are reproduced. -/
theorem C32_private_bytes (bs : Bytes) (h : bs.length = 32) :
    ∃ k, rawBytesToPrivateKey bs = .ok k ∧ k.getRawBytes = .ok bs := by
  have hlt : beNat bs < 2 ^ 256 := by
    have := beNat_lt bs
    rw [h] at this
    exact lt_of_lt_of_le this (by norm_num)
  refine ⟨⟨beNat bs⟩, ?_, ?_⟩
  · unfold rawBytesToPrivateKey; rw [if_neg (by rw [h]; decide)]
  · obtain ⟨bs', h1, h2, h3, _⟩ := C32_private_round_trip (beNat bs) hlt
    rw [h1, beNat_inj (by rw [h2, h]) h3]

/-- C32, the other direction: every 64 bytes are reproduced. -/
theorem C32_public_bytes (bs : Bytes) (h : bs.length = 64) :
    ∃ k, rawBytesToPublicKey bs = .ok k ∧ k.getRawBytes = .ok bs := by
  have hlt : ∀ c : Bytes, c.length = 32 → beNat c < 2 ^ 256 := by
    intro c hc
    have := beNat_lt c
    rw [hc] at this
    exact lt_of_lt_of_le this (by norm_num)
  have l1 : (bs.take 32).length = 32 := by simp; omega
  have l2 : (bs.drop 32).length = 32 := by simp; omega
  refine ⟨⟨beNat (bs.take 32), beNat (bs.drop 32)⟩, ?_, ?_⟩
  · unfold rawBytesToPublicKey; rw [if_neg (by rw [h]; decide), keyBytes_eq]
  · obtain ⟨bs', h1, h2, _, h3, h4, _⟩ := C32_public_round_trip _ _ (hlt _ l1) (hlt _ l2)
    rw [h1]
    congr 1
    rw [← List.take_append_drop 32 bs', ← List.take_append_drop 32 bs]
    rw [beNat_inj (by simp; omega) h3, beNat_inj (by simp; omega) h4]

/-- A scalar with leading zero bytes. -/
example : PrivateKey.getRawBytes ⟨0x0102⟩ = .ok (List.replicate 30 0 ++ [1, 2]) := by decide +kernel
example : (do let k ← rawBytesToPublicKey (List.replicate 63 0 ++ [7]); k.getUnCompressBytes) =
    .ok (4 :: (List.replicate 63 0 ++ [7])) := by decide +kernel

/-! ## C33 -/

/-- C33, the part that holds: an error exactly for the wrong lengths, never a panic. -/
theorem C33_length_partial (bs : Bytes) :
    ((∃ k, rawBytesToPublicKey bs = .ok k) ↔ bs.length = 64) ∧
    ((∃ m, rawBytesToPublicKey bs = .err m) ↔ bs.length ≠ 64) ∧
    ((∃ k, rawBytesToPrivateKey bs = .ok k) ↔ bs.length = 32) ∧
    ((∃ m, rawBytesToPrivateKey bs = .err m) ↔ bs.length ≠ 32) := by
  unfold rawBytesToPublicKey rawBytesToPrivateKey
  rw [keyBytes_eq]
  refine ⟨?_, ?_, ?_, ?_⟩ <;> by_cases h1 : bs.length = 64 <;> by_cases h2 : bs.length = 32 <;> simp [h1, h2]

example : rawBytesToPublicKey (List.replicate 65 4) = .err "Public key raw bytes length must be 64" := by decide +kernel

/-- C33 is violated: 64 zero bytes become a public key that is not on the curve. -/
theorem C33_public_violated : ∃ (bs : Bytes) (k : PublicKey), rawBytesToPublicKey bs = .ok k ∧
    ¬ ∃ Q : Pt, IsAff cv p (k.X, k.Y) Q := by
  refine ⟨List.replicate 64 0, ⟨0, 0⟩, by decide +kernel, ?_⟩
  rintro ⟨Q, h, _⟩
  rw [← onCurve_iff] at h
  revert h
  decide +kernel

/-- C33 is violated: the scalars 0, n-1 and n are accepted as private keys. -/
theorem C33_private_violated : ∃ b0 b1 b2 : Bytes, rawBytesToPrivateKey b0 = .ok ⟨0⟩ ∧
    rawBytesToPrivateKey b1 = .ok ⟨n - 1⟩ ∧ rawBytesToPrivateKey b2 = .ok ⟨n⟩ := by
  have h : ∀ v : ℕ, v < 2 ^ 256 → ∃ bs, rawBytesToPrivateKey bs = .ok ⟨v⟩ := by
    intro v hv
    obtain ⟨bs, _, _, _, h⟩ := C32_private_round_trip v hv
    exact ⟨bs, h⟩
  have hn := n_lt
  have hn' := n_gt
  obtain ⟨b0, h0⟩ := h 0 (by omega)
  obtain ⟨b1, h1⟩ := h (n - 1) (by omega)
  obtain ⟨b2, h2⟩ := h n hn
  refine ⟨b0, b1, b2, h0, ?_, h2⟩
  rw [h1, Nat.cast_sub (by omega)]
  rfl

/-! ## C34 -/

/-- C34: whatever the random source yields, a returned key pair is consistent and in range. -/
theorem C34_consistent (tape : Tape) (priv : PrivateKey) (pub : PublicKey) (h : generateKey tape = .ok (priv, pub)) :
    0 ≤ priv.D ∧ priv.D < n ∧ calculatePubKey priv = .ok pub := by
  unfold Sm2.generateKey at h
  rw [Res.bind_eq_ok] at h
  obtain ⟨⟨pb, q⟩, h1, h2⟩ := h
  simp only [Res.ok.injEq, Prod.mk.injEq] at h2
  obtain ⟨rfl, rfl⟩ := h2
  induction tape with
  | nil => cases h1
  | cons o tape ih =>
    cases o with
    | none => cases h1
    | some raw =>
      unfold EC.generateKey at h1
      simp only at h1
      split at h1
      · exact ih h1
      · rename_i hlt
        rw [baseMult_spec, Res.ok_bind] at h1
        simp only [Res.ok.injEq, Prod.mk.injEq] at h1
        obtain ⟨rfl, rfl⟩ := h1
        rw [cv_N] at hlt
        refine ⟨by positivity, ?_, ?_⟩
        · show ((beNat _ : ℕ) : Int) < n
          omega
        unfold calculatePubKey
        rw [baseMult_int]
        rfl

/-- C34, the public key is the scalar times the generator, in the group of the curve. -/
theorem C34_public_is_dG (tape : Tape) (priv : PrivateKey) (pub : PublicKey) (h : generateKey tape = .ok (priv, pub)) :
    enc (priv.D • G) = (pub.X, pub.Y) := by
  obtain ⟨h1, _, h3⟩ := C34_consistent tape priv pub h
  unfold calculatePubKey at h3
  rw [baseMult_int, Res.ok_bind, Res.ok.injEq] at h3
  rw [← h3, ← natCast_zsmul, Int.natAbs_of_nonneg h1]

/-- A key is returned as soon as one read yields a value below the order. -/
theorem C34_returns (raw : Bytes) (pre : List Bytes) (rest : Tape)
    (hraw : beNat (raw.modify 1 (· ^^^ 0x42)) < n)
    (hpre : ∀ r ∈ pre, n ≤ beNat (r.modify 1 (· ^^^ 0x42))) :
    ∃ pub, generateKey (pre.map some ++ some raw :: rest) = .ok (⟨beNat (raw.modify 1 (· ^^^ 0x42))⟩, pub) := by
  induction pre with
  | nil =>
    refine ⟨⟨(enc (beNat (raw.modify 1 (· ^^^ 0x42)) • G)).1, (enc (beNat (raw.modify 1 (· ^^^ 0x42)) • G)).2⟩, ?_⟩
    unfold Sm2.generateKey
    simp only [List.map_nil, List.nil_append]
    unfold EC.generateKey
    simp only
    rw [if_neg (by rw [cv_N]; omega), baseMult_spec]
    rfl
  | cons r pre ih =>
    obtain ⟨pub, h⟩ := ih (fun r' hr' => hpre r' (by simp [hr']))
    refine ⟨pub, ?_⟩
    have hr := hpre r (by simp)
    rw [← h]
    unfold Sm2.generateKey
    simp only [List.map_cons, List.cons_append]
    conv_lhs => unfold EC.generateKey
    simp only
    rw [if_pos (by rw [cv_N]; omega)]

/-- Read one value that is too large, then the scalar 2; the masked byte is at index 1. -/
example : ∃ pub, generateKey [some ([255, 0xbd] ++ List.replicate 30 255), some ([0, 0x42] ++ List.replicate 29 0 ++ [2])] =
    .ok (⟨2⟩, pub) := by
  have h1 : beNat (([0, 0x42] ++ List.replicate 29 0 ++ [2] : Bytes).modify 1 (· ^^^ 0x42)) = 2 := by decide +kernel
  have h2 : n ≤ beNat (([255, 0xbd] ++ List.replicate 30 255 : Bytes).modify 1 (· ^^^ 0x42)) := by rw [n_val]; decide +kernel
  have h3 := n_gt
  have := C34_returns ([0, 0x42] ++ List.replicate 29 0 ++ [2]) [([255, 0xbd] ++ List.replicate 30 255)] [] (by rw [h1]; omega)
    (by intro r hr; rw [List.mem_singleton.1 hr]; exact h2)
  rw [h1] at this
  exact this

end Verif.Props
