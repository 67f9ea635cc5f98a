import Verif.Props.Sm2Cipher
/-!
# The DER form of ciphertexts (C96) and their uniqueness (C97)
-/
namespace Verif.Props
open EC Verif.Sm2 Verif.Spec.DER
open Verif.Spec.SM2 (coords fe)

attribute [local irreducible] Spec.SM2.fe Spec.SM3.hash

/-- `SM2Cipher` of GM/T 0009-2012, 7.2: SEQUENCE of the coordinates as INTEGERs, the hash and the encrypted message as OCTET
STRINGs, in DER. -/
def IsSm2Cipher (der : Bytes) (x y : ℕ) (hash cipherText : Bytes) : Prop :=
  ∃ cx cy, IsInt x cx ∧ IsInt y cy ∧ der = elem 0x30 (elem 0x02 cx ++ elem 0x02 cy ++ elem 0x04 hash ++ elem 0x04 cipherText)

/-- The DER form with its fields, for both layouts. -/
theorem marshalCipher_form {x y : ℕ} (hx : x < 2 ^ 256) (hy : y < 2 ^ 256) (b : Byte) {t : Int} (ht : t = C1C2C3 ∨ t = C1C3C2)
    {c2 c3 : Bytes} (h3 : c3.length = 32) (h2 : c2.length < 2 ^ 31 - 128) :
    marshalCipher (b :: (fe x ++ fe y) ++ arrange t c2 c3) t = .ok (elem 0x30 (elem 0x02 (Der.makeBigInt x) ++
      elem 0x02 (Der.makeBigInt y) ++ elem 0x04 (if t = C1C2C3 then c2 else c3) ++ elem 0x04 (if t = C1C2C3 then c3 else c2))) := by
  have lx := Der.makeBigInt_length (inRange_fe hx)
  have ly := Der.makeBigInt_length (inRange_fe hy)
  have b1 := Der.elem_length_le (t := 0x02) (c := Der.makeBigInt (x : Int)) (by omega)
  have b2 := Der.elem_length_le (t := 0x02) (c := Der.makeBigInt (y : Int)) (by omega)
  have b3 := Der.elem_length_le (t := 0x04) (c := c2) (by omega)
  have b4 : (elem 0x04 c3).length = 34 := by
    rw [CB.length_elem, CB.length_lenOctets, h3]; rfl
  rw [marshalCipher_eq hx hy b ht h3, Der.marshalInt_eq (by omega), Der.marshalInt_eq (by omega), octets_eq (by omega), octets_eq (by omega)]
  unfold Der.marshalSequence
  split
  · rw [Der.makeElem_eq (by simp only [List.length_append]; omega), Der.id_seq]
    simp only [List.append_assoc]
  · rw [Der.makeElem_eq (by simp only [List.length_append]; omega), Der.id_seq]
    simp only [List.append_assoc]

/-- C96, the part that holds: `MarshalCipher` of the layout C1C3C2 is the standard's `SM2Cipher`. -/
theorem C96_standard_partial (x y : ℕ) (hx : x < 2 ^ 256) (hy : y < 2 ^ 256) (c c2 c3 : Bytes) (h3 : c3.length = 32)
    (h2 : c2.length < 2 ^ 31 - 128) (hc : Layout 2 c (4 :: (fe x ++ fe y)) c2 c3) :
    ∃ der, marshalCipher c 2 = .ok der ∧ IsSm2Cipher der x y c3 c2 := by
  obtain ⟨ht, rfl⟩ := layout_arrange.1 hc
  have h := marshalCipher_form hx hy 4 ht h3 h2
  rw [if_neg (by decide), if_neg (by decide)] at h
  exact ⟨_, h, _, _, Der.makeBigInt_isInt _, Der.makeBigInt_isInt _, rfl⟩

/-- C96 fails for the layout C1C2C3: hash and message stand in the wrong order, whatever the ciphertext. -/
theorem C96_order_violated (x y : ℕ) (hx : x < 2 ^ 256) (hy : y < 2 ^ 256) (c c2 c3 : Bytes) (h3 : c3.length = 32)
    (h2 : c2.length < 2 ^ 31 - 128) (hne : c2 ≠ c3) (hc : Layout 1 c (4 :: (fe x ++ fe y)) c2 c3) :
    ∃ der, marshalCipher c 1 = .ok der ∧ IsSm2Cipher der x y c2 c3 ∧ ∀ x' y', ¬ IsSm2Cipher der x' y' c3 c2 := by
  obtain ⟨ht, rfl⟩ := layout_arrange.1 hc
  have h := marshalCipher_form hx hy 4 ht h3 h2
  rw [if_pos (by decide), if_pos (by decide)] at h
  refine ⟨_, h, ⟨_, _, Der.makeBigInt_isInt _, Der.makeBigInt_isInt _, rfl⟩, ?_⟩
  rintro x' y' ⟨cx, cy, i1, i2, he⟩
  have lx := Der.makeBigInt_length (inRange_fe hx)
  have ly := Der.makeBigInt_length (inRange_fe hy)
  have b1 := Der.elem_length_le (t := 0x02) (c := Der.makeBigInt (x : Int)) (by omega)
  have b2 := Der.elem_length_le (t := 0x02) (c := Der.makeBigInt (y : Int)) (by omega)
  have b3 := Der.elem_length_le (t := 0x04) (c := c2) (by omega)
  have b4 : (elem 0x04 c3).length = 34 := by
    rw [CB.length_elem, CB.length_lenOctets, h3]; rfl
  have hl : (elem 0x02 (Der.makeBigInt x) ++ elem 0x02 (Der.makeBigInt y) ++ elem 0x04 c2 ++ elem 0x04 c3).length < 2 ^ 31 := by
    simp only [List.length_append]; omega
  have hl' : (elem 0x02 cx ++ elem 0x02 cy ++ elem 0x04 c3 ++ elem 0x04 c2).length < 2 ^ 31 := by
    have b5 := Der.elem_length_le (t := 0x30) (c := elem 0x02 (Der.makeBigInt x) ++ elem 0x02 (Der.makeBigInt y) ++ elem 0x04 c2 ++ elem 0x04 c3) (by omega)
    rw [he, CB.length_elem] at b5
    simp only [List.length_append] at b5 ⊢
    omega
  have f1 := unmarshalFields_eq (a := c2) (b := c3) (Der.makeBigInt_isInt (x : Int)) (Der.makeBigInt_isInt (y : Int)) [] [] (by rw [List.append_nil]; exact hl)
  have f2 := unmarshalFields_eq (a := c3) (b := c2) i1 i2 [] [] (by rw [List.append_nil]; exact hl')
  rw [List.append_nil, List.append_nil] at f1 f2
  rw [he, f2, Res.ok.injEq] at f1
  simp only [Prod.mk.injEq] at f1
  exact hne f1.2.2.1.symm

/-- C96 fails also in that the DER form is not independent of the layout: written from one layout and read for the other, the
example ciphertext (private key 2, message "a") is not decrypted. -/
theorem C96_convert_violated : ∃ (d : ℕ) (c der c' m : Bytes), decrypt ⟨d⟩ c 1 = .ok m ∧ marshalCipher c 1 = .ok der ∧
    unmarshalCipher der 2 = .ok c' ∧ decrypt ⟨d⟩ c' 2 = .err "invalid cipher text" := by
  have h : (do let der ← marshalCipher (exC1 ++ exC2 ++ exC3) 1; unmarshalCipher der 2) = .ok (exC1 ++ exC2 ++ exC3) := by
    decide +kernel
  obtain ⟨der, h1, h2⟩ := (Res.bind_eq_ok ..).1 h
  exact ⟨2, exC1 ++ exC2 ++ exC3, der, exC1 ++ exC2 ++ exC3, [0x61], by decide +kernel, h1, h2, by decide +kernel⟩

/-- The first byte, which names the form of the point, is not looked at by `MarshalCipher`: it is lost, and compressed or hybrid
points are written as if they were not. -/
theorem C96_point_form_violated (b b' : Byte) (rest : Bytes) (t : Int) : marshalCipher (b :: rest) t = marshalCipher (b' :: rest) t := by
  by_cases h : rest.length < 96
  · rw [(C63_marshal_violated (b :: rest) t).1 (by simp; omega), (C63_marshal_violated (b' :: rest) t).1 (by simp; omega)]
  · have e32 : (((cv.bitSize + 7) >>> 3 : Nat) : Int) = 32 := rfl
    have key : ∀ lo hi : Int, 1 ≤ lo → slice (b :: rest) lo hi = slice (b' :: rest) lo hi := by
      intro lo hi hlo
      unfold slice
      obtain ⟨k, hk⟩ : ∃ k : ℕ, lo.toNat = k + 1 := ⟨lo.toNat - 1, by omega⟩
      rw [hk]
      rfl
    unfold marshalCipher
    dsimp only
    rw [e32]
    have s32 : ((Sm3.size : ℕ) : Int) = 32 := rfl
    rw [s32]
    have hl : (b :: rest).length = (b' :: rest).length := rfl
    rw [hl, key _ _ (by omega), key _ _ (by omega), key _ _ (by omega), key _ _ (by simp; omega), key _ _ (by omega), key _ _ (by omega)]

/-! ## C97 -/

theorem zipWith_xor_self (m k : Bytes) (h : m.length ≤ k.length) :
    List.zipWith (· ^^^ ·) (List.zipWith (· ^^^ ·) m k) k = m := by
  induction m generalizing k with
  | nil => rfl
  | cons a m ih =>
    cases k with
    | nil => simp at h
    | cons b k =>
      simp only [List.zipWith_cons_cons, List.length_cons] at h ⊢
      rw [ih k (by omega), BitVec.xor_assoc, BitVec.xor_self, BitVec.xor_zero]

/-- C97: a message has one ciphertext for each first point: two ciphertexts that begin with the same point and are decrypted
to the same message are the same. Nobody can change the rest of a ciphertext without changing the message or being refused. -/
theorem C97_unique (d : ℕ) (c c' m : Bytes) (t : Int) (hc : c.length < 2 ^ 31) (hc' : c'.length < 2 ^ 31)
    (h : decrypt ⟨d⟩ c t = .ok m) (h' : decrypt ⟨d⟩ c' t = .ok m) (h1 : c.take 65 = c'.take 65) : c = c' := by
  obtain ⟨Q, x, y, c2, c3, q1, q2, _, q4, q5⟩ := (C45_exact d c m t hc).1 h
  obtain ⟨Q', x', y', c2', c3', q1', q2', _, q4', q5'⟩ := (C45_exact d c' m t hc').1 h'
  have hl : ∀ x y, (4 :: (fe x ++ fe y) : Bytes).length = 65 := fun x y => by simp [length_fe]
  obtain ⟨ht, rfl⟩ := layout_arrange.1 q2
  obtain ⟨_, rfl⟩ := layout_arrange.1 q2'
  rw [List.take_left' (hl _ _), List.take_left' (hl _ _)] at h1
  rw [h1]
  have hQ : Q = Q' := by
    have u := unmarshal_coords q1
    rw [h1, unmarshal_coords q1', Option.some.injEq, Prod.mk.injEq] at u
    have e1 : x' = x := Int.ofNat_inj.1 u.1
    have e2 : y' = y := Int.ofNat_inj.1 u.2
    rw [e1, e2] at q1'
    exact coords_inj q1 q1'
  subst hQ
  rw [List.length_append, length_arrange] at hc hc'
  rw [← stream_eq_kdf (by omega)] at q4 q4'
  have l2 : c2.length = m.length := by rw [q4, List.length_zipWith, length_stream, min_self]
  have l2' : c2'.length = m.length := by rw [q4', List.length_zipWith, length_stream, min_self]
  rw [l2] at q4
  rw [l2'] at q4'
  have z := zipWith_xor_self c2 _ (by rw [length_stream, l2] : c2.length ≤ (stream (sharedXY (d • Q)).1 (sharedXY (d • Q)).2 0 m.length).length)
  have z' := zipWith_xor_self c2' _ (by rw [length_stream, l2'] : c2'.length ≤ (stream (sharedXY (d • Q)).1 (sharedXY (d • Q)).2 0 m.length).length)
  rw [← q4] at z
  rw [← q4'] at z'
  rw [q5, q5', ← z, ← z']

/-- The example ciphertext with any other last byte is refused. -/
example : decrypt ⟨2⟩ (exC1 ++ exC2 ++ exC3) 1 = .ok [0x61] ∧
    decrypt ⟨2⟩ (exC1 ++ exC2 ++ exC3.take 31 ++ [0xa4]) 1 = .err "invalid cipher text" := by decide +kernel

/-- C96 on the example: its parts are in the order of the standard for one layout only. -/
example : (do let a ← marshalCipher (exC1 ++ exC3 ++ exC2) 2; Res.ok (a.drop (a.length - 37))) = .ok ([0x04, 0x20] ++ exC3 ++ [0x04, 0x01] ++ exC2) ∧
    (do let a ← marshalCipher (exC1 ++ exC2 ++ exC3) 1; Res.ok (a.drop (a.length - 37))) = .ok ([0x04, 0x01] ++ exC2 ++ [0x04, 0x20] ++ exC3) := by
  decide +kernel

end Verif.Props
