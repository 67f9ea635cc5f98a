import Verif.Props.Sm2CipherForm
/-!
# Property C149: the DER forms of a ciphertext

Which byte strings `UnmarshalCipher` turns into one given ciphertext.
-/
namespace Verif.Props
open EC Verif.Sm2 Verif.Spec.DER
open Verif.Spec.SM2 (coords fe)

attribute [local irreducible] Spec.SM2.fe Spec.SM3.hash

theorem fe_inj {x y : ℕ} (hx : x < 2 ^ 256) (hy : y < 2 ^ 256) (h : fe x = fe y) : x = y := by
  rw [← beNat_fe hx, ← beNat_fe hy, h]

/-- C149: exactly the byte strings that are read as a given ciphertext. The signs of the coordinates, the place where the first
octet string ends, the rest of the SEQUENCE and what follows it are free. -/
theorem C149_forms_partial (inp body : Bytes) (x y : ℕ) (hx : x < 2 ^ 256) (hy : y < 2 ^ 256) (t : Int) :
    unmarshalCipher inp t = .ok (4 :: (fe x ++ fe y) ++ body) ↔ (t = 1 ∨ t = 2) ∧
      ∃ (x' y' : Int) (a b : Bytes), CipherFields inp x' y' a b ∧ x'.natAbs = x ∧ y'.natAbs = y ∧ a ++ b = body := by
  rw [C63_unmarshal_partial]
  refine and_congr_right fun _ => ⟨?_, ?_⟩
  · rintro ⟨x', y', a, b, h, hx', hy', e⟩
    simp only [List.cons_append, List.append_assoc, List.cons.injEq, true_and] at e
    obtain ⟨e1, e⟩ := List.append_inj e (by rw [length_fe, length_fe])
    obtain ⟨e2, e⟩ := List.append_inj e (by rw [length_fe, length_fe])
    exact ⟨x', y', a, b, h, (fe_inj hx hx' e1).symm, (fe_inj hy hy' e2).symm, e.symm⟩
  · rintro ⟨x', y', a, b, h, rfl, rfl, rfl⟩
    exact ⟨x', y', a, b, h, hx, hy, by simp⟩

/-- C149: the layout that is passed to `UnmarshalCipher` has no effect. -/
theorem C149_layout_free (inp : Bytes) : unmarshalCipher inp 1 = unmarshalCipher inp 2 := by
  unfold unmarshalCipher
  rw [if_pos (show (1 : Int) = C1C2C3 ∨ (1 : Int) = C1C3C2 from .inl rfl), if_pos (show (2 : Int) = C1C2C3 ∨ (2 : Int) = C1C3C2 from .inr rfl)]

/-- C149, the part that holds: of the forms with non-negative coordinates, 32 bytes in the place of the hash and nothing behind
the last field, only the one that `MarshalCipher` makes is read as the ciphertext. -/
theorem C149_canonical_partial (inp c a b cx cy : Bytes) (x y : ℕ) (t : Int) (hx : IsInt x cx) (hy : IsInt y cy)
    (hi : inp = elem 0x30 (elem 0x02 cx ++ elem 0x02 cy ++ elem 0x04 a ++ elem 0x04 b)) (hl : inp.length < 2 ^ 31 - 128)
    (ht : t = 1 ∧ b.length = 32 ∨ t = 2 ∧ a.length = 32) (h : unmarshalCipher inp t = .ok c) : marshalCipher c t = .ok inp := by
  rw [C63_unmarshal_partial] at h
  obtain ⟨_, x', y', a', b', hf, hx', hy', rfl⟩ := h
  obtain ⟨cx', cy', extra, tail, i1, i2, l, e⟩ := hf
  have r1 := unmarshalFields_eq i1 i2 extra tail l
  rw [← e, hi] at r1
  have hx2 : IsInt (x : Int) cx := hx
  have lin : (elem 0x02 cx ++ elem 0x02 cy ++ elem 0x04 a ++ elem 0x04 b).length < 2 ^ 31 - 128 := by
    rw [hi, CB.length_elem] at hl
    omega
  have lab : a.length + b.length < 2 ^ 31 - 128 := by
    simp only [List.length_append, CB.length_elem] at lin
    omega
  have r2 := unmarshalFields_eq (a := a) (b := b) hx2 hy [] [] (by rw [List.append_nil]; omega)
  rw [List.append_nil, List.append_nil, r1, Res.ok.injEq] at r2
  simp only [Prod.mk.injEq] at r2
  obtain ⟨rfl, rfl, rfl, rfl⟩ := r2
  rw [Int.natAbs_natCast] at hx' hy'
  simp only [Int.natAbs_natCast]
  have ex := isInt_unique (Der.makeBigInt_isInt (x : Int)) hx2
  have ey := isInt_unique (Der.makeBigInt_isInt (y : Int)) hy
  rcases ht with ⟨rfl, hb⟩ | ⟨rfl, ha⟩
  · have := marshalCipher_form hx' hy' 4 (t := C1C2C3) (.inl rfl) (c2 := a') (c3 := b') hb (by omega)
    rw [if_pos rfl, if_pos rfl, arrange, if_pos rfl, ex, ey, ← hi] at this
    rw [← this]
    simp [C1C2C3]
  · have := marshalCipher_form hx' hy' 4 (t := C1C3C2) (.inr rfl) (c2 := b') (c3 := a') ha (by omega)
    rw [if_neg (by decide), if_neg (by decide), arrange, if_neg (by decide), ex, ey, ← hi] at this
    rw [← this]
    simp [C1C3C2]

/-- A form of the ciphertext in which the first octet string has `i` bytes. -/
def formAt (x y : Int) (body : Bytes) (i : ℕ) : Bytes :=
  elem 0x30 (elem 0x02 (Der.makeBigInt x) ++ elem 0x02 (Der.makeBigInt y) ++ elem 0x04 (body.take i) ++ elem 0x04 (body.drop i))

theorem formAt_fields {x y : Int} {body : Bytes} (hx : x.natAbs < 2 ^ 256) (hy : y.natAbs < 2 ^ 256) (hb : body.length < 2 ^ 31 - 128) (i : ℕ) (tail : Bytes) :
    CipherFields (formAt x y body i ++ tail) x y (body.take i) (body.drop i) := by
  have r : ∀ {z : Int}, z.natAbs < 2 ^ 256 → InRange z 33 := by
    intro z hz
    unfold InRange
    constructor <;> norm_num <;> omega
  have lx := Der.makeBigInt_length (r hx)
  have ly := Der.makeBigInt_length (r hy)
  have b1 := Der.elem_length_le (t := 0x02) (c := Der.makeBigInt x) (by omega)
  have b2 := Der.elem_length_le (t := 0x02) (c := Der.makeBigInt y) (by omega)
  have b3 := Der.elem_length_le (t := 0x04) (c := body.take i) (by rw [List.length_take]; omega)
  have b4 := Der.elem_length_le (t := 0x04) (c := body.drop i) (by rw [List.length_drop]; omega)
  refine ⟨_, _, [], tail, Der.makeBigInt_isInt x, Der.makeBigInt_isInt y, ?_, by rw [List.append_nil]; rfl⟩
  simp only [List.length_append, List.length_nil, List.length_take, List.length_drop] at *
  omega

/-- **C149 is violated**: every ciphertext that `Encrypt` makes has `m.length + 33` different DER forms, one for each place where
the first octet string may end, each of them with any bytes behind it; all are turned into the ciphertext, and it decrypts. -/
theorem C149_violated (d : ℕ) (pub : PublicKey) (hpub : calculatePubKey ⟨d⟩ = .ok pub) (m c : Bytes) (t t' : Int) (tape : Tape)
    (hm : m.length < 2 ^ 31 - 200) (h : encrypt pub m t tape = .ok c) (ht' : t' = 1 ∨ t' = 2) :
    ∃ f : ℕ → Bytes, (∀ i ≤ m.length + 32, ∀ j ≤ m.length + 32, ∀ s s', f i ++ s = f j ++ s' → i = j ∧ s = s') ∧
      marshalCipher c t = .ok (f (if t = 1 then m.length else 32)) ∧
      ∀ i tail, unmarshalCipher (f i ++ tail) t' = .ok c ∧ decrypt ⟨d⟩ c t = .ok m := by
  obtain ⟨h1, h2⟩ := C42_round_trip d pub hpub m t tape c h
  obtain ⟨Q, x, y, c2, c3, g1, g2, _, _, g5⟩ := (C45_exact d c m t (by omega)).1 h1
  obtain ⟨_, hx, hy⟩ := coords_some g1
  have h3 : c3.length = 32 := by rw [g5, hash_length]
  obtain ⟨ht, rfl⟩ := layout_arrange.1 g2
  have hl : (arrange t c2 c3).length = c2.length + 32 := by rw [length_arrange, h3]
  have hc2 : c2.length = m.length := by
    rw [List.length_append, hl] at h2
    simp [length_fe] at h2
    omega
  have hx := lt_trans hx p_lt
  have hy := lt_trans hy p_lt
  have hf := fun i tail => formAt_fields (x := x) (y := y) (body := arrange t c2 c3) hx hy (by omega) i tail
  refine ⟨formAt x y (arrange t c2 c3), ?_, ?_, ?_⟩
  · intro i hi j hj s s' e
    have f1 := (unmarshalFields_iff _ _ _ _ _).2 (hf i s)
    have f2 := (unmarshalFields_iff _ _ _ _ _).2 (hf j s')
    rw [e, f2, Res.ok.injEq] at f1
    simp only [Prod.mk.injEq, true_and] at f1
    have := congrArg List.length f1.1
    rw [List.length_take, List.length_take] at this
    obtain rfl : i = j := by omega
    exact ⟨rfl, List.append_cancel_left e⟩
  · rw [marshalCipher_form hx hy 4 ht h3 (by omega)]
    unfold formAt
    rcases ht with rfl | rfl
    · rw [if_pos rfl, if_pos rfl, if_pos (show C1C2C3 = 1 from rfl), arrange, if_pos rfl, List.take_left' hc2, List.drop_left' hc2]
    · rw [if_neg (by decide), if_neg (by decide), if_neg (show ¬ C1C3C2 = 1 by decide), arrange, if_neg (by decide), List.take_left' h3, List.drop_left' h3]
  · intro i tail
    refine ⟨(C149_forms_partial _ _ x y hx hy t').2 ⟨ht', x, y, _, _, hf i tail, rfl, rfl, List.take_append_drop _ _⟩, h1⟩

/-- C149 is violated also by the signs: with a coordinate negated it is another DER form, of another number, for the same ciphertext. -/
theorem C149_sign_violated (x y : ℕ) (hx0 : 0 < x) (hx : x < 2 ^ 256) (hy : y < 2 ^ 256) (body : Bytes) (hb : body.length < 2 ^ 31 - 128) (i : ℕ)
    (t : Int) (ht : t = 1 ∨ t = 2) :
    unmarshalCipher (formAt (-(x : Int)) y body i) t = .ok (4 :: (fe x ++ fe y) ++ body) ∧
    unmarshalCipher (formAt (-(x : Int)) y body i) t = unmarshalCipher (formAt x y body i) t ∧ formAt (-(x : Int)) y body i ≠ formAt x y body i := by
  have hx' : (-(x : Int)).natAbs < 2 ^ 256 := by rw [Int.natAbs_neg]; exact hx
  have f1 := formAt_fields (x := -(x : Int)) (y := y) hx' hy hb i []
  have f2 := formAt_fields (x := x) (y := y) hx hy hb i []
  rw [List.append_nil] at f1 f2
  have a1 := (C149_forms_partial _ body x y hx hy t).2 ⟨ht, _, _, _, _, f1, by rw [Int.natAbs_neg]; rfl, rfl, List.take_append_drop _ _⟩
  have a2 := (C149_forms_partial _ body x y hx hy t).2 ⟨ht, _, _, _, _, f2, rfl, rfl, List.take_append_drop _ _⟩
  refine ⟨a1, a1.trans a2.symm, fun e => ?_⟩
  have g1 := (unmarshalFields_iff _ _ _ _ _).2 f1
  have g2 := (unmarshalFields_iff _ _ _ _ _).2 f2
  rw [e, g2, Res.ok.injEq] at g1
  simp only [Prod.mk.injEq] at g1
  omega

/-- The example ciphertext (private key 2, message "a") from three other DER forms: the octet strings divided elsewhere, a
coordinate negated, a NULL inside and a byte behind. -/
example : unmarshalCipher (formAt (beNat ((exC1.drop 1).take 32)) (beNat (exC1.drop 33)) (exC2 ++ exC3) 20) 1 = .ok (exC1 ++ exC2 ++ exC3) ∧
    unmarshalCipher (formAt (-(beNat ((exC1.drop 1).take 32) : Int)) (beNat (exC1.drop 33)) (exC2 ++ exC3) 1) 1 = .ok (exC1 ++ exC2 ++ exC3) ∧
    unmarshalCipher (elem 0x30 (elem 0x02 (Der.makeBigInt (beNat ((exC1.drop 1).take 32))) ++ elem 0x02 (Der.makeBigInt (beNat (exC1.drop 33))) ++
      elem 0x04 exC2 ++ elem 0x04 exC3 ++ [5, 0]) ++ [7]) 1 = .ok (exC1 ++ exC2 ++ exC3) ∧
    (do let der ← marshalCipher (exC1 ++ exC2 ++ exC3) 1; unmarshalCipher der 1) = .ok (exC1 ++ exC2 ++ exC3) := by
  decide +kernel

end Verif.Props
