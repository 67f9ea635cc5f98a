import Verif.CB.IntSpec
import Verif.CB.EvalLemmas
import Mathlib.Tactic.NormNum
/-! INTEGER readers and writers of asn1.go against X.690 8.3. -/
namespace Verif.CB
open Spec.DER Spec.Builder

theorem and80_ne (b : Byte) : (b &&& 0x80 ≠ 0) ↔ 128 ≤ b.toNat := by
  rw [Ne, and_80]; omega

theorem checkASN1Integer_eq (c : Bytes) : checkASN1Integer (some c) = .ok (decide (IntMinimal c)) := by
  match c with
  | [] => rfl
  | [_] => rfl
  | b0 :: b1 :: bs =>
    unfold checkASN1Integer
    rw [if_neg (by simp), if_neg (by simp), at_some (by simp), at_some (by simp)]
    simp only [Res.ok_bind, List.getElem_cons_zero, List.getElem_cons_succ]
    congr 1
    have e1 : b1 &&& 128#8 = 0#8 ↔ b1.toNat < 128 := and_80 b1
    have e2 : b1 &&& 128#8 = 128#8 ↔ 128 ≤ b1.toNat := and_80' b1
    by_cases h1 : b1.toNat < 128
    · have h2 : ¬ 128 ≤ b1.toNat := by omega
      by_cases h0 : b0 = 0
      · subst h0; simp [IntMinimal, e1, h1]
      · by_cases hf : b0 = 0xff
        · subst hf; simp [IntMinimal, e2, h2]
        · have h0' : ¬ b0 = 0#8 := h0
          have hf' : ¬ b0 = 255#8 := hf
          simp [IntMinimal, h0', hf']
    · have h2 : 128 ≤ b1.toNat := by omega
      by_cases h0 : b0 = 0
      · subst h0; simp [IntMinimal, e1, h1]
      · by_cases hf : b0 = 0xff
        · subst hf; simp [IntMinimal, e2, h2]
        · have h0' : ¬ b0 = 0#8 := h0
          have hf' : ¬ b0 = 255#8 := hf
          simp [IntMinimal, h0', hf']

/-- The three ways `readIntegerContent` can end. -/
theorem readIntegerContent_cases (tag : Tag) (s : Str) :
    (readIntegerContent tag s = .ok (none, s)) ∨
    (∃ t c rest, LowTag t ∧ (elem t c).length < 2 ^ 32 ∧ s = some (elem t c ++ rest) ∧ (t ≠ tag ∨ ¬ IntMinimal c) ∧
      readIntegerContent tag s = .ok (none, some rest)) ∨
    (∃ c rest, LowTag tag ∧ (elem tag c).length < 2 ^ 32 ∧ s = some (elem tag c ++ rest) ∧ IntMinimal c ∧
      readIntegerContent tag s = .ok (some (some c), some rest)) := by
  unfold readIntegerContent
  rcases readASN1Tag_cases tag s with h | ⟨t, c, rest, h1, h2, h3, h4, h5⟩ | ⟨c, rest, h1, h2, h3, h4⟩
  · left; rw [h]; rfl
  · right; left
    exact ⟨t, c, rest, h2, h3, h4, .inl h1, by rw [h5]; rfl⟩
  · right
    rw [h4]
    simp only [Res.ok_bind, checkASN1Integer_eq]
    by_cases hm : IntMinimal c
    · right
      exact ⟨c, rest, h1, h2, h3, hm, by simp [hm]⟩
    · left
      exact ⟨tag, c, rest, h1, h2, h3, .inr hm, by simp [hm]⟩

theorem readIntegerContent_ok {tag : Tag} {c rest : Bytes} (ht : LowTag tag) (hl : (elem tag c).length < 2 ^ 32) (hm : IntMinimal c) :
    readIntegerContent tag (some (elem tag c ++ rest)) = .ok (some (some c), some rest) := by
  unfold readIntegerContent
  rw [readASN1Tag_elem rest ht hl]
  simp only [Res.ok_bind, checkASN1Integer_eq]
  simp [hm]

/-- A reader built on `readIntegerContent`: its successes are exactly those of the content decoder. -/
theorem integerReader_iff {α : Type} {tag : Tag} {dec : Bytes → Option α} {rd : Reader α}
    (hrd : ∀ s, rd s = (readIntegerContent tag s >>= fun p => match p.1 with
      | none => .ok (none, p.2)
      | some bytes => .ok (dec bytes.bytes, p.2)))
    (ht : LowTag tag) (s : Bytes) (v : α) (rest : Bytes) :
    rd (some s) = .ok (some v, some rest) ↔
      ∃ c, IntMinimal c ∧ dec c = some v ∧ (elem tag c).length < 2 ^ 32 ∧ s = elem tag c ++ rest := by
  rw [hrd]
  constructor
  · intro h
    rcases readIntegerContent_cases tag (some s) with h1 | ⟨t, c, rest', h1, h2, h3, h4, h5⟩ | ⟨c, rest', h1, h2, h3, h4, h5⟩
    · rw [h1] at h; simp at h
    · rw [h5] at h; simp at h
    · rw [h5] at h
      simp at h h3
      refine ⟨c, h4, h.1, h2, ?_⟩
      rw [h3, h.2]
  · rintro ⟨c, h1, h2, h3, rfl⟩
    rw [readIntegerContent_ok ht h3 h1]
    simp [h2]

theorem beNat_not (c : Bytes) : beNat (c.map fun b => ~~~b) + beNat c + 1 = 256 ^ c.length := by
  induction c with
  | nil => rfl
  | cons b bs ih =>
    rw [List.map_cons, beNat_cons, beNat_cons, List.length_map, List.length_cons, Nat.pow_succ]
    have : (~~~b).toNat = 255 - b.toNat := by rw [BitVec.toNat_not]
    rw [this]
    have hb := b.isLt
    have e : (255 - b.toNat) * 256 ^ bs.length + b.toNat * 256 ^ bs.length = 255 * 256 ^ bs.length := by
      rw [← Nat.add_mul]; congr 1; omega
    omega

theorem bigIntOfContent_eq {c : Bytes} (hm : IntMinimal c) : bigIntOfContent (some c) = .ok (intValue c) := by
  cases c with
  | nil => exact absurd hm id
  | cons b bs =>
    unfold bigIntOfContent
    rw [at_some (by simp)]
    simp only [Res.ok_bind, List.getElem_cons_zero, bytes_some]
    by_cases hb : 128 ≤ b.toNat
    · rw [if_pos ((and_80' b).2 hb)]
      unfold intValue
      simp only
      rw [if_neg (by omega)]
      have := beNat_not (b :: bs)
      congr 1
      have h2 : ((256 ^ (b :: bs).length : Nat) : Int) = (256 : Int) ^ (b :: bs).length := by push_cast; rfl
      rw [← h2]
      omega
    · rw [if_neg (by rw [and_80']; exact hb)]
      unfold intValue
      simp only
      rw [if_pos (by omega)]

theorem toInt_of_lt {w : Nat} (hw : 0 < w) {x : BitVec w} (h : x.toNat < 2 ^ (w - 1)) : x.toInt = x.toNat := by
  rw [BitVec.toInt_eq_toNat_cond, if_pos]
  have : 2 ^ w = 2 * 2 ^ (w - 1) := by rw [← Nat.pow_succ', Nat.succ_eq_add_one, Nat.sub_add_cancel hw]
  omega

theorem toInt_of_ge {w : Nat} (hw : 0 < w) {x : BitVec w} (h : 2 ^ (w - 1) ≤ x.toNat) : x.toInt = (x.toNat : Int) - 2 ^ w := by
  rw [BitVec.toInt_eq_toNat_cond, if_neg]
  · push_cast; rfl
  · have : 2 ^ w = 2 * 2 ^ (w - 1) := by rw [← Nat.pow_succ', Nat.succ_eq_add_one, Nat.sub_add_cancel hw]
    omega

theorem pow256 (k : Nat) : 256 ^ k = 2 ^ (8 * k) := by rw [Nat.pow_mul]

theorem asn1Signed_eq {c : Bytes} (hm : IntMinimal c) (hl : c.length ≤ 8) :
    ∃ v, asn1Signed (some c) = some v ∧ v.toInt = intValue c := by
  cases c with
  | nil => exact absurd hm id
  | cons b bs =>
    unfold asn1Signed
    rw [if_neg (by simp at hl ⊢; omega)]
    refine ⟨_, rfl, ?_⟩
    simp only [bytes_some]
    rw [foldl_shl_zero]
    have hbe := beNat_lt (b :: bs)
    simp only [len_some]
    generalize hL : (b :: bs).length = L at *
    have hL1 : 1 ≤ L := by rw [← hL]; simp
    have hsh : ((64 : Byte) - BitVec.ofNat 8 L * 8).toNat = 64 - 8 * L := by
      rw [BitVec.toNat_sub, BitVec.toNat_mul]
      simp
      omega
    rw [hsh, BitVec.toInt_sshiftRight, Int.shiftRight_eq_div_pow]
    generalize hx : beNat (b :: bs) = x at *
    have hpow : 2 ^ (64 - 8 * L) * 256 ^ L = 2 ^ 64 := by
      rw [pow256, ← Nat.pow_add]; congr 1; omega
    have hx64 : x < 2 ^ 64 := by
      have : 256 ^ L ≤ 256 ^ 8 := Nat.pow_le_pow_right (by omega) hl
      omega
    have hS : 0 < 2 ^ (64 - 8 * L) := Nat.pow_pos (by omega)
    have hshl : (BitVec.ofNat 64 x <<< (64 - 8 * L)).toNat = x * 2 ^ (64 - 8 * L) := by
      rw [BitVec.toNat_shiftLeft, BitVec.toNat_ofNat, Nat.mod_eq_of_lt hx64, Nat.shiftLeft_eq]
      apply Nat.mod_eq_of_lt
      have : x * 2 ^ (64 - 8 * L) < 256 ^ L * 2 ^ (64 - 8 * L) := Nat.mul_lt_mul_of_pos_right hbe hS
      rw [Nat.mul_comm (256 ^ L)] at this
      omega
    have hbx : b.toNat * 256 ^ (L - 1) + beNat bs = x := by
      rw [← hx, beNat_cons]; simp at hL; rw [← hL]; simp
    have hbs : beNat bs < 256 ^ (L - 1) := by
      have := beNat_lt bs; simp at hL; rw [← hL]; simpa using this
    have hP : 256 ^ L = 256 * 256 ^ (L - 1) := by
      rw [← Nat.pow_succ']; congr 1; omega
    have hB := b.isLt
    have hpowZ : (2 : Int) ^ (64 - 8 * L) * 256 ^ L = 2 ^ 64 := by exact_mod_cast hpow
    unfold intValue
    simp only [hL, hx]
    by_cases hb : b.toNat < 128
    · rw [if_pos hb]
      have hlt : x < 128 * 256 ^ (L - 1) := by
        have : b.toNat * 256 ^ (L - 1) ≤ 127 * 256 ^ (L - 1) := Nat.mul_le_mul_right _ (by omega)
        omega
      rw [toInt_of_lt (by omega), hshl]
      · push_cast
        exact Int.mul_ediv_cancel _ (by positivity)
      · rw [hshl]
        have : 2 * (x * 2 ^ (64 - 8 * L)) < 2 ^ 64 := by
          rw [← hpow]
          calc 2 * (x * 2 ^ (64 - 8 * L)) = 2 ^ (64 - 8 * L) * (2 * x) := by ring
            _ < 2 ^ (64 - 8 * L) * 256 ^ L := Nat.mul_lt_mul_of_pos_left (by omega) hS
        omega
    · rw [if_neg hb]
      have hge : 128 * 256 ^ (L - 1) ≤ x := by
        have : 128 * 256 ^ (L - 1) ≤ b.toNat * 256 ^ (L - 1) := Nat.mul_le_mul_right _ (by omega)
        omega
      rw [toInt_of_ge (by omega), hshl]
      · push_cast
        rw [show (18446744073709551616 : Int) = 2 ^ (64 - 8 * L) * 256 ^ L by rw [hpowZ]; norm_num, show (x : Int) * 2 ^ (64 - 8 * L) - 2 ^ (64 - 8 * L) * 256 ^ L = (x - 256 ^ L) * 2 ^ (64 - 8 * L) by ring]
        exact Int.mul_ediv_cancel _ (by positivity)
      · rw [hshl]
        have : 2 ^ 64 ≤ 2 * (x * 2 ^ (64 - 8 * L)) := by
          rw [← hpow]
          calc 2 ^ (64 - 8 * L) * 256 ^ L ≤ 2 ^ (64 - 8 * L) * (2 * x) := Nat.mul_le_mul_left _ (by omega)
            _ = 2 * (x * 2 ^ (64 - 8 * L)) := by ring
        omega

theorem isInt_inRange {z : Int} {c : Bytes} (h : IsInt z c) : 1 ≤ c.length ∧ InRange z (c.length - 1) ∧ (c.length = 1 ∨ ¬ InRange z (c.length - 2)) := by
  obtain ⟨hm, hv⟩ := h
  match c with
  | [] => exact absurd hm id
  | [b] => have := intValue_range (b := b) (bs := []); rw [hv] at this; exact ⟨by simp, this, .inl rfl⟩
  | b0 :: b1 :: bs =>
    have := intValue_range (b := b0) (bs := b1 :: bs)
    rw [hv] at this
    rw [minimal_iff, hv] at hm
    exact ⟨by simp, this, .inr hm⟩

theorem asn1Signed_none {c : Bytes} (hl : 8 < c.length) : asn1Signed (some c) = none := by
  unfold asn1Signed; rw [if_pos (by simpa using hl)]

/-- The content decoder of `readASN1Int64`. -/
theorem asn1Signed_iff {c : Bytes} (hm : IntMinimal c) (v : BitVec 64) : asn1Signed (some c) = some v ↔ IsInt v.toInt c := by
  constructor
  · intro h
    by_cases hl : c.length ≤ 8
    · obtain ⟨v', h1, h2⟩ := asn1Signed_eq hm hl
      rw [h1] at h
      cases h
      exact ⟨hm, h2.symm⟩
    · rw [asn1Signed_none (by omega)] at h; cases h
  · intro h
    have hr := isInt_inRange h
    have hl : c.length ≤ 8 := by
      apply Decidable.byContradiction
      intro hl
      rcases hr.2.2 with h1 | h1
      · omega
      · apply h1
        have : InRange v.toInt 7 := by
          unfold InRange
          have a := BitVec.le_toInt v
          have b := BitVec.toInt_lt (x := v)
          norm_num at *
          omega
        exact this.mono (by omega)
    obtain ⟨v', h1, h2⟩ := asn1Signed_eq hm hl
    rw [h1]
    congr 1
    apply BitVec.eq_of_toInt_eq
    rw [h2, h.2]

theorem asn1Unsigned_iff {c : Bytes} (hm : IntMinimal c) :
    ∃ r, asn1Unsigned (some c) = .ok r ∧ ∀ v : BitVec 64, r = some v ↔ IsInt v.toNat c := by
  cases c with
  | nil => exact absurd hm id
  | cons b bs =>
    unfold asn1Unsigned
    have hrange := intValue_range (b := b) (bs := bs)
    have hbe := beNat_lt (b :: bs)
    have no : ∀ (P : Prop) (v : BitVec 64), (IsInt v.toNat (b :: bs) → False) → ((none : Option (BitVec 64)) = some v ↔ IsInt v.toNat (b :: bs)) := by
      intro _ v h; exact ⟨fun h => by simp at h, fun hh => absurd hh h⟩
    by_cases h9 : (b :: bs).length > 9
    · rw [if_pos (by simpa using h9)]
      refine ⟨none, rfl, fun v => no True v fun hI => ?_⟩
      have hr := isInt_inRange hI
      rcases hr.2.2 with h1 | h1
      · omega
      · apply h1
        have : InRange (v.toNat : Int) 8 := by
          unfold InRange; have := v.isLt; norm_num; omega
        exact this.mono (by omega)
    · rw [if_neg (by simpa using h9), at_some (by simp)]
      simp only [Res.ok_bind, List.getElem_cons_zero, bytes_some]
      by_cases h9' : (Str.len (some (b :: bs))) = 9 ∧ b ≠ 0
      · rw [if_pos h9']
        refine ⟨none, rfl, fun v => no True v fun hI => ?_⟩
        obtain ⟨hl, hb0⟩ := h9'
        rw [len_some] at hl
        have hbpos : 0 < b.toNat := by
          rcases Nat.eq_zero_or_pos b.toNat with h | h
          · exact absurd (BitVec.eq_of_toNat_eq (by simpa using h)) hb0
          · exact h
        have hv := hI.2
        simp at hl
        rw [intValue_cons, hl] at hv
        have hlt := v.isLt
        have h2 : (0 : Int) ≤ beNat bs := Int.natCast_nonneg _
        have h3 := beNat_lt bs
        rw [hl] at h3
        have hbl := b.isLt
        split at hv
        · norm_num at hv h3; omega
        · norm_num at hv h3; omega
      · rw [if_neg h9']
        by_cases hneg : b &&& 0x80 ≠ 0
        · rw [if_pos hneg]
          refine ⟨none, rfl, fun v => no True v fun hI => ?_⟩
          rw [and80_ne] at hneg
          have hv := hI.2
          have h3 : (beNat (b :: bs) : Int) < 256 ^ (b :: bs).length := by exact_mod_cast hbe
          unfold intValue at hv
          simp only at hv
          rw [if_neg (by omega)] at hv
          omega
        · rw [if_neg hneg, foldl_shl_zero]
          rw [and80_ne] at hneg
          refine ⟨_, rfl, fun v => ?_⟩
          have hiv : intValue (b :: bs) = beNat (b :: bs) := by
            unfold intValue; simp only; rw [if_pos (by omega)]
          have hlt64 : beNat (b :: bs) < 2 ^ 64 := by
            by_cases hl : (b :: bs).length = 9
            · have hb0 : b = 0 := by
                apply Decidable.byContradiction; intro hb; exact h9' ⟨hl, hb⟩
              subst hb0
              rw [beNat_cons]
              have := beNat_lt bs
              simp at hl
              rw [hl] at this
              simp
              omega
            · have : 256 ^ (b :: bs).length ≤ 256 ^ 8 := Nat.pow_le_pow_right (by omega) (by omega)
              omega
          constructor
          · intro h
            simp at h
            refine ⟨hm, ?_⟩
            rw [hiv, ← h, BitVec.toNat_ofNat, Nat.mod_eq_of_lt hlt64]
          · intro h
            have := h.2
            rw [hiv] at this
            congr 1
            apply BitVec.eq_of_toNat_eq
            rw [BitVec.toNat_ofNat, Nat.mod_eq_of_lt hlt64]
            exact_mod_cast this

theorem lowTag_INTEGER : LowTag tagINTEGER := by decide
theorem lowTag_ENUM : LowTag tagENUM := by decide
theorem lowTag_OCTET : LowTag tagOCTET_STRING := by decide
theorem lowTag_BITSTR : LowTag tagBIT_STRING := by decide
theorem lowTag_OID : LowTag tagOBJECT_IDENTIFIER := by decide
theorem lowTag_BOOL : LowTag tagBOOLEAN := by decide
theorem lowTag_SEQ : LowTag tagSEQUENCE := by decide

theorem readASN1BigInt_iff (s : Bytes) (z : Int) (rest : Bytes) :
    readASN1BigInt (some s) = .ok (some z, some rest) ↔
      ∃ c, IsInt z c ∧ (elem tagINTEGER c).length < 2 ^ 32 ∧ s = elem tagINTEGER c ++ rest := by
  constructor
  · intro h
    unfold readASN1BigInt at h
    rcases readIntegerContent_cases tagINTEGER (some s) with h1 | ⟨t, c, rest', h1, h2, h3, h4, h5⟩ | ⟨c, rest', h1, h2, h3, h4, h5⟩
    · rw [h1] at h; simp at h
    · rw [h5] at h; simp at h
    · rw [h5] at h
      simp only [Res.ok_bind, bigIntOfContent_eq h4] at h
      simp at h h3
      exact ⟨c, ⟨h4, h.1⟩, h2, by rw [h3, h.2]⟩
  · rintro ⟨c, h1, h2, rfl⟩
    unfold readASN1BigInt
    rw [readIntegerContent_ok lowTag_INTEGER h2 h1.1]
    simp only [Res.ok_bind, bigIntOfContent_eq h1.1, h1.2]

theorem length_elem_small {t : Tag} {c : Bytes} (h : c.length < 2 ^ 32 - 6) : (elem t c).length < 2 ^ 32 := by
  rw [length_elem, length_lenOctets]
  split
  · omega
  · have : byteLen c.length ≤ 4 := (byteLen_le_iff _ _).2 (by omega)
    omega

/-- int64 values have at most 8 contents octets. -/
theorem isInt64_length {v : BitVec 64} {c : Bytes} (h : IsInt v.toInt c) : c.length ≤ 8 := by
  apply Decidable.byContradiction
  intro hl
  have := (asn1Signed_iff h.1 v).2 h
  rw [asn1Signed_none (by omega)] at this
  cases this

theorem isUint64_length {v : BitVec 64} {c : Bytes} (h : IsInt v.toNat c) : c.length ≤ 9 := by
  apply Decidable.byContradiction
  intro hl
  have hr := isInt_inRange h
  rcases hr.2.2 with h1 | h1
  · omega
  · apply h1
    have : InRange (v.toNat : Int) 8 := by
      unfold InRange; have := v.isLt; norm_num; omega
    exact this.mono (by omega)

theorem signedReader_iff (tag : Tag) (ht : LowTag tag) (rd : Reader (BitVec 64))
    (hrd : ∀ s, rd s = (readIntegerContent tag s >>= fun p => match p.1 with
      | none => .ok (none, p.2)
      | some bytes => .ok (asn1Signed bytes, p.2))) (s : Bytes) (v : BitVec 64) (rest : Bytes) :
    rd (some s) = .ok (some v, some rest) ↔ ∃ c, IsInt v.toInt c ∧ s = elem tag c ++ rest := by
  constructor
  · intro h
    rw [hrd] at h
    rcases readIntegerContent_cases tag (some s) with h1 | ⟨t, c, rest', h1, h2, h3, h4, h5⟩ | ⟨c, rest', h1, h2, h3, h4, h5⟩
    · rw [h1] at h; simp at h
    · rw [h5] at h; simp at h
    · rw [h5] at h
      simp at h h3
      exact ⟨c, (asn1Signed_iff h4 v).1 h.1, by rw [h3, h.2]⟩
  · rintro ⟨c, h1, rfl⟩
    rw [hrd, readIntegerContent_ok ht (length_elem_small (by have := isInt64_length h1; omega)) h1.1]
    simp [(asn1Signed_iff h1.1 v).2 h1]

theorem readASN1Int64_iff (s : Bytes) (v : BitVec 64) (rest : Bytes) :
    readASN1Int64 (some s) = .ok (some v, some rest) ↔ ∃ c, IsInt v.toInt c ∧ s = elem tagINTEGER c ++ rest :=
  signedReader_iff tagINTEGER lowTag_INTEGER readASN1Int64 (fun _ => rfl) s v rest

theorem readASN1Enum_iff (s : Bytes) (v : BitVec 64) (rest : Bytes) :
    readASN1Enum (some s) = .ok (some v, some rest) ↔ ∃ c, IsInt v.toInt c ∧ s = elem tagENUM c ++ rest :=
  signedReader_iff tagENUM lowTag_ENUM readASN1Enum (fun _ => rfl) s v rest

theorem readASN1Uint64_iff (s : Bytes) (v : BitVec 64) (rest : Bytes) :
    readASN1Uint64 (some s) = .ok (some v, some rest) ↔ ∃ c, IsInt v.toNat c ∧ s = elem tagINTEGER c ++ rest := by
  unfold readASN1Uint64
  constructor
  · intro h
    rcases readIntegerContent_cases tagINTEGER (some s) with h1 | ⟨t, c, rest', h1, h2, h3, h4, h5⟩ | ⟨c, rest', h1, h2, h3, h4, h5⟩
    · rw [h1] at h; simp at h
    · rw [h5] at h; simp at h
    · rw [h5] at h
      obtain ⟨r, hr, hiff⟩ := asn1Unsigned_iff h4
      simp only [Res.ok_bind, hr] at h
      simp at h h3
      exact ⟨c, (hiff v).1 h.1, by rw [h3, h.2]⟩
  · rintro ⟨c, h1, rfl⟩
    rw [readIntegerContent_ok lowTag_INTEGER (length_elem_small (by have := isUint64_length h1; omega)) h1.1]
    obtain ⟨r, hr, hiff⟩ := asn1Unsigned_iff h1.1
    simp only [Res.ok_bind, hr]
    simp [(hiff v).2 h1]

end Verif.CB
