import Verif.Props.CryptobyteRoundTrip
/-!
# Tags, octet by octet (C20, C21, C22)

The round trips of C21 and C22 hold for any tag on which writer and reader agree; here the octets themselves are given, after X.690 8.1.2,
8.3, 8.4 and 8.8.
-/
namespace Verif.Props
open Verif Verif.CB Verif.Spec.DER Verif.Spec.Builder

/-- C20: `Constructed` and `ContextSpecific` make the identifier octet of X.690 8.1.2 out of a tag number: class in the two highest bits
(context-specific: 2), form in the next, number in the other five. -/
theorem C20_tags (n : ℕ) (h : n < 32) :
    (Tag.constructed (BitVec.ofNat 8 n)).toNat = 0 * 64 + 1 * 32 + n ∧
    (Tag.contextSpecific (BitVec.ofNat 8 n)).toNat = 2 * 64 + 0 * 32 + n ∧
    (Tag.constructed (Tag.contextSpecific (BitVec.ofNat 8 n))).toNat = 2 * 64 + 1 * 32 + n ∧
    (Tag.contextSpecific (Tag.constructed (BitVec.ofNat 8 n))).toNat = 2 * 64 + 1 * 32 + n := by
  have : ∀ n : Fin 32, (Tag.constructed (BitVec.ofNat 8 n)).toNat = 0 * 64 + 1 * 32 + n ∧
    (Tag.contextSpecific (BitVec.ofNat 8 n)).toNat = 2 * 64 + 0 * 32 + n ∧
    (Tag.constructed (Tag.contextSpecific (BitVec.ofNat 8 n))).toNat = 2 * 64 + 1 * 32 + n ∧
    (Tag.contextSpecific (Tag.constructed (BitVec.ofNat 8 n))).toNat = 2 * 64 + 1 * 32 + n := by decide
  exact this ⟨n, h⟩

/-- C20: the tag constants are the identifier octets of X.680 8.6, X.690 8.1.2: SEQUENCE and SET are constructed. -/
theorem C20_tag_constants : tagBOOLEAN = 0x01 ∧ tagINTEGER = 0x02 ∧ tagBIT_STRING = 0x03 ∧ tagOCTET_STRING = 0x04 ∧ tagNULL = 0x05 ∧
    tagOBJECT_IDENTIFIER = 0x06 ∧ tagENUM = 0x0a ∧ tagSEQUENCE = 0x30 ∧ tagSET = 0x31 := by decide

/-- C21: `AddASN1NULL` writes the octets 05 00 of X.690 8.8, and they are read as an element of this tag without contents. -/
theorem C21_null : Writes (addASN1NULL .nil) [0x05, 0x00] ∧
    ∀ rest, readASN1Tag 0x05 (some ([0x05, 0x00] ++ rest)) = .ok (some (some []), some rest) := by
  refine ⟨writes_of_eval (by decide), fun rest => ?_⟩
  have h : elem 0x05 [] = [0x05, 0x00] := by decide
  rw [← h]
  exact readASN1Tag_elem rest (by decide) (by decide)

theorem elem_tiny {t : Byte} {c : Bytes} (h : c.length ≤ 9) : elem t c = t :: BitVec.ofNat 8 c.length :: c := by
  unfold elem lenOctets
  rw [if_pos (by omega)]
  rfl

/-- C22, the octets: what is written for an enumerated value, an int64 and a uint64 is the tag (10 or 2), the number of the contents
octets and the contents octets of X.690 8.3. -/
theorem C22_octets (v : BitVec 64) :
    (∃ c, IsInt v.toInt c ∧ Writes (addASN1Enum v .nil) (0x0a :: BitVec.ofNat 8 c.length :: c)) ∧
    (∃ c, IsInt v.toInt c ∧ Writes (addASN1Int64 v .nil) (0x02 :: BitVec.ofNat 8 c.length :: c)) ∧
    (∃ c, IsInt (v.toNat : Int) c ∧ Writes (addASN1Uint64 v .nil) (0x02 :: BitVec.ofNat 8 c.length :: c)) := by
  have l1 := Nat.le_succ_of_le (isInt64_length (isInt_signedBytes v))
  have l2 := isUint64_length (isInt_unsignedBytes v)
  refine ⟨⟨_, isInt_signedBytes v, ?_⟩, ⟨_, isInt_signedBytes v, ?_⟩, ⟨_, isInt_unsignedBytes v, ?_⟩⟩
  · rw [← elem_tiny l1]
    exact writes_of_eval (eval_asn1_each lowTag_ENUM l1)
  · rw [← elem_tiny l1]
    exact writes_of_eval (eval_asn1_each lowTag_INTEGER l1)
  · rw [← elem_tiny l2]
    exact writes_of_eval (eval_asn1_each lowTag_INTEGER l2)

/-- C22, the tag of the reader: `ReadASN1Enum` reads exactly elements with tag 10. -/
theorem C22_enum_tag (s rest : Bytes) (v : BitVec 64) :
    readASN1Enum (some s) = .ok (some v, some rest) ↔ ∃ c, IsInt v.toInt c ∧ s = 0x0a :: BitVec.ofNat 8 c.length :: c ++ rest := by
  rw [readASN1Enum_iff]
  constructor
  · rintro ⟨c, h, rfl⟩
    exact ⟨c, h, by rw [elem_tiny (Nat.le_succ_of_le (isInt64_length h))]; rfl⟩
  · rintro ⟨c, h, rfl⟩
    exact ⟨c, h, by rw [elem_tiny (Nat.le_succ_of_le (isInt64_length h))]; rfl⟩

example : run (fun _ _ _ => 0) exHeap exBuf (addASN1NULL (addASN1Enum 300 (addASN1Int64 (-1) .nil))) =
    .ok [5, 0, 0x0a, 2, 1, 0x2c, 2, 1, 0xff] := by decide
example : readASN1Enum (some [0x0a, 1, 0x80, 7]) = .ok (some (-128), some [7]) ∧ readASN1Enum (some [2, 1, 0x80, 7]) = .ok (none, some [7]) := by decide
example : (Tag.constructed (Tag.contextSpecific 3)) = 0xa3 := by decide
end Verif.Props
