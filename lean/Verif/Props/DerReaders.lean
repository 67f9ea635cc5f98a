import Verif.Props.CryptobyteFormats
import Verif.Props.CertLanguage
import Verif.Props.CertExtExact
import Verif.Props.Sm2Cipher
/-!
# C154: the two readers of DER agree

The library reads DER with two different programs: `encoding/asn1` (signatures, ciphertexts, certificates, keys) and its own
package `cryptobyte`. Where both are used on the same bytes they should find the same value, or both refuse. For single elements,
INTEGERs, OCTET STRINGs and BIT STRINGs, and so for whole signatures and ciphertexts, they do; for object identifiers
`cryptobyte` accepts less, for booleans and tag numbers from 31 on they differ.
-/
namespace Verif.Props
open Verif Verif.Der Verif.CB Verif.Spec.DER

/-- What is shorter than 2^31 octets is below both bounds. -/
theorem readers_bounds {t : Byte} {c rest : Bytes} (h : (elem t c ++ rest).length < 2 ^ 31) : c.length < 2 ^ 31 ∧ (elem t c).length < 2 ^ 32 := by
  rw [List.length_append] at h
  have : c.length ≤ (elem t c).length := by simp [elem]; omega
  omega

/-- C154 for INTEGER: both readers accept the same bytes and find the same number and the same rest. -/
theorem C154_integer (bs rest : Bytes) (v : Int) (hl : bs.length < 2 ^ 31) :
    readASN1BigInt (some bs) = .ok (some v, some rest) ↔ parseField tyBig {} bs = .ok (v, rest) := by
  rw [readASN1BigInt_iff, show parseField tyBig {} bs = .ok (v, rest) ↔
    ∃ c, c.length < 2 ^ 31 ∧ bs = elem 0x02 c ++ rest ∧ parseBigInt c = .ok v from
    parseField_iff (p := {}) rfl rfl rfl rfl (by decide)]
  simp only [parseBigInt_iff]
  constructor
  · rintro ⟨c, h1, -, rfl⟩
    exact ⟨c, (readers_bounds hl).1, rfl, h1⟩
  · rintro ⟨c, -, rfl, h1⟩
    exact ⟨c, h1, (readers_bounds hl).2, rfl⟩

/-- C154 for OCTET STRING. -/
theorem C154_octets (bs rest c : Bytes) (hl : bs.length < 2 ^ 31) :
    readASN1Bytes tagOCTET_STRING (some bs) = .ok (some (some c), some rest) ↔ parseField tyBytes {} bs = .ok (c, rest) := by
  unfold readASN1Bytes
  rw [readASN1Tag_iff, show parseField tyBytes {} bs = .ok (c, rest) ↔
    ∃ c', c'.length < 2 ^ 31 ∧ bs = elem 0x04 c' ++ rest ∧ Res.ok c' = .ok c from
    parseField_iff (p := {}) rfl rfl rfl rfl (by decide)]
  constructor
  · rintro ⟨c', rest', h1, h2, -, -, rfl⟩
    cases h1; cases h2
    exact ⟨c, (readers_bounds hl).1, rfl, rfl⟩
  · rintro ⟨c', -, rfl, h1⟩
    cases h1
    exact ⟨c, rest, rfl, rfl, by decide, (readers_bounds hl).2, rfl⟩

/-- C154 for BIT STRING. -/
theorem C154_bits (bs rest data : Bytes) (n : ℕ) (hl : bs.length < 2 ^ 31) :
    readASN1BitString (some bs) = .ok (some ⟨data, n⟩, some rest) ↔ parseField tyBits {} bs = .ok (⟨data, n⟩, rest) := by
  rw [C26_readBitString_iff, parseField_bits_iff]
  simp only [parseBitString_iff]
  constructor
  · rintro ⟨m, c, e, h1, h2, h3, h4, rfl⟩
    obtain ⟨rfl, -⟩ := elem_of_isElem h3 h4
    obtain rfl : n = m := by simpa using h2
    exact ⟨c, (readers_bounds hl).1, rfl, h1⟩
  · rintro ⟨c, -, rfl, h1⟩
    exact ⟨n, c, _, h1, rfl, isElem_elem (by decide) (readers_bounds hl).2, (readers_bounds hl).2, rfl⟩

/-- C154 for SEQUENCE: the contents that `cryptobyte` hands to the reader of the fields are those that `encoding/asn1` does. -/
theorem C154_sequence (bs rest c : Bytes) (hl : bs.length < 2 ^ 31) :
    readASN1Tag tagSEQUENCE (some bs) = .ok (some (some c), some rest) ↔ fieldSequence bs = .ok (c, rest) := by
  rw [readASN1Tag_iff, fieldSequence_iff]
  constructor
  · rintro ⟨c', rest', h1, h2, -, -, rfl⟩
    cases h1; cases h2
    exact ⟨(readers_bounds hl).1, rfl⟩
  · rintro ⟨-, rfl⟩
    exact ⟨c, rest, rfl, rfl, by decide, (readers_bounds hl).2, rfl⟩

/-- C154 for signatures: `UnmarshalSign` finds `r` and `s` exactly when `cryptobyte` reads a SEQUENCE whose first two elements
are the INTEGERs `r` and `s`. -/
theorem C154_signature (sig : Bytes) (r s : Int) (hl : sig.length < 2 ^ 31) :
    Sm2.unmarshalSign sig = .ok (r, s) ↔ ∃ body rest more extra, readASN1Tag tagSEQUENCE (some sig) = .ok (some body, rest) ∧
      readASN1BigInt body = .ok (some r, some more) ∧ readASN1BigInt (some more) = .ok (some s, some extra) := by
  rw [unmarshalSign_iff]
  constructor
  · rintro ⟨cr, cs, t1, t2, h1, h2, h3, rfl⟩
    obtain ⟨-, b⟩ := readers_bounds hl
    rw [List.append_assoc] at *
    have b1 := (readers_bounds h3).2
    have b2 : (elem 0x02 cs ++ t1).length < 2 ^ 31 := by rw [List.length_append] at h3; omega
    refine ⟨_, _, elem 0x02 cs ++ t1, t1, readASN1Tag_elem t2 (by decide) b, (readASN1BigInt_iff _ _ _).2 ⟨cr, h1, b1, rfl⟩,
      (readASN1BigInt_iff _ _ _).2 ⟨cs, h2, (readers_bounds b2).2, rfl⟩⟩
  · rintro ⟨body, rest, more, extra, h1, h2, h3⟩
    obtain ⟨c, rest, rfl, rfl, -, -, rfl⟩ := (readASN1Tag_iff _ _ _ _).1 h1
    obtain ⟨cr, h4, -, rfl⟩ := (readASN1BigInt_iff _ _ _).1 h2
    obtain ⟨cs, h5, -, rfl⟩ := (readASN1BigInt_iff _ _ _).1 h3
    have b := (readers_bounds hl).1
    rw [← List.append_assoc] at *
    exact ⟨cr, cs, extra, rest, h4, h5, b, rfl⟩

/-- C154 for ciphertexts: the four fields that `UnmarshalCipher` finds are those that `cryptobyte` reads. -/
theorem C154_ciphertext (inp : Bytes) (x y : Int) (a b : Bytes) (hl : inp.length < 2 ^ 31) :
    Sm2.unmarshalFields inp = .ok (x, y, a, b) ↔ ∃ body rest i1 i2 i3 extra, readASN1Tag tagSEQUENCE (some inp) = .ok (some body, rest) ∧
      readASN1BigInt body = .ok (some x, some i1) ∧ readASN1BigInt (some i1) = .ok (some y, some i2) ∧
      readASN1Bytes tagOCTET_STRING (some i2) = .ok (some (some a), some i3) ∧
      readASN1Bytes tagOCTET_STRING (some i3) = .ok (some (some b), some extra) := by
  rw [unmarshalFields_iff]
  unfold CipherFields readASN1Bytes
  constructor
  · rintro ⟨cx, cy, extra, tail, h1, h2, h3, rfl⟩
    obtain ⟨-, l⟩ := readers_bounds hl
    simp only [List.append_assoc] at *
    have l1 := (readers_bounds h3).2
    have h4 : (elem 0x02 cy ++ (elem 0x04 a ++ (elem 0x04 b ++ extra))).length < 2 ^ 31 := by rw [List.length_append] at h3; omega
    have h5 : (elem 0x04 a ++ (elem 0x04 b ++ extra)).length < 2 ^ 31 := by rw [List.length_append] at h4; omega
    have h6 : (elem 0x04 b ++ extra).length < 2 ^ 31 := by rw [List.length_append] at h5; omega
    exact ⟨_, _, _, _, _, _, readASN1Tag_elem tail (by decide) l, (readASN1BigInt_iff _ _ _).2 ⟨cx, h1, l1, rfl⟩,
      (readASN1BigInt_iff _ _ _).2 ⟨cy, h2, (readers_bounds h4).2, rfl⟩,
      readASN1Tag_elem _ (by decide) (readers_bounds h5).2, readASN1Tag_elem extra (by decide) (readers_bounds h6).2⟩
  · rintro ⟨body, rest, i1, i2, i3, extra, h1, h2, h3, h4, h5⟩
    obtain ⟨c, rest, rfl, rfl, -, -, rfl⟩ := (readASN1Tag_iff _ _ _ _).1 h1
    obtain ⟨cx, h6, -, rfl⟩ := (readASN1BigInt_iff _ _ _).1 h2
    obtain ⟨cy, h7, -, rfl⟩ := (readASN1BigInt_iff _ _ _).1 h3
    obtain ⟨_, _, e1, e2, -, -, rfl⟩ := (readASN1Tag_iff _ _ _ _).1 h4
    cases e1; cases e2
    obtain ⟨_, _, e1, e2, -, -, rfl⟩ := (readASN1Tag_iff _ _ _ _).1 h5
    cases e1; cases e2
    have l := (readers_bounds hl).1
    refine ⟨cx, cy, extra, rest, h6, h7, ?_, by simp only [List.append_assoc]; rfl⟩
    simp only [List.append_assoc]
    exact l

/-- C154 for object identifiers, the part that holds: what `cryptobyte` reads, `encoding/asn1` reads with the same value; and
`cryptobyte` reads what `encoding/asn1` reads if every number takes at most four septets. -/
theorem C154_oid_partial (bs rest : Bytes) (oid : List ℕ) (hl : bs.length < 2 ^ 31) :
    readASN1ObjectIdentifier (some bs) = .ok (some oid, some rest) ↔ parseField tyOID {} bs = .ok (oid, rest) ∧
      ∃ gs : List Bytes, bs = elem 0x06 gs.flatten ++ rest ∧
        List.Forall₂ (fun n g => IsGroup g ∧ subValue g = n ∧ g.length ≤ 4) (subids oid) gs := by
  rw [C24_reader_accepts_partial, parseField_oid_exact]
  constructor
  · rintro ⟨gs, e, h1, h2, h3, h4, rfl⟩
    obtain ⟨rfl, -⟩ := elem_of_isElem h3 h4
    refine ⟨⟨_, (readers_bounds hl).1, rfl, h1, gs, rfl, h2.imp fun n g h => ⟨h.1, by have := h.2.2; omega, h.2.1, ?_⟩⟩, gs, rfl, h2⟩
    have := subValue_lt g
    have := Nat.pow_le_pow_right (show 0 < 128 by decide) h.2.2
    rw [h.2.1] at *
    omega
  · rintro ⟨⟨_, _, _, h1, _⟩, gs, rfl, h2⟩
    exact ⟨gs, _, h1, h2, isElem_elem (by decide) (readers_bounds hl).2, (readers_bounds hl).2, rfl⟩

/-- C154 fails for object identifiers: 1.2.268435456 is read by `encoding/asn1` and refused by `cryptobyte`. -/
theorem C154_oid_violated : parseField tyOID {} [6, 6, 0x2a, 0x81, 0x80, 0x80, 0x80, 0] = .ok ([1, 2, 0x10000000], []) ∧
    readASN1ObjectIdentifier (some [6, 6, 0x2a, 0x81, 0x80, 0x80, 0x80, 0]) = .ok (none, some []) := by
  constructor <;> decide

/-- C154 fails for BOOLEAN: whatever `encoding/asn1` reads as a boolean, `cryptobyte` refuses. -/
theorem C154_boolean_violated (bs rest : Bytes) (v : Bool) (h : parseField tyBool {} bs = .ok (v, rest)) :
    readASN1Boolean (some bs) = .ok (none, some rest) := by
  obtain ⟨c, -, rfl, h1⟩ := (show parseField tyBool {} bs = .ok (v, rest) ↔
    ∃ c, c.length < 2 ^ 31 ∧ bs = elem 0x01 c ++ rest ∧ parseBool c = .ok v from
    parseField_iff (p := {}) rfl rfl rfl rfl (by decide)).1 h
  have hc : c = [if v then 0xff else 0] := parseBool_exact.1 h1
  subst hc
  exact C25_boolean_violated v rest

/-- C154 for elements of any tag number below 31: both readers find the same class, form, number, contents and rest. -/
theorem C154_element (bs rest : Bytes) (v : RawValue) (hl : bs.length < 2 ^ 31) :
    parseField tyRaw {} bs = .ok (v, rest) ∧ v.tag < 31 ↔ ∃ t : Byte, readAnyASN1Element (some bs) = .ok (some (t, some v.fullBytes), some rest) ∧
      readAnyASN1 (some bs) = .ok (some (t, some v.bytes), some rest) ∧
      v.cls = t.toNat / 64 ∧ v.isCompound = decide (t.toNat / 32 % 2 = 1) ∧ v.tag = t.toNat % 32 := by
  obtain ⟨cls, tag, cmp, c, full⟩ := v
  rw [parseField_raw_exact]
  constructor
  · rintro ⟨⟨⟨id, ⟨h1, h2⟩, -, -, h3, h4⟩, h5⟩, ht⟩
    dsimp only at *
    rcases h2 with ⟨-, rfl⟩ | ⟨h2, -⟩
    swap
    · omega
    obtain rfl : full = elem (idOctet cls tag cmp) c := h4
    subst h5
    have hn := toNat_idOctet (isCompound := cmp) h1 ht
    have low : LowTag (idOctet cls tag cmp) := by
      unfold LowTag
      rw [hn]
      split <;> omega
    obtain ⟨-, b⟩ := readers_bounds hl
    refine ⟨idOctet cls tag cmp, readASN1_elem false rest low b, readASN1_elem true rest low b, ?_, ?_, ?_⟩
    · rw [hn]; split <;> omega
    · rw [hn]
      cases cmp
      · simp; omega
      · simp; omega
    · rw [hn]; split <;> omega
  · rintro ⟨t, h1, h2, h3, h4, h5⟩
    dsimp only at *
    obtain ⟨c', e, rest', g1, g2, rfl, g4, g5⟩ := (C20_readAnyASN1Element_iff _ _ _ _).1 h1
    cases g4; cases g5
    obtain ⟨rfl, low⟩ := elem_of_isElem g1 (by omega)
    have h6 : readAnyASN1 (some (elem t c' ++ rest)) = .ok (some (t, some c'), some rest) :=
      readASN1_elem true rest low (readers_bounds hl).2
    rw [h6] at h2
    obtain rfl : c' = c := by simpa using h2
    unfold LowTag at low
    have ht := t.isLt
    have hid : t = BitVec.ofNat 8 (cls * 64 + (if cmp = true then 32 else 0) + tag) := by
      apply BitVec.eq_of_toNat_eq
      rw [BitVec.toNat_ofNat]
      subst h3 h4 h5
      by_cases hc : t.toNat / 32 % 2 = 1
      · simp only [hc, decide_true, if_true]; omega
      · simp only [hc, decide_false, Bool.false_eq_true, if_false]; omega
    exact ⟨⟨⟨[t], ⟨by omega, .inl ⟨by omega, by rw [← hid]⟩⟩, by simp, by omega, (readers_bounds hl).1, rfl⟩, rfl⟩, by omega⟩

/-- C154 fails for tag numbers from 31 on: `encoding/asn1` reads them, `cryptobyte` refuses them. -/
theorem C154_high_tag_violated (bs rest : Bytes) (v : RawValue) (h : parseField tyRaw {} bs = .ok (v, rest)) (ht : 31 ≤ v.tag) :
    readAnyASN1 (some bs) = .ok (none, some bs) := by
  obtain ⟨⟨id, ⟨h1, h2⟩, -, -, -, h4⟩, rfl⟩ := (parseField_raw_exact _ _ _).1 h
  rcases h2 with ⟨h2, -⟩ | ⟨-, g, rfl, h3, -⟩
  · omega
  rcases readASN1_sound true (v.fullBytes ++ rest) with k | ⟨t, c, r, k1, -, k2, -⟩
  · exact k
  · rw [h4] at k2
    simp only [elem, List.cons_append, List.append_assoc, List.cons.injEq] at k2
    exfalso
    apply k1
    rw [← k2.1, BitVec.toNat_ofNat]
    split <;> omega

/-! ## Cases -/

/-- A signature, with octets after its two numbers and after itself, read by both. -/
example : Sm2.unmarshalSign [0x30, 8, 2, 2, 0, 0x80, 2, 1, 0xff, 5, 0xee] = .ok (128, -1) ∧
    readASN1Tag tagSEQUENCE (some [0x30, 8, 2, 2, 0, 0x80, 2, 1, 0xff, 5, 0xee]) = .ok (some (some [2, 2, 0, 0x80, 2, 1, 0xff, 5]), some [0xee]) ∧
    readASN1BigInt (some [2, 2, 0, 0x80, 2, 1, 0xff, 5]) = .ok (some 128, some [2, 1, 0xff, 5]) ∧
    readASN1BigInt (some [2, 1, 0xff, 5]) = .ok (some (-1), some [5]) := by decide

/-- A number with an octet too many is refused by both. -/
example : readASN1BigInt (some [2, 2, 0, 0x7f]) = .ok (none, some []) ∧ parseField tyBig {} [2, 2, 0, 0x7f] = .err "integer not minimally-encoded" := by decide

/-- The fields of a ciphertext. -/
example : Sm2.unmarshalFields [0x30, 11, 2, 1, 1, 2, 1, 2, 4, 1, 3, 4, 0] = .ok (1, 2, [3], []) := by decide

/-- A bit string of three bits. -/
example : readASN1BitString (some [3, 2, 5, 0xa0, 9]) = .ok (some ⟨[0xa0], 3⟩, some [9]) ∧ parseField tyBits {} [3, 2, 5, 0xa0, 9] = .ok (⟨[0xa0], 3⟩, [9]) := by decide

/-- An element of the context class. -/
example : parseField tyRaw {} [0xa3, 1, 7, 8] = .ok (⟨2, 3, true, [7], [0xa3, 1, 7]⟩, [8]) ∧
    readAnyASN1Element (some [0xa3, 1, 7, 8]) = .ok (some (0xa3, some [0xa3, 1, 7]), some [8]) := by decide

/-- A tag number of two octets. -/
example : parseField tyRaw {} [0x9f, 0x21, 1, 7] = .ok (⟨2, 33, false, [7], [0x9f, 0x21, 1, 7]⟩, []) ∧
    readAnyASN1 (some [0x9f, 0x21, 1, 7]) = .ok (none, some [0x9f, 0x21, 1, 7]) := by decide

example : parseField tyBool {} [1, 1, 0xff, 3] = .ok (true, [3]) ∧ readASN1Boolean (some [1, 1, 0xff, 3]) = .ok (none, some [3]) := by decide

example : parseField tyOID {} [6, 3, 0x2a, 0x81, 0x1c, 1] = .ok ([1, 2, 156], [1]) ∧
    readASN1ObjectIdentifier (some [6, 3, 0x2a, 0x81, 0x1c, 1]) = .ok (some [1, 2, 156], some [1]) := by decide
end Verif.Props
