import Verif.CB.SafeLemmas
import Verif.CB.BitSpec
/-!
# Properties C19, C20, C25, C26 (parser side), C27: the cryptobyte readers
-/
namespace Verif.Props
open Verif Verif.CB Verif.Spec.DER

/-! ## C19

`Safe rd parts`: on every String (also nil) `rd` returns without panic, consumes a prefix, leaves the suffix,
and the byte strings in its result lie inside the consumed prefix. Over-reading is a panic in the model. -/

theorem C19_skip (n : Nat) : Safe0 (skip n) := safe_skip n
theorem C19_readUint8 : Safe0 readUint8 := safe_readUint8
theorem C19_readUint16 : Safe0 readUint16 := safe_readUint16
theorem C19_readUint24 : Safe0 readUint24 := safe_readUint24
theorem C19_readUint32 : Safe0 readUint32 := safe_readUint32
theorem C19_readUint8LengthPrefixed : Safe readUint8LengthPrefixed fun v => [v.bytes] := safe_readLengthPrefixed 1 (by omega)
theorem C19_readUint16LengthPrefixed : Safe readUint16LengthPrefixed fun v => [v.bytes] := safe_readLengthPrefixed 2 (by omega)
theorem C19_readUint24LengthPrefixed : Safe readUint24LengthPrefixed fun v => [v.bytes] := safe_readLengthPrefixed 3 (by omega)
theorem C19_readBytes (n : Nat) : Safe (readBytes n) fun v => [v.bytes] := safe_readBytes n
theorem C19_copyBytes (n : Nat) : Safe (copyBytes n) fun v => [v] := safe_copyBytes n
theorem C19_readAnyASN1 : Safe readAnyASN1 fun v => [v.2.bytes] := safe_readASN1 true
theorem C19_readAnyASN1Element : Safe readAnyASN1Element fun v => [v.2.bytes] := safe_readASN1 false
theorem C19_readASN1 (tag : Tag) : Safe (readASN1Tag tag) fun v => [v.bytes] := safe_readASN1Tag tag
theorem C19_readASN1Element (tag : Tag) : Safe (readASN1Element tag) fun v => [v.bytes] := safe_readASN1Element tag
theorem C19_readASN1Bytes (tag : Tag) : Safe (readASN1Bytes tag) fun v => [v.bytes] := safe_readASN1Tag tag
theorem C19_skipASN1 (tag : Tag) : Safe0 (skipASN1 tag) := safe_skipASN1 tag
theorem C19_peekASN1Tag (tag : Tag) (s : Str) : peekASN1Tag tag s = .ok (decide (s.bytes.head? = some tag)) := peek_eq tag s
theorem C19_readASN1Boolean : Safe0 readASN1Boolean := safe_readASN1Boolean
theorem C19_readASN1BigInt : Safe0 readASN1BigInt := safe_readASN1BigInt
theorem C19_readASN1Int64 : Safe0 readASN1Int64 := safe_readASN1Int64
theorem C19_readASN1Uint64 : Safe0 readASN1Uint64 := safe_readASN1Uint64
theorem C19_readASN1IntegerSigned (w : Nat) : Safe0 (readASN1IntegerSigned w) := safe_readASN1IntegerSigned w
theorem C19_readASN1IntegerUnsigned (w : Nat) : Safe0 (readASN1IntegerUnsigned w) := safe_readASN1IntegerUnsigned w
theorem C19_readASN1Enum : Safe0 readASN1Enum := safe_readASN1Enum
theorem C19_readASN1ObjectIdentifier : Safe0 readASN1ObjectIdentifier := safe_readASN1ObjectIdentifier
theorem C19_readASN1BitString : Safe readASN1BitString fun v => [v.bytes] := safe_readASN1BitString
theorem C19_readASN1BitStringAsBytes : Safe readASN1BitStringAsBytes fun v => [v.bytes] := safe_readASN1BitStringAsBytes
theorem C19_readOptionalASN1 (tag : Tag) : Safe (readOptionalASN1 tag) fun v => (v.map Str.bytes).toList := safe_readOptionalASN1 tag
theorem C19_skipOptionalASN1 (tag : Tag) : Safe0 (skipOptionalASN1 tag) := safe_skipOptionalASN1 tag
theorem C19_readOptionalASN1Integer {α : Type} (rd : Reader α) (hrd : Safe0 rd) (tag : Tag) (d : α) :
    Safe0 (readOptionalASN1Integer rd tag d) := safe_readOptionalASN1Integer rd hrd tag d
theorem C19_readOptionalASN1OctetString (tag : Tag) :
    Safe (readOptionalASN1OctetString tag) fun v => if v.2 then [v.1.bytes] else [] := safe_readOptionalASN1OctetString tag
theorem C19_readOptionalASN1Boolean (d : Bool) : Safe0 (readOptionalASN1Boolean d) := safe_readOptionalASN1Boolean d

/-- Negative counts are outside the property: they do panic. -/
example : skip (-1) (some [1, 2]) = .panic := by decide
/-- A truncated element is refused and nothing is consumed. -/
example : readAnyASN1 (some [0x30, 0x82, 0x01]) = .ok (none, some [0x30, 0x82, 0x01]) := by decide
/-- `Safe` at work: what is returned lies in what was consumed. -/
example : readAnyASN1 (some [0x30, 0x02, 7, 8, 9]) = .ok (some (0x30, some [7, 8]), some [9]) := by decide

/-! ## C20 -/

theorem isElem_elem {t : Byte} {c : Bytes} (ht : LowTag t) (h : (elem t c).length < 2 ^ 32) : IsElem t c (elem t c) :=
  (isElem_iff (length_elem_lt h)).2 ⟨ht, rfl⟩

theorem elem_of_isElem {t : Byte} {c e : Bytes} (h : IsElem t c e) (hl : e.length < 2 ^ 32) : e = elem t c ∧ LowTag t := by
  have hc : c.length < 2 ^ 32 := by
    obtain ⟨_, l, _, rfl⟩ := h
    simp at hl
    omega
  have := (isElem_iff (byteLen_lt_127 hc)).1 h
  exact ⟨this.2, this.1⟩

/-- Both unrestricted readers, with the bytes they return. -/
theorem readASN1_iff (sk : Bool) (s : Bytes) (t : Tag) (out s' : Str) :
    readASN1 sk (some s) = .ok (some (t, out), s') ↔
      ∃ c e rest, IsElem t c e ∧ e.length ≤ 2 ^ 32 - 1 ∧ s = e ++ rest ∧ out = some (if sk then c else e) ∧ s' = some rest := by
  constructor
  · intro h
    rcases readASN1_sound sk s with h1 | ⟨t', c, rest, h1, h2, rfl, h4⟩
    · rw [h1] at h; simp at h
    · rw [h4] at h
      simp at h
      obtain ⟨⟨rfl, rfl⟩, rfl⟩ := h
      exact ⟨c, elem t' c, rest, isElem_elem h1 h2, by omega, rfl, rfl, rfl⟩
  · rintro ⟨c, e, rest, h1, h2, rfl, rfl, rfl⟩
    obtain ⟨rfl, ht⟩ := elem_of_isElem h1 (by omega)
    exact readASN1_elem sk rest ht (by omega)

/-- C20 for `ReadAnyASN1`: success on exactly the minimal DER elements, returning tag, content and rest. -/
theorem C20_readAnyASN1_iff (s : Bytes) (t : Tag) (out s' : Str) :
    readAnyASN1 (some s) = .ok (some (t, out), s') ↔
      ∃ c e rest, IsElem t c e ∧ e.length ≤ 2 ^ 32 - 1 ∧ s = e ++ rest ∧ out = some c ∧ s' = some rest :=
  readASN1_iff true s t out s'

/-- C20 for `ReadAnyASN1Element`: the same elements, returned with their header. -/
theorem C20_readAnyASN1Element_iff (s : Bytes) (t : Tag) (out s' : Str) :
    readAnyASN1Element (some s) = .ok (some (t, out), s') ↔
      ∃ c e rest, IsElem t c e ∧ e.length ≤ 2 ^ 32 - 1 ∧ s = e ++ rest ∧ out = some e ∧ s' = some rest :=
  readASN1_iff false s t out s'

/-- C20, refusal: when the string does not start with such an element, `false` and nothing consumed. -/
theorem C20_refuses (s : Bytes) (h : ¬ ∃ t c e rest, IsElem t c e ∧ e.length ≤ 2 ^ 32 - 1 ∧ s = e ++ rest) :
    readAnyASN1 (some s) = .ok (none, some s) ∧ readAnyASN1Element (some s) = .ok (none, some s) := by
  have key : ∀ sk, readASN1 sk (some s) = .ok (none, some s) := by
    intro sk
    rcases readASN1_sound sk s with h1 | ⟨t', c, rest, h1, h2, rfl, h4⟩
    · exact h1
    · exact absurd ⟨t', c, _, rest, isElem_elem h1 h2, by omega, rfl⟩ h
  exact ⟨key true, key false⟩

/-- The element a string starts with is unique. -/
theorem C20_element_unique {t t' : Byte} {c c' e e' x y : Bytes} (h : IsElem t c e) (h' : IsElem t' c' e')
    (hl : e.length < 2 ^ 32) (hl' : e'.length < 2 ^ 32) (heq : e ++ x = e' ++ y) : t = t' ∧ c = c' ∧ x = y := by
  obtain ⟨rfl, _⟩ := elem_of_isElem h hl
  obtain ⟨rfl, _⟩ := elem_of_isElem h' hl'
  exact elem_append_inj (length_elem_lt hl) (length_elem_lt hl') heq

/-- A long-form element meets the hypotheses. -/
example : IsElem 0x30 (List.replicate 200 7) (0x30 :: 0x81 :: 200 :: List.replicate 200 7) := by
  refine ⟨by decide, [0x81, 200], ?_, rfl⟩
  have h : IsLength 200 [0x81, 200] := IsLength.long (0x81 : Byte) 200 [] (by decide) (by decide) (by decide) (by decide)
  rwa [List.length_replicate]
/-- Non-minimal lengths are refused. -/
example : readAnyASN1 (some [0x04, 0x81, 1, 7]) = .ok (none, some [0x04, 0x81, 1, 7]) := by decide

/-! ## C25 -/

/-- C25 fails: what `AddASN1Boolean` writes (`01 01 ff` or `01 01 00`) is never read back by
`ReadASN1Boolean`, whatever follows, because line 229 of asn1.go asks for the INTEGER tag. -/
theorem C25_boolean_violated (v : Bool) (rest : Bytes) :
    readASN1Boolean (some (elem tagBOOLEAN [if v then 0xff else 0] ++ rest)) = .ok (none, some rest) := by
  unfold readASN1Boolean
  have hl : (elem tagBOOLEAN [if v then 0xff else 0]).length < 2 ^ 32 := by simp [elem, lenOctets]
  unfold readASN1Tag readAnyASN1
  rw [readASN1_elem true rest lowTag_BOOL hl]
  simp only [Res.ok_bind]
  rw [if_pos (by decide)]
  rfl

/-- C25 fails for `ReadOptionalASN1Boolean` too: a BOOLEAN that is present is skipped and the value is
taken from an INTEGER behind it, or the read fails. -/
theorem C25_optional_violated :
    readOptionalASN1Boolean true (some [1, 1, 0]) = .ok (none, some []) ∧
    readOptionalASN1Boolean false (some [1, 1, 0xff, 2, 1, 0]) = .ok (some false, some []) := by
  decide

/-- C25, the part that holds: the default is returned, and nothing consumed, exactly when no BOOLEAN tag
is next. `_partial`: a BOOLEAN that is present is not read (`C25_optional_violated`). -/
theorem C25_optional_default_partial (s : Str) (d : Bool) :
    readOptionalASN1Boolean d s = .ok (some d, s) ↔ s.bytes.head? ≠ some tagBOOLEAN := by
  unfold readOptionalASN1Boolean readOptionalASN1
  rw [peek_eq]
  constructor
  · intro hv h
    simp only [h, decide_true, Res.ok_bind, if_true] at hv
    rcases readASN1Tag_cases tagBOOLEAN s with h1 | ⟨t, c, rest, h1, h2, h3, h4, h5⟩ | ⟨c, rest, h1, h2, h3, h4⟩
    · rw [h1] at hv; simp at hv
    · rw [h5] at hv; simp at hv
    · rw [h4] at hv
      simp only [Res.ok_bind] at hv
      obtain ⟨r, s', pre, h5, h6, _⟩ := safe_readASN1Boolean (some rest)
      rw [h5] at hv
      simp at hv
      obtain ⟨_, rfl⟩ := hv
      have := congrArg List.length h6
      rw [h3] at this
      simp [elem] at this
      omega
  · intro h
    simp [h]

example : readOptionalASN1Boolean true (some [2, 1, 0]) = .ok (some true, some [2, 1, 0]) := by decide

/-- C25, what `ReadASN1Boolean` accepts instead: exactly the INTEGERs 0 and -1. -/
theorem C25_reader_accepts_partial (s rest : Bytes) (v : Bool) :
    readASN1Boolean (some s) = .ok (some v, some rest) ↔ s = [0x02, 0x01, if v then 0xff else 0] ++ rest := by
  unfold readASN1Boolean
  constructor
  · intro h
    rcases readASN1Tag_cases tagINTEGER (some s) with h1 | ⟨t, c, rest', h1, h2, h3, h4, h5⟩ | ⟨c, rest', h1, h2, h3, h4⟩
    · rw [h1] at h; simp at h
    · rw [h5] at h; simp at h
    · rw [h4] at h
      simp at h3
      match c with
      | [] => simp at h
      | [b] =>
        simp only [Res.ok_bind] at h
        rw [if_neg (by simp), at_some (by simp)] at h
        simp [boolOfByte] at h
        obtain ⟨h, rfl⟩ := h
        subst h3
        split at h
        · rename_i hb; cases h; rw [hb]; rfl
        · split at h
          · rename_i hb; cases h; rw [hb]; rfl
          · cases h
      | _ :: _ :: _ => simp at h
  · rintro rfl
    have hl : (elem tagINTEGER [if v then 0xff else 0]).length < 2 ^ 32 := by simp [elem, lenOctets]
    have := readASN1Tag_elem rest lowTag_INTEGER hl
    rw [show ([0x02, 0x01, if v then 0xff else 0] : Bytes) = elem tagINTEGER [if v then 0xff else 0] from rfl, this]
    cases v <;> rfl

example : readASN1Boolean (some [2, 1, 0xff, 9]) = .ok (some true, some [9]) := by decide

/-! ## C26, parser side -/

theorem getLast_mod (data : Bytes) (h : data ≠ []) (p : Nat) (hp : p ≤ 7) : (data.getLast h).toNat % 2 ^ p = beNat data % 2 ^ p := by
  conv => rhs; rw [← List.dropLast_append_getLast h, beNat_snoc]
  have : (256 : Nat) = 2 ^ p * 2 ^ (8 - p) := by rw [← Nat.pow_add, show p + (8 - p) = 8 by omega]
  rw [this, Nat.mul_comm (beNat _), Nat.mul_assoc, Nat.mul_add_mod]

theorem bitString_iff (pad : Byte) (data : Bytes) :
    (¬ (7 < pad.toNat ∨ (data = [] ∧ pad ≠ 0) ∨ (∃ h : data ≠ [], (data.getLast h).toNat % 2 ^ pad.toNat ≠ 0)))
      ↔ IsBitString data (8 * data.length - pad.toNat) (pad :: data) := by
  constructor
  · intro h
    refine ⟨pad, rfl, ?_, ?_, ?_⟩
    · by_contra h1; exact h (.inl (by omega))
    · have h7 : pad.toNat ≤ 7 := by by_contra h1; exact h (.inl (by omega))
      cases hd : data with
      | nil =>
        have : pad = 0 := by by_contra h1; exact h (.inr (.inl ⟨hd, h1⟩))
        subst this; simp
      | cons d ds => simp; omega
    · have h7 : pad.toNat ≤ 7 := by by_contra h1; exact h (.inl (by omega))
      by_cases hd : data = []
      · subst hd; simp [beNat_nil]
      · rw [← getLast_mod data hd _ h7]
        by_contra h1
        exact h (.inr (.inr ⟨hd, h1⟩))
  · rintro ⟨p, hp, h1, h2, h3⟩
    simp at hp
    subst hp
    rintro (h | ⟨rfl, h⟩ | ⟨hd, h⟩)
    · omega
    · simp at h2
      exact h (BitVec.eq_of_toNat_eq (by simpa using h2))
    · rw [getLast_mod data hd _ h1] at h
      exact h h3

/-- C26: `ReadASN1BitString` accepts exactly the elements whose contents are a DER bit string, and reports
the data and its length in bits. -/
theorem C26_readBitString_iff (s : Bytes) (v : CB.BitString) (rest : Bytes) :
    readASN1BitString (some s) = .ok (some v, some rest) ↔
      ∃ nbits c e, IsBitString v.bytes nbits c ∧ v.bitLength = nbits ∧ IsElem tagBIT_STRING c e ∧ e.length < 2 ^ 32 ∧
        s = e ++ rest := by
  unfold readASN1BitString
  constructor
  · intro h
    rcases readASN1Tag_cases tagBIT_STRING (some s) with h1 | ⟨t, c, rest', h1, h2, h3, h4, h5⟩ | ⟨c, rest', h1, h2, h3, h4⟩
    · rw [h1] at h; simp at h
    · rw [h5] at h; simp at h
    · rw [h4] at h
      simp at h3
      match c with
      | [] => simp at h
      | pad :: data =>
        simp only [Res.ok_bind] at h
        rw [if_neg (by simp), bitStringOfContent_eq] at h
        simp only [Res.ok_bind, Res.ok.injEq, Prod.mk.injEq, Option.some.injEq] at h
        obtain ⟨h5, rfl⟩ := h
        split at h5
        · cases h5
        · rename_i hb
          have hb2 := (bitString_iff pad data).1 hb
          cases h5
          refine ⟨_, _, _, hb2, ?_, isElem_elem h1 h2, h2, h3⟩
          obtain ⟨p, hp, _, h6, _⟩ := hb2
          simp at hp
          subst hp
          show (data.length : Int) * 8 - _ = _
          omega
  · rintro ⟨nbits, c, e, hb, hv, he, hl, rfl⟩
    obtain ⟨rfl, ht⟩ := elem_of_isElem he hl
    obtain ⟨pad, rfl, h1, h2, h3⟩ := hb
    rw [readASN1Tag_elem rest ht hl]
    simp only [Res.ok_bind]
    rw [if_neg (by simp), bitStringOfContent_eq, if_neg]
    · obtain ⟨d, l⟩ := v
      simp only at *
      subst hv
      rw [show (d.length : Int) * 8 - pad.toNat = nbits by omega]
      rfl
    · rw [bitString_iff]
      exact ⟨pad, rfl, h1, by omega, h3⟩

example : IsBitString [0xb0] 4 [4, 0xb0] := ⟨4, rfl, by decide, by decide, by decide⟩
example : readASN1BitString (some [3, 2, 4, 0xb0, 9]) = .ok (some ⟨[0xb0], 4⟩, some [9]) := by decide
/-- A set padding bit is refused. -/
example : readASN1BitString (some [3, 2, 4, 0xb8, 9]) = .ok (none, some [9]) := by decide

/-- C26: `ReadASN1BitStringAsBytes` accepts exactly the bit strings of whole octets. -/
theorem C26_readBitStringAsBytes_iff (s : Bytes) (v : Str) (rest : Bytes) :
    readASN1BitStringAsBytes (some s) = .ok (some v, some rest) ↔
      ∃ data c e, v = some data ∧ IsBitString data (8 * data.length) c ∧ IsElem tagBIT_STRING c e ∧ e.length < 2 ^ 32 ∧
        s = e ++ rest := by
  have slc : ∀ (pad : Byte) (data : Bytes), Str.slice (some (pad :: data)) 1 (Str.len (some (pad :: data))) = .ok (some data) := by
    intro pad data
    have := slice_some (bs := pad :: data) (a := 1) (b := (pad :: data).length) (by simp) (Nat.le_refl _)
    simpa using this
  unfold readASN1BitStringAsBytes
  constructor
  · intro h
    rcases readASN1Tag_cases tagBIT_STRING (some s) with h1 | ⟨t, c, rest', h1, h2, h3, h4, h5⟩ | ⟨c, rest', h1, h2, h3, h4⟩
    · rw [h1] at h; simp at h
    · rw [h5] at h; simp at h
    · rw [h4] at h
      simp at h3
      match c with
      | [] => simp at h
      | pad :: data =>
        simp only [Res.ok_bind] at h
        rw [if_neg (by simp), at_some (by simp)] at h
        simp only [Res.ok_bind, List.getElem_cons_zero, slc] at h
        split at h
        · simp at h
        · rename_i hp
          have hp : pad = 0 := by by_contra h; exact hp h
          simp at h
          obtain ⟨rfl, rfl⟩ := h
          exact ⟨data, _, _, rfl, ⟨pad, rfl, by rw [hp]; decide, by rw [hp]; simp, by rw [hp]; simp [Nat.mod_one]⟩, isElem_elem h1 h2, h2, h3⟩
  · rintro ⟨data, c, e, rfl, hb, he, hl, rfl⟩
    obtain ⟨rfl, ht⟩ := elem_of_isElem he hl
    obtain ⟨pad, rfl, h1, h2, h3⟩ := hb
    have hp : pad = 0 := BitVec.eq_of_toNat_eq (by simp; omega)
    subst hp
    rw [readASN1Tag_elem rest ht hl]
    simp only [Res.ok_bind]
    rw [if_neg (by simp), at_some (by simp)]
    simp only [Res.ok_bind, List.getElem_cons_zero, slc]
    rfl

example : readASN1BitStringAsBytes (some [3, 3, 0, 1, 2, 9]) = .ok (some (some [1, 2]), some [9]) := by decide

/-! ## C27 -/

/-- C27, absent: the next byte is not the tag (or there is none). Nothing is consumed, the default is
returned. -/
theorem C27_absent {α : Type} (s : Str) (tag : Tag) (h : s.bytes.head? ≠ some tag) (rd : Reader α) (d : α) :
    readOptionalASN1 tag s = .ok (some none, s) ∧
    skipOptionalASN1 tag s = .ok (some (), s) ∧
    readOptionalASN1Integer rd tag d s = .ok (some d, s) ∧
    readOptionalASN1OctetString tag s = .ok (some (none, false), s) := by
  have h1 : readOptionalASN1 tag s = .ok (some none, s) := by
    unfold readOptionalASN1; rw [peek_eq]; simp [h]
  refine ⟨h1, ?_, ?_, ?_⟩
  · unfold skipOptionalASN1; rw [peek_eq]; simp [h]
  · unfold readOptionalASN1Integer; rw [h1]; rfl
  · unfold readOptionalASN1OctetString; rw [h1]; rfl

theorem optional_present {s : Str} {tag : Tag} (h : s.bytes.head? = some tag) (r : Option (Option Str)) (s' : Str) :
    readOptionalASN1 tag s = .ok (r, s') ↔ readASN1Tag tag s = .ok (r.bind id, s') ∧ (∀ x, r = some x → x.isSome) := by
  unfold readOptionalASN1
  rw [peek_eq]
  simp only [h, decide_true, Res.ok_bind, if_true]
  obtain ⟨r', s'', _, h1, _, _⟩ := safe_readASN1Tag tag s
  rw [h1]
  cases r' with
  | none =>
    constructor
    · intro h; simp at h; obtain ⟨rfl, rfl⟩ := h; simp
    · rintro ⟨h2, h3⟩
      simp at h2
      obtain ⟨h4, rfl⟩ := h2
      match r with
      | none => rfl
      | some none => exact absurd (h3 none rfl) (by simp)
      | some (some x) => simp at h4
  | some o =>
    constructor
    · intro h; simp at h; obtain ⟨rfl, rfl⟩ := h; simp
    · rintro ⟨h2, h3⟩
      simp at h2
      obtain ⟨h4, rfl⟩ := h2
      match r with
      | none => simp at h4
      | some none => exact absurd (h3 none rfl) (by simp)
      | some (some x) => simp at h4; rw [h4]; rfl

/-- C27, present: `ReadOptionalASN1` behaves as `ReadASN1` and reports presence. -/
theorem C27_present (s : Str) (tag : Tag) (h : s.bytes.head? = some tag) (s' : Str) :
    (∀ c, readOptionalASN1 tag s = .ok (some (some c), s') ↔ readASN1Tag tag s = .ok (some c, s')) ∧
    (readOptionalASN1 tag s = .ok (none, s') ↔ readASN1Tag tag s = .ok (none, s')) ∧
    readOptionalASN1 tag s ≠ .ok (some none, s') := by
  refine ⟨fun c => ?_, ?_, ?_⟩
  · rw [optional_present h]; simp
  · rw [optional_present h]; simp
  · intro h2; have := (optional_present h _ _).1 h2; simp at this

/-- C27, present, for `SkipOptionalASN1`. -/
theorem C27_skip_present (s : Str) (tag : Tag) (h : s.bytes.head? = some tag) : skipOptionalASN1 tag s = skipASN1 tag s := by
  unfold skipOptionalASN1 skipASN1
  rw [peek_eq]
  simp [h]

/-- C27, present, for `ReadOptionalASN1Integer`: success exactly when the explicit element is read by
`ReadASN1` and its content is one integer with nothing behind it. -/
theorem C27_integer_present {α : Type} (rd : Reader α) (d : α) (s : Str) (tag : Tag) (h : s.bytes.head? = some tag) (v : α) (s' : Str) :
    readOptionalASN1Integer rd tag d s = .ok (some v, s') ↔
      ∃ c i, readASN1Tag tag s = .ok (some c, s') ∧ rd c = .ok (some v, i) ∧ i.bytes = [] := by
  have emp : ∀ i : Str, i.empty = true ↔ i.bytes = [] := by
    intro i; simp [Str.empty, Str.len]
  unfold readOptionalASN1Integer
  constructor
  · intro hv
    obtain ⟨r, s1, _, h1, _, _⟩ := safe_readOptionalASN1 tag s
    rw [h1] at hv
    simp only [Res.ok_bind] at hv
    have h2 := (optional_present h _ _).1 h1
    match r with
    | none => simp at hv
    | some none => simp at h2
    | some (some c) =>
      simp only at hv
      obtain ⟨⟨w, i⟩, hw, hv⟩ := Res.bind_eq_ok.1 hv
      cases w with
      | none => simp at hv
      | some w =>
        simp only at hv
        split at hv
        · rename_i he
          simp at hv
          obtain ⟨rfl, rfl⟩ := hv
          exact ⟨c, i, by simpa using h2.1, hw, (emp i).1 he⟩
        · simp at hv
  · rintro ⟨c, i, h1, h2, h3⟩
    have := ((C27_present s tag h s').1 c).2 h1
    rw [this]
    simp only [Res.ok_bind, h2]
    rw [if_pos ((emp i).2 h3)]

/-- C27, present, for `ReadOptionalASN1OctetString`. -/
theorem C27_octetString_present (s : Str) (tag : Tag) (h : s.bytes.head? = some tag) (v : Str) (p : Bool) (s' : Str) :
    readOptionalASN1OctetString tag s = .ok (some (v, p), s') ↔
      p = true ∧ ∃ c i, readASN1Tag tag s = .ok (some c, s') ∧ readASN1Tag tagOCTET_STRING c = .ok (some v, i) ∧ i.bytes = [] := by
  have emp : ∀ i : Str, i.empty = true ↔ i.bytes = [] := by
    intro i; simp [Str.empty, Str.len]
  unfold readOptionalASN1OctetString
  constructor
  · intro hv
    obtain ⟨r, s1, _, h1, _, _⟩ := safe_readOptionalASN1 tag s
    rw [h1] at hv
    simp only [Res.ok_bind] at hv
    have h2 := (optional_present h _ _).1 h1
    match r with
    | none => simp at hv
    | some none => simp at h2
    | some (some c) =>
      simp only at hv
      obtain ⟨⟨w, i⟩, hw, hv⟩ := Res.bind_eq_ok.1 hv
      cases w with
      | none => simp at hv
      | some w =>
        simp only at hv
        split at hv
        · rename_i he
          simp at hv
          obtain ⟨⟨rfl, rfl⟩, rfl⟩ := hv
          exact ⟨rfl, c, i, by simpa using h2.1, hw, (emp i).1 he⟩
        · simp at hv
  · rintro ⟨rfl, c, i, h1, h2, h3⟩
    have := ((C27_present s tag h s').1 c).2 h1
    rw [this]
    simp only [Res.ok_bind, h2]
    rw [if_pos ((emp i).2 h3)]

example : readOptionalASN1Integer readASN1Int64 0xa0 7 (some [0xa0, 3, 2, 1, 5, 9]) = .ok (some 5, some [9]) := by decide
example : readOptionalASN1Integer readASN1Int64 0xa0 7 (some [0x30, 0]) = .ok (some 7, some [0x30, 0]) := by decide
/-- Trailing bytes inside the explicit element make it fail. -/
example : readOptionalASN1Integer readASN1Int64 0xa0 7 (some [0xa0, 4, 2, 1, 5, 9]) = .ok (none, some []) := by decide
example : readOptionalASN1OctetString 0xa0 (some [0xa0, 3, 4, 1, 5]) = .ok (some (some [5], true), some []) := by decide

end Verif.Props
