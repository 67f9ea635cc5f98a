import Verif.Base.Basic
/-!
# DER tag-length-value encodings

Written from ITU-T X.690 only: 8.1.2 (identifier octets, single-octet form), 8.1.3 with 10.1 (definite length
in the minimum number of octets), 8.2/11.1 (BOOLEAN), 8.3 (INTEGER), 8.6/11.2 (BIT STRING),
8.7 (OCTET STRING), 8.19 (OBJECT IDENTIFIER). Nothing here refers to the model of the code.
-/
namespace Verif.Spec.DER

/-- An identifier octet whose low five bits are not all ones (X.690 8.1.2.4.1 c forces the
high-tag-number form for those). -/
def LowTag (t : Byte) : Prop := t.toNat % 32 ≠ 31

instance (t : Byte) : Decidable (LowTag t) := inferInstanceAs (Decidable (_ ≠ _))

/-- `bs` are length octets of `n` in definite form (X.690 8.1.3.4, 8.1.3.5) with the minimum number of
octets (10.1). -/
inductive IsLength : Nat → Bytes → Prop
  /-- short form: one octet with bit 8 zero -/
  | short (b : Byte) (h : b.toNat < 128) : IsLength b.toNat [b]
  /-- long form: bit 8 one, the number of subsequent octets in bits 7-1; the subsequent octets encode
  the length, do not start with zero, and the short form would not have been enough -/
  | long (b d : Byte) (ds : Bytes) (hb : b.toNat = 128 + (ds.length + 1)) (hb' : ds.length + 1 < 127)
      (hd : d ≠ 0) (h : 128 ≤ beNat (d :: ds)) : IsLength (beNat (d :: ds)) (b :: d :: ds)

/-- `e` is the encoding of an element with identifier octet `t` and contents octets `c`. -/
def IsElem (t : Byte) (c e : Bytes) : Prop :=
  LowTag t ∧ ∃ l, IsLength c.length l ∧ e = t :: l ++ c

/-- The length octets as a function. -/
def lenOctets (n : Nat) : Bytes :=
  if n < 128 then [BitVec.ofNat 8 n] else BitVec.ofNat 8 (128 + byteLen n) :: natBytes n

/-- The element as a function. -/
def elem (t : Byte) (c : Bytes) : Bytes := t :: (lenOctets c.length ++ c)

theorem ofNat_toNat8 (b : Byte) : BitVec.ofNat 8 b.toNat = b := by simp

theorem byteLen_beNat_cons {d : Byte} (ds : Bytes) (hd : d ≠ 0) : byteLen (beNat (d :: ds)) = ds.length + 1 := by
  have h1 : byteLen (beNat (d :: ds)) ≤ ds.length + 1 := (byteLen_le_iff _ _).2 (by simpa using beNat_lt (d :: ds))
  have h2 : ¬ byteLen (beNat (d :: ds)) ≤ ds.length := by
    rw [byteLen_le_iff, beNat_cons]
    have : 0 < d.toNat := by
      rcases Nat.eq_zero_or_pos d.toNat with h | h
      · exact absurd (BitVec.eq_of_toNat_eq (by simpa using h)) hd
      · exact h
    have : 1 * 256 ^ ds.length ≤ d.toNat * 256 ^ ds.length := Nat.mul_le_mul_right _ this
    omega
  omega

theorem natBytes_beNat_cons {d : Byte} (ds : Bytes) (hd : d ≠ 0) : natBytes (beNat (d :: ds)) = d :: ds := by
  unfold natBytes
  rw [byteLen_beNat_cons ds hd]
  exact toBE_beNat' rfl

/-- The relation and the function agree (for lengths X.690 can encode at all). -/
theorem isLength_iff {n : Nat} {bs : Bytes} (hn : byteLen n < 127) : IsLength n bs ↔ bs = lenOctets n := by
  constructor
  · intro h
    cases h with
    | short b h => simp [lenOctets, h]
    | long b d ds hb hb' hd h =>
      unfold lenOctets
      rw [if_neg (by omega), natBytes_beNat_cons ds hd, byteLen_beNat_cons ds hd, ← hb]
      simp
  · rintro rfl
    unfold lenOctets
    split
    · rename_i h
      have : (BitVec.ofNat 8 n).toNat = n := by simp; omega
      conv => arg 1; rw [← this]
      exact IsLength.short _ (by omega)
    · rename_i h
      have hne : n ≠ 0 := by omega
      cases hb : natBytes n with
      | nil => exact absurd (natBytes_eq_nil.1 hb) hne
      | cons d ds =>
        have hl : byteLen n = ds.length + 1 := by rw [← length_natBytes, hb]; rfl
        have hv : n = beNat (d :: ds) := by rw [← hb]; simp
        have hd : d ≠ 0 := by
          rintro rfl
          have h1 := pow_byteLen_le hne
          have h2 := beNat_lt ds
          rw [beNat_cons] at hv
          simp at hv
          rw [hl] at h1
          simp at h1
          omega
        have := IsLength.long (BitVec.ofNat 8 (128 + byteLen n)) d ds (by simp; omega) (by omega) hd (by omega)
        rwa [← hv] at this

theorem isElem_iff {t : Byte} {c e : Bytes} (hc : byteLen c.length < 127) :
    IsElem t c e ↔ LowTag t ∧ e = elem t c := by
  unfold IsElem elem
  constructor
  · rintro ⟨h1, l, h2, rfl⟩
    rw [(isLength_iff hc).1 h2]
    exact ⟨h1, rfl⟩
  · rintro ⟨h1, rfl⟩
    exact ⟨h1, _, (isLength_iff hc).2 rfl, rfl⟩

end Verif.Spec.DER
