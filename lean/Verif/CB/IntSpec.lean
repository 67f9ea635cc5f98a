import Verif.CB.Spec
import Mathlib.Tactic.Ring
import Mathlib.Tactic.Positivity
/-!
# INTEGER contents octets (X.690 8.3)
-/
namespace Verif.Spec.DER

/-- The two's complement number in the contents octets (8.3.3). -/
def intValue (c : Bytes) : Int :=
  match c with
  | [] => 0
  | b :: _ => if b.toNat < 128 then (beNat c : Int) else (beNat c : Int) - 256 ^ c.length

/-- 8.3.1: at least one octet; 8.3.2: the first octet and bit 8 of the second are neither all zero nor all
one. -/
def IntMinimal : Bytes → Prop
  | [] => False
  | [_] => True
  | b0 :: b1 :: _ => ¬ (b0 = 0x00 ∧ b1.toNat < 128) ∧ ¬ (b0 = 0xff ∧ 128 ≤ b1.toNat)

instance : (c : Bytes) → Decidable (IntMinimal c)
  | [] => isFalse id
  | [_] => isTrue trivial
  | _ :: _ :: _ => inferInstanceAs (Decidable (_ ∧ _))

/-- `c` are the contents octets of the INTEGER (or ENUMERATED) value `z`. -/
def IsInt (z : Int) (c : Bytes) : Prop := IntMinimal c ∧ intValue c = z

instance (z : Int) (c : Bytes) : Decidable (IsInt z c) := inferInstanceAs (Decidable (_ ∧ _))

/-- Numbers with a two's complement form of `k+1` octets. -/
def InRange (z : Int) (k : Nat) : Prop := -(128 * 256 ^ k : Int) ≤ z ∧ z < 128 * 256 ^ k

theorem intValue_cons (b : Byte) (bs : Bytes) :
    intValue (b :: bs) = (if b.toNat < 128 then (b.toNat : Int) else (b.toNat : Int) - 256) * 256 ^ bs.length + beNat bs := by
  unfold intValue
  rw [beNat_cons]
  simp only [List.length_cons]
  split
  · push_cast; rfl
  · push_cast; rw [Int.pow_succ, Int.sub_mul]; omega

theorem intValue_range {b : Byte} {bs : Bytes} : InRange (intValue (b :: bs)) bs.length := by
  unfold InRange
  rw [intValue_cons]
  have h1 : (beNat bs : Int) < 256 ^ bs.length := by exact_mod_cast beNat_lt bs
  have h2 : (0 : Int) ≤ beNat bs := Int.natCast_nonneg _
  have hb := b.isLt
  have hP : (0 : Int) ≤ 256 ^ bs.length := by positivity
  generalize (256 : Int) ^ bs.length = P at *
  split
  · rename_i h
    have : (b.toNat : Int) * P ≤ 127 * P := Int.mul_le_mul_of_nonneg_right (by omega) hP
    have : (0 : Int) ≤ (b.toNat : Int) * P := Int.mul_nonneg (by omega) hP
    omega
  · rename_i h
    have : ((b.toNat : Int) - 256) * P ≤ (-1) * P := Int.mul_le_mul_of_nonneg_right (by omega) hP
    have : (-128) * P ≤ ((b.toNat : Int) - 256) * P := Int.mul_le_mul_of_nonneg_right (by omega) hP
    omega

/-- Minimality says that one octet less would not do. -/
theorem minimal_iff (b0 b1 : Byte) (bs : Bytes) : IntMinimal (b0 :: b1 :: bs) ↔ ¬ InRange (intValue (b0 :: b1 :: bs)) bs.length := by
  have h1 : (beNat bs : Int) < 256 ^ bs.length := by exact_mod_cast beNat_lt bs
  have h2 : (0 : Int) ≤ beNat bs := Int.natCast_nonneg _
  have hb := b0.isLt
  have hb1 := b1.isLt
  have hP : (0 : Int) < 256 ^ bs.length := by positivity
  have z0 : b0 = 0x00 ↔ b0.toNat = 0 := by rw [← BitVec.toNat_inj]; rfl
  have zf : b0 = 0xff ↔ b0.toNat = 255 := by rw [← BitVec.toNat_inj]; rfl
  unfold IntMinimal InRange
  rw [intValue_cons, beNat_cons, List.length_cons, Int.pow_succ]
  simp only []
  rw [z0, zf]
  push_cast
  generalize (256 : Int) ^ bs.length = P at *
  generalize hx : b0.toNat = x at *
  generalize hy : b1.toNat = y at *
  have hPle := Int.le_of_lt hP
  have hy0 : (0 : Int) ≤ (y : Int) * P := Int.mul_nonneg (by omega) hPle
  have hy1 : (y : Int) * P ≤ 255 * P := Int.mul_le_mul_of_nonneg_right (by omega) hPle
  have e : ∀ w : Int, w * (P * 256) = 256 * (w * P) := by intro w; ring
  rw [e]
  split
  · rename_i hlt
    by_cases hx0 : x = 0
    · subst hx0
      by_cases hy2 : y < 128
      · have : (y : Int) * P ≤ 127 * P := Int.mul_le_mul_of_nonneg_right (by omega) hPle
        refine iff_of_false (fun h => h.1 ⟨rfl, hy2⟩) ?_
        simp only [Int.natCast_zero, Int.zero_mul]
        omega
      · have : 128 * P ≤ (y : Int) * P := Int.mul_le_mul_of_nonneg_right (by omega) hPle
        simp only [Int.natCast_zero, Int.zero_mul]
        omega
    · have : 1 * P ≤ (x : Int) * P := Int.mul_le_mul_of_nonneg_right (by omega) hPle
      omega
  · rename_i hlt
    by_cases hx0 : x = 255
    · subst hx0
      have : (((255 : Nat) : Int) - 256) * P = -P := by push_cast; ring
      rw [this]
      by_cases hy2 : y < 128
      · have : (y : Int) * P ≤ 127 * P := Int.mul_le_mul_of_nonneg_right (by omega) hPle
        omega
      · have : 128 * P ≤ (y : Int) * P := Int.mul_le_mul_of_nonneg_right (by omega) hPle
        omega
    · have : ((x : Int) - 256) * P ≤ (-2) * P := Int.mul_le_mul_of_nonneg_right (by omega) hPle
      omega

theorem InRange.mono {z : Int} {j k : Nat} (h : InRange z j) (hjk : j ≤ k) : InRange z k := by
  unfold InRange at *
  have : (256 : Int) ^ j ≤ 256 ^ k := by exact_mod_cast Nat.pow_le_pow_right (by omega) hjk
  omega

/-- The length of the contents octets is determined by the value. -/
theorem isInt_length {z : Int} {c c' : Bytes} (h : IsInt z c) (h' : IsInt z c') : c.length ≤ c'.length := by
  obtain ⟨hm, hv⟩ := h
  obtain ⟨hm', hv'⟩ := h'
  match c, c' with
  | [], _ => simp
  | _, [] => exact absurd hm' id
  | [_], _ :: _ => simp
  | b0 :: b1 :: bs, b :: bs' =>
    rw [minimal_iff] at hm
    have := intValue_range (b := b) (bs := bs')
    rw [hv'] at this
    rw [hv] at hm
    simp only [List.length_cons]
    apply Decidable.byContradiction
    intro hlt
    exact hm (this.mono (by omega))

theorem intValue_emod (c : Bytes) : intValue c % 256 ^ c.length = beNat c := by
  have h1 : (beNat c : Int) < 256 ^ c.length := by exact_mod_cast beNat_lt c
  have h2 : (0 : Int) ≤ beNat c := Int.natCast_nonneg _
  cases c with
  | nil => simp [intValue, beNat_nil]
  | cons b bs =>
    unfold intValue
    simp only
    split
    · exact Int.emod_eq_of_lt h2 h1
    · rw [Int.sub_emod_right]
      exact Int.emod_eq_of_lt h2 h1

/-- Each INTEGER has exactly one encoding. -/
theorem isInt_unique {z : Int} {c c' : Bytes} (h : IsInt z c) (h' : IsInt z c') : c = c' := by
  have hl : c.length = c'.length := Nat.le_antisymm (isInt_length h h') (isInt_length h' h)
  apply beNat_inj hl
  have h1 := intValue_emod c
  have h2 := intValue_emod c'
  rw [h.2, hl] at h1
  rw [h'.2] at h2
  omega

/-- The `k+1` low octets of a number in range encode it. -/
theorem intValue_toBE {z : Int} {k : Nat} (h : InRange z k) : intValue (toBE (k + 1) (z % 256 ^ (k + 1)).toNat) = z := by
  obtain ⟨b, bs, hb⟩ : ∃ b bs, toBE (k + 1) (z % 256 ^ (k + 1)).toNat = b :: bs := by
    cases hc : toBE (k + 1) (z % 256 ^ (k + 1)).toNat with
    | nil => have := congrArg List.length hc; simp at this
    | cons b bs => exact ⟨b, bs, rfl⟩
  have hlen : (b :: bs).length = k + 1 := by rw [← hb]; simp
  have hpos : (0 : Int) < 256 ^ (k + 1) := by positivity
  have hv := intValue_emod (b :: bs)
  rw [← hb, beNat_toBE, hb, hlen] at hv
  have hr := intValue_range (b := b) (bs := bs)
  simp only [List.length_cons] at hlen
  rw [show bs.length = k by omega] at hr
  rw [hb]
  generalize intValue (b :: bs) = w at *
  have hz0 := Int.emod_nonneg z (Int.ne_of_gt hpos)
  have hz1 := Int.emod_lt_of_pos z hpos
  have e1 : (((z % 256 ^ (k + 1)).toNat % 256 ^ (k + 1) : Nat) : Int) = z % 256 ^ (k + 1) := by
    rw [Nat.mod_eq_of_lt]
    · exact Int.toNat_of_nonneg hz0
    · have : ((z % 256 ^ (k + 1)).toNat : Int) < ((256 ^ (k + 1) : Nat) : Int) := by
        rw [Int.toNat_of_nonneg hz0]; push_cast; exact hz1
      exact_mod_cast this
  rw [e1] at hv
  have hd : (256 : Int) ^ (k + 1) ∣ w - z := Int.dvd_of_emod_eq_zero (Int.emod_eq_emod_iff_emod_sub_eq_zero.1 hv)
  obtain ⟨t, ht⟩ := hd
  unfold InRange at *
  rw [Int.pow_succ] at ht hpos
  generalize (256 : Int) ^ k = P at *
  have : t = 0 := by
    have a1 : P * 256 * t < P * 256 := by omega
    have a2 : -(P * 256) < P * 256 * t := by omega
    rcases Int.lt_trichotomy t 0 with h0 | h0 | h0
    · have : P * 256 * t ≤ P * 256 * (-1) := Int.mul_le_mul_of_nonneg_left (by omega) (by omega)
      omega
    · exact h0
    · have : P * 256 * 1 ≤ P * 256 * t := Int.mul_le_mul_of_nonneg_left (by omega) (by omega)
      omega
  rw [this] at ht
  omega

theorem isInt_toBE {z : Int} {k : Nat} (h : InRange z k) (hmin : k = 0 ∨ ¬ InRange z (k - 1)) :
    IsInt z (toBE (k + 1) (z % 256 ^ (k + 1)).toNat) := by
  refine ⟨?_, intValue_toBE h⟩
  have hv := intValue_toBE h
  have hl := length_toBE (k + 1) (z % 256 ^ (k + 1)).toNat
  match hc : toBE (k + 1) (z % 256 ^ (k + 1)).toNat with
  | [] => rw [hc] at hl; simp at hl
  | [_] => trivial
  | b0 :: b1 :: bs =>
    rw [minimal_iff, ← hc, hv]
    rw [hc] at hl
    simp only [List.length_cons] at hl
    rcases hmin with h0 | h0
    · omega
    · rw [show bs.length = k - 1 by omega]; exact h0

end Verif.Spec.DER
