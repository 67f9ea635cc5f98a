import Verif.Der.GoTime
import Verif.Cert.TimeLemmas
/-! The transcribed `time.Parse` with the check by `Format` accepts exactly the specified times. -/
namespace Verif.Der.GoTime
open Verif.Spec.Cert Verif.Cert

theorem getnum_true (s : Bytes) : getnum s true = num2 s := by
  unfold getnum num2
  match s with
  | [] => rfl
  | [a] => simp
  | a :: b :: u =>
    simp only [isDig, Bool.not_eq_true', Bool.and_eq_false_imp, decide_eq_true_eq, decide_eq_false_iff_not, Bool.and_eq_true, if_true]
    by_cases h1 : 48 ≤ a.toNat <;> by_cases h2 : a.toNat ≤ 57 <;> by_cases h3 : 48 ≤ b.toNat <;> by_cases h4 : b.toNat ≤ 57 <;> simp [h1, h2, h3, h4]

theorem getnum_false {s r r' : Bytes} {v w : Nat} (h : getnum s false = some (v, r)) (h' : getnum r true = some (w, r')) :
    getnum s true = some (v, r) := by
  unfold getnum at h ⊢
  match s with
  | [] => simp at h
  | [a] =>
    simp only at h
    split at h
    · simp at h
    · simp at h
      obtain ⟨_, rfl⟩ := h
      simp [getnum] at h'
  | a :: b :: u =>
    simp only at h ⊢
    split at h
    · simp at h
    · rename_i h1
      rw [if_neg h1]
      split at h
      · rename_i h2
        rw [if_pos h2]; exact h
      · rename_i h2
        simp at h
        obtain ⟨_, rfl⟩ := h
        simp [getnum, h2] at h'

theorem getnum_of_true {s r : Bytes} {v : Nat} (h : getnum s true = some (v, r)) : getnum s false = some (v, r) := by
  unfold getnum at h ⊢
  match s with
  | [] => simp at h
  | [a] => simp at h
  | a :: b :: u =>
    simp only at h ⊢
    split at h
    · simp at h
    · rename_i h1
      rw [if_neg h1]
      split at h
      · rename_i h2
        rw [if_pos h2]; exact h
      · simp at h

theorem getnum_iff {s r : Bytes} {v : Nat} : getnum s true = some (v, r) ↔ v ≤ 99 ∧ s = dd v ++ r := by
  rw [getnum_true, num2_iff]

/-- The fraction, if the layout has seconds. -/
def fracOf (withSec : Bool) (fz : Bytes) : Option (Nat × Bytes) := if withSec then parseFrac fz else some (0, fz)

theorem parse_iff (long withSec : Bool) (s : Bytes) (t : GTime) : parse long withSec s = some t ↔
    ∃ fz v, parseYear long s = some (t.year, dd t.month ++ dd t.day ++ dd t.hour ++ dd t.min ++ (if withSec then dd t.sec else []) ++ fz) ∧
      ValidCal t.year.toNat t.month t.day t.hour t.min t.sec ∧ (withSec = false → t.sec = 0) ∧
      fracOf withSec fz = some (t.nsec, v) ∧ parseTZ v = some (t.offset, []) := by
  constructor
  · intro h
    unfold parse at h
    split at h
    · simp at h
    rename_i year v1 e1
    split at h
    · simp at h
    rename_i month v2 e2
    split at h
    · simp at h
    rename_i hm
    split at h
    · simp at h
    rename_i day v3 e3
    split at h
    · simp at h
    rename_i hour v4 e4
    split at h
    · simp at h
    rename_i hh
    split at h
    · simp at h
    rename_i min v5 e5
    split at h
    · simp at h
    rename_i hmi
    have e4' := getnum_false e4 e5
    obtain ⟨_, rfl⟩ := getnum_iff.1 e2
    obtain ⟨_, rfl⟩ := getnum_iff.1 e3
    obtain ⟨_, rfl⟩ := getnum_iff.1 e4'
    obtain ⟨_, rfl⟩ := getnum_iff.1 e5
    split at h
    · simp at h
    rename_i sec nsec v6 e6
    split at h
    · simp at h
    rename_i off v7 e7
    split at h
    · simp at h
    rename_i hv7
    split at h
    · simp at h
    rename_i hd
    simp only [Option.some.injEq] at h
    subst h
    rw [daysIn_eq] at hd
    rw [not_not] at hv7
    subst hv7
    cases withSec with
    | true =>
      simp only [if_true] at e6 ⊢
      split at e6
      · simp at e6
      rename_i sec' v8 e8
      obtain ⟨_, rfl⟩ := getnum_iff.1 e8
      split at e6
      · simp at e6
      rename_i hs
      split at e6
      · simp at e6
      rename_i ns' v9 e9
      simp only [Option.some.injEq, Prod.mk.injEq] at e6
      obtain ⟨rfl, rfl, rfl⟩ := e6
      refine ⟨v8, v9, by rw [e1]; simp [List.append_assoc], ?_, by simp, e9, e7⟩
      simp only [ValidCal]
      omega
    | false =>
      simp only [Bool.false_eq_true, if_false, Option.some.injEq, Prod.mk.injEq] at e6
      obtain ⟨rfl, rfl, rfl⟩ := e6
      refine ⟨v5, v5, by rw [e1]; simp [List.append_assoc], ?_, by simp, rfl, e7⟩
      simp only [ValidCal]
      omega
  · rintro ⟨fz, v, h1, h2, h3, h4, h5⟩
    obtain ⟨year, month, day, hour, min, sec, nsec, offset⟩ := t
    simp only [ValidCal] at h1 h2 h3 h4 h5
    have hmd : monthDays year.toNat month ≤ 31 := by unfold monthDays; split_ifs <;> omega
    unfold parse
    rw [h1]
    simp only [List.append_assoc]
    rw [getnum_iff.2 ⟨by omega, rfl⟩]
    simp only
    rw [if_neg (by omega), getnum_iff.2 ⟨by omega, rfl⟩]
    simp only
    rw [getnum_of_true (getnum_iff.2 ⟨by omega, rfl⟩)]
    simp only
    rw [if_neg (by omega), getnum_iff.2 ⟨by omega, rfl⟩]
    simp only
    rw [if_neg (by omega)]
    cases withSec with
    | true =>
      simp only [if_true]
      rw [getnum_iff.2 ⟨by omega, rfl⟩]
      simp only
      simp only [fracOf, if_true] at h4
      rw [if_neg (by omega), h4]
      simp only
      rw [h5]
      simp only
      rw [if_neg (by simp), daysIn_eq, if_neg (by omega)]
    | false =>
      simp only [fracOf, Bool.false_eq_true, if_false, Option.some.injEq, Prod.mk.injEq] at h4
      obtain ⟨rfl, rfl⟩ := h4
      simp only [Bool.false_eq_true, if_false, List.nil_append]
      rw [h5]
      simp only
      rw [if_neg (by simp), daysIn_eq, if_neg (by omega), h3 rfl]

theorem appendInt_two {x : Nat} (h : x ≤ 99) : appendInt x 2 = dd x := by
  have : ∀ x : Fin 100, appendInt x 2 = dd x := by decide +kernel
  exact this ⟨x, by omega⟩

theorem decimal_four {x : Nat} (h : x ≤ 9999) : decimal x = (if 1000 ≤ x then [BitVec.ofNat 8 (48 + x / 1000)] else []) ++
    (if 100 ≤ x then [BitVec.ofNat 8 (48 + x / 100 % 10)] else []) ++
    (if 10 ≤ x then [BitVec.ofNat 8 (48 + x / 10 % 10)] else []) ++ [BitVec.ofNat 8 (48 + x % 10)] := by
  have e : ∀ u : Nat, u - u / 10 * 10 = u % 10 := fun u => by omega
  unfold decimal decimalLoop
  by_cases h1 : 10 ≤ x
  · rw [if_pos h1, if_pos h1, decimalLoop]
    by_cases h2 : 100 ≤ x
    · rw [if_pos h2, if_pos (show x / 10 ≥ 10 by omega), decimalLoop]
      by_cases h3 : 1000 ≤ x
      · rw [if_pos h3, if_pos (show x / 10 / 10 ≥ 10 by omega), decimalLoop, if_neg (by omega), e, e, e]
        simp [Nat.div_div_eq_div_mul]
      · rw [if_neg h3, if_neg (by omega), e, e, show x / 10 / 10 = x / 100 % 10 by omega]
        simp
    · rw [if_neg h2, if_neg (by omega), if_neg (by omega), e, show x / 10 % 10 = x / 10 by omega]
      simp
  · rw [if_neg h1, if_neg h1, if_neg (by omega), if_neg (by omega), show x % 10 = x by omega]
    simp

theorem appendInt_four {x : Nat} (h : x ≤ 9999) : appendInt x 4 = dd (x / 100) ++ dd (x % 100) := by
  unfold appendInt
  rw [decimal_four h]
  unfold dd
  rw [show x / 100 / 10 = x / 1000 by omega, show x % 100 / 10 = x / 10 % 10 by omega, show x % 100 % 10 = x % 10 by omega]
  by_cases h1 : 10 ≤ x
  · by_cases h2 : 100 ≤ x
    · by_cases h3 : 1000 ≤ x
      · simp [h1, h2, h3]
      · simp [h1, h2, h3, show x / 1000 = 0 by omega]
    · simp [h1, h2, show ¬ 1000 ≤ x by omega, show x / 1000 = 0 by omega, show x / 100 = 0 by omega, List.replicate]
  · simp [h1, show ¬ 100 ≤ x by omega, show ¬ 1000 ≤ x by omega, show x / 1000 = 0 by omega, show x / 100 = 0 by omega, show x / 10 = 0 by omega, List.replicate]

theorem length_decimalLoop (f u : Nat) : 1 ≤ (decimalLoop (f + 1) u).length := by
  unfold decimalLoop
  split <;> simp

theorem appendInt_long {x : Nat} (h : (appendInt x 2).length = 2) : x ≤ 99 := by
  by_contra hc
  have h1 : 3 ≤ (decimal x).length := by
    unfold decimal decimalLoop
    rw [if_pos (by omega), decimalLoop, if_pos (by omega)]
    have := length_decimalLoop 17 (x / 10 / 10)
    simp; omega
  rw [appendInt, List.length_append] at h
  omega

theorem atoi_dd {x : Nat} (h : x ≤ 99) : atoi (dd x) = some (x : Int) := by
  have : ∀ x : Fin 100, atoi (dd x) = some (x : Int) := by decide +kernel
  exact this ⟨x, by omega⟩

theorem length_dd (x : Nat) : (dd x).length = 2 := rfl

theorem isZone_ne_dot {o : Int} {z : Bytes} (h : IsZone o z) : z.head? ≠ some 0x2e := by
  rcases h with ⟨rfl, _⟩ | ⟨_, _, _, _, _, ⟨rfl, _⟩ | ⟨rfl, _⟩⟩ <;> simp

theorem formatTZ_ne_dot (o : Int) : (formatTZ o).head? ≠ some 0x2e := by
  unfold formatTZ
  split
  · simp
  · dsimp only
    split <;> simp

theorem parseFrac_none {v : Bytes} (h : v.head? ≠ some 0x2e) : parseFrac v = some (0, v) := by
  unfold parseFrac
  split
  · simp at h
  · rfl

theorem tz_iff (off : Int) (v : Bytes) : (parseTZ v = some (off, []) ∧ formatTZ off = v) ↔ (60 : Int) ∣ off ∧ IsZone (off / 60) v := by
  constructor
  · rintro ⟨h1, h2⟩
    unfold parseTZ at h1
    split at h1
    · simp at h1
    rename_i c rest
    split at h1
    · rename_i hc
      simp only [Option.some.injEq, Prod.mk.injEq] at h1
      obtain ⟨rfl, rfl⟩ := h1
      rw [hc]
      exact ⟨by simp, .inl ⟨rfl, by simp⟩⟩
    rename_i hc
    split at h1
    · simp at h1
    rename_i hl
    split at h1
    · simp at h1
    rename_i hr e1
    split at h1
    · simp at h1
    rename_i mm e2
    have key : ∃ o : Int, off = o * 60 ∧ rest.drop 4 = [] := by
      split at h1
      · simp only [Option.some.injEq, Prod.mk.injEq] at h1
        exact ⟨_, h1.1.symm, h1.2⟩
      · split at h1
        · simp only [Option.some.injEq, Prod.mk.injEq] at h1
          exact ⟨-(hr * 60 + mm), by rw [← h1.1]; ring, h1.2⟩
        · simp at h1
    obtain ⟨o, rfl, hd⟩ := key
    have hlen : (c :: rest).length = 5 := by
      rw [List.drop_eq_nil_iff] at hd
      simp only [List.length_cons] at hl ⊢
      omega
    refine ⟨by simp, ?_⟩
    rw [Int.mul_ediv_cancel _ (by norm_num)]
    unfold formatTZ at h2
    split at h2
    · rw [← h2] at hlen
      simp at hlen
    rename_i ho
    dsimp only at h2
    rw [Int.mul_tdiv_cancel _ (by norm_num)] at h2
    have hm : appendInt (o.natAbs % 60) 2 = dd (o.natAbs % 60) := appendInt_two (by omega)
    have hh : o.natAbs / 60 ≤ 99 := by
      apply appendInt_long
      rw [← h2, hm] at hlen
      simp [length_dd] at hlen
      omega
    rw [appendInt_two hh, hm] at h2
    refine .inr ⟨o.natAbs / 60, o.natAbs % 60, hh, by omega, by omega, ?_⟩
    split at h2
    · exact .inr ⟨h2.symm, by omega⟩
    · exact .inl ⟨h2.symm, by omega⟩
  · rintro ⟨⟨o, rfl⟩, h⟩
    rw [Int.mul_ediv_cancel_left _ (by norm_num)] at h
    rcases h with ⟨rfl, rfl⟩ | ⟨h, m, h1, h2, h3, h4⟩
    · exact ⟨rfl, rfl⟩
    · have a1 := atoi_dd h1
      have a2 := atoi_dd (x := m) (by omega)
      rcases h4 with ⟨rfl, rfl⟩ | ⟨rfl, rfl⟩
      · constructor
        · unfold parseTZ
          dsimp only
          rw [if_neg (by decide), if_neg (by simp [length_dd]), List.take_append_of_le_length (by simp [length_dd]),
            List.take_of_length_le (by simp [length_dd]), a1]
          simp only
          rw [List.drop_append_of_le_length (by simp [length_dd]), List.drop_of_length_le (by simp [length_dd]), List.nil_append,
            List.take_of_length_le (by simp [length_dd]), a2]
          simp only [if_true]
          rw [List.drop_of_length_le (by simp [length_dd]), mul_comm]
        · unfold formatTZ
          rw [if_neg (by omega)]
          dsimp only
          rw [Int.mul_tdiv_cancel_left _ (by norm_num), if_neg (by omega)]
          rw [show ((h : Int) * 60 + m).natAbs / 60 = h by omega, show ((h : Int) * 60 + m).natAbs % 60 = m by omega,
            appendInt_two h1, appendInt_two (by omega)]
      · constructor
        · unfold parseTZ
          dsimp only
          rw [if_neg (by decide), if_neg (by simp [length_dd]), List.take_append_of_le_length (by simp [length_dd]),
            List.take_of_length_le (by simp [length_dd]), a1]
          simp only
          rw [List.drop_append_of_le_length (by simp [length_dd]), List.drop_of_length_le (by simp [length_dd]), List.nil_append,
            List.take_of_length_le (by simp [length_dd]), a2]
          simp only
          rw [if_neg (by decide)]
          simp only [if_true]
          rw [List.drop_of_length_le (by simp [length_dd])]
          congr 2
          ring
        · unfold formatTZ
          rw [if_neg (by omega)]
          dsimp only
          rw [Int.mul_tdiv_cancel_left _ (by norm_num), if_pos (by omega)]
          rw [show (-((h : Int) * 60 + m)).natAbs / 60 = h by omega, show (-((h : Int) * 60 + m)).natAbs % 60 = m by omega,
            appendInt_two h1, appendInt_two (by omega)]

theorem digit_bounds {c : Byte} (h : isDig c = true) : 0x30 ≤ c.toNat ∧ c.toNat ≤ 0x39 := by
  simpa [isDig] using h

theorem parseYear_long_le {s r : Bytes} {y : Int} (h : parseYear true s = some (y, r)) : 0 ≤ y ∧ y ≤ 9999 ∧ r = s.drop 4 := by
  unfold parseYear at h
  simp only [if_true] at h
  split at h
  · simp at h
  rename_i hl
  split at h
  · simp at h
  rename_i y' e
  simp only [Option.some.injEq, Prod.mk.injEq] at h
  obtain ⟨rfl, rfl⟩ := h
  refine ⟨?_, ?_, rfl⟩ <;>
  · match s with
    | [] | [_] | [_, _] | [_, _, _] => simp at hl
    | a :: b :: c :: d :: u =>
      simp [isDigit] at hl
      have ha := digit_bounds hl
      rw [show (a :: b :: c :: d :: u).take 4 = [a, b, c, d] from rfl] at e
      unfold atoi at e
      dsimp only at e
      rw [if_neg (by rintro (rfl | rfl) <;> simp at ha)] at e
      by_cases hall : [a, b, c, d].all isDig = true
      · rw [if_pos hall] at e
        simp only [List.all_cons, List.all_nil, Bool.and_true, Bool.and_eq_true] at hall
        have h1 := digit_bounds hall.2.1
        have h2 := digit_bounds hall.2.2.1
        have h3 := digit_bounds hall.2.2.2
        simp only [digVal, List.foldl_cons, List.foldl_nil, Option.some.injEq] at e
        omega
      · rw [if_neg hall] at e
        simp at e

theorem toNat_dig {x : Nat} (h : x ≤ 9) : (BitVec.ofNat 8 (48 + x)).toNat = 48 + x := by
  rw [BitVec.toNat_ofNat]; omega

theorem isDig_ofNat {x : Nat} (h : x ≤ 9) : isDig (BitVec.ofNat 8 (48 + x)) = true := by
  unfold isDig
  rw [toNat_dig h]
  simp; omega

theorem parseYear_long {y : Nat} (h : y ≤ 9999) (r : Bytes) : parseYear true (dd (y / 100) ++ dd (y % 100) ++ r) = some ((y : Int), r) := by
  have d1 := isDig_ofNat (x := y / 100 / 10) (by omega)
  have d2 := isDig_ofNat (x := y / 100 % 10) (by omega)
  have d3 := isDig_ofNat (x := y % 100 / 10) (by omega)
  have d4 := isDig_ofNat (x := y % 100 % 10) (by omega)
  have e1 := toNat_dig (x := y / 100 / 10) (by omega)
  have e2 := toNat_dig (x := y / 100 % 10) (by omega)
  have e3 := toNat_dig (x := y % 100 / 10) (by omega)
  have e4 := toNat_dig (x := y % 100 % 10) (by omega)
  have hs : ∀ c : Byte, isDig c = true → ¬ (c = 0x2d ∨ c = 0x2b) := by
    rintro c hc (rfl | rfl) <;> revert hc <;> decide
  unfold parseYear
  rw [if_pos rfl, if_neg (by simp [isDigit, dd, d1])]
  simp only [dd, List.cons_append, List.nil_append, List.take_succ_cons, List.take_zero, List.drop_succ_cons, List.drop_zero]
  unfold atoi
  simp only
  rw [if_neg (hs _ d1), if_pos (by simp only [List.all_cons, List.all_nil, d1, d2, d3, d4]; rfl)]
  simp only [digVal, List.foldl_cons, List.foldl_nil, e1, e2, e3, e4, Option.some.injEq, Prod.mk.injEq, and_true]
  omega

theorem parseYear_short {y : Nat} (h : y ≤ 99) (r : Bytes) :
    parseYear false (dd y ++ r) = some (if y ≥ 69 then (y : Int) + 1900 else y + 2000, r) := by
  unfold parseYear
  rw [if_neg (by simp), if_neg (by simp [length_dd]; omega), List.take_append_of_le_length (by simp [length_dd]),
    List.take_of_length_le (by simp [length_dd]), atoi_dd h]
  simp only
  rw [List.drop_append_of_le_length (by simp [length_dd]), List.drop_of_length_le (by simp [length_dd]), List.nil_append]
  congr 2
  by_cases h69 : 69 ≤ y
  · rw [if_pos (by omega), if_pos h69]
  · rw [if_neg (by omega), if_neg h69]

theorem parseYear_rest {s r : Bytes} {y : Int} (h : parseYear false s = some (y, r)) : r = s.drop 2 ∧ 2 ≤ s.length := by
  unfold parseYear at h
  simp only [Bool.false_eq_true, if_false] at h
  split at h
  · simp at h
  rename_i hl
  split at h
  · simp at h
  simp only [Option.some.injEq, Prod.mk.injEq] at h
  exact ⟨h.2.symm, by omega⟩

/-- What `Parse` followed by the check with `Format` accepts, for the layout with four digits of the year. -/
theorem generalized_iff (s : Bytes) (t : GTime) : generalized s = some t ↔
    t.nsec = 0 ∧ (60 : Int) ∣ t.offset ∧ IsGeneralizedTime t.year t.month t.day t.hour t.min t.sec (t.offset / 60) s := by
  unfold generalized
  constructor
  · intro h
    split at h
    · simp at h
    rename_i t' e
    split at h
    · simp at h
    rename_i hf
    rw [not_not] at hf
    simp only [Option.some.injEq] at h
    subst h
    obtain ⟨fz, v, h1, h2, _, h4, h5⟩ := (parse_iff _ _ _ _).1 e
    obtain ⟨y0, y1, hr⟩ := parseYear_long_le h1
    have hv := h2
    simp only [ValidCal] at hv
    have hmd : monthDays t'.year.toNat t'.month ≤ 31 := by unfold monthDays; split_ifs <;> omega
    simp only [format, if_true] at hf
    rw [appendInt_four (by omega), appendInt_two (by omega), appendInt_two (by omega), appendInt_two (by omega), appendInt_two (by omega),
      appendInt_two (by omega)] at hf
    have hfz : fz = formatTZ t'.offset := by
      rw [← hf] at hr
      simp only [if_true] at hr
      have hd : ∀ z : Bytes, (dd (t'.year.toNat / 100) ++ dd (t'.year.toNat % 100) ++ dd t'.month ++ dd t'.day ++ dd t'.hour ++ dd t'.min ++ dd t'.sec ++ z).drop 4 =
          dd t'.month ++ dd t'.day ++ dd t'.hour ++ dd t'.min ++ dd t'.sec ++ z := fun z => rfl
      rw [hd] at hr
      exact List.append_cancel_left hr
    rw [fracOf, if_pos rfl, hfz, parseFrac_none (formatTZ_ne_dot _), Option.some.injEq, Prod.mk.injEq] at h4
    obtain ⟨hn, rfl⟩ := h4
    have hz := (tz_iff _ _).1 ⟨h5, rfl⟩
    exact ⟨hn.symm, hz.1, t'.year.toNat, _, by omega, by omega, h2, hz.2, hf.symm⟩
  · rintro ⟨hn, h60, y, z, h1, h2, h3, h4, rfl⟩
    obtain ⟨hp, hf⟩ := (tz_iff _ _).2 ⟨h60, h4⟩
    have hv := h3
    simp only [ValidCal] at hv
    have hmd : monthDays y t.month ≤ 31 := by unfold monthDays; split_ifs <;> omega
    have hy : t.year.toNat = y := by omega
    have e : parse true true (dd (y / 100) ++ dd (y % 100) ++ dd t.month ++ dd t.day ++ dd t.hour ++ dd t.min ++ dd t.sec ++ z) = some t := by
      rw [parse_iff]
      refine ⟨z, z, ?_, by rw [hy]; exact h3, by simp, by rw [fracOf, if_pos rfl, parseFrac_none (isZone_ne_dot h4), hn], hp⟩
      rw [h2, ← parseYear_long h1]
      simp [List.append_assoc]
    rw [e]
    simp only
    rw [if_neg]
    rw [not_not]
    simp only [format, if_true]
    rw [hy, appendInt_four h1, appendInt_two (by omega), appendInt_two (by omega), appendInt_two (by omega), appendInt_two (by omega),
      appendInt_two (by omega), hf]

theorem utc_core (withSec : Bool) (s : Bytes) (t : GTime) : (parse false withSec s = some t ∧ format false withSec t = s) ↔
    t.nsec = 0 ∧ (60 : Int) ∣ t.offset ∧ (withSec = false → t.sec = 0) ∧ ∃ (yy : Nat) (z : Bytes), yy ≤ 99 ∧
      t.year = (if yy ≥ 69 then (yy : Int) + 1900 else yy + 2000) ∧ ValidCal t.year.toNat t.month t.day t.hour t.min t.sec ∧
      IsZone (t.offset / 60) z ∧
      s = dd yy ++ (dd t.month ++ dd t.day ++ dd t.hour ++ dd t.min ++ (if withSec then dd t.sec else []) ++ z) := by
  have hmd : monthDays t.year.toNat t.month ≤ 31 := by unfold monthDays; split_ifs <;> omega
  constructor
  · rintro ⟨e, hf⟩
    obtain ⟨fz, v, h1, h2, h3, h4, h5⟩ := (parse_iff _ _ _ _).1 e
    obtain ⟨hr, hl⟩ := parseYear_rest h1
    have hv := h2
    simp only [ValidCal] at hv
    simp only [format, Bool.false_eq_true, if_false] at hf
    rw [appendInt_two (x := t.sec) (by omega), appendInt_two (by omega), appendInt_two (by omega), appendInt_two (by omega),
      appendInt_two (by omega), appendInt_two (by omega)] at hf
    simp only [List.append_assoc] at hf
    have hfz : fz = formatTZ t.offset := by
      rw [← hf] at hr
      rw [List.drop_append_of_le_length (by simp [length_dd]), List.drop_of_length_le (by simp [length_dd]), List.nil_append] at hr
      simp only [← List.append_assoc] at hr
      exact List.append_cancel_left hr
    have h4' : fracOf withSec fz = some (0, fz) := by
      unfold fracOf
      split
      · rw [hfz, parseFrac_none (formatTZ_ne_dot _)]
      · rfl
    rw [h4', Option.some.injEq, Prod.mk.injEq] at h4
    obtain ⟨hn, rfl⟩ := h4
    have hz := (tz_iff _ _).1 ⟨h5, hfz.symm⟩
    refine ⟨hn.symm, hz.1, h3, t.year.toNat % 100, _, by omega, ?_, h2, hz.2, by rw [← hf, hfz]; simp only [List.append_assoc]⟩
    rw [← hf, parseYear_short (by omega), Option.some.injEq, Prod.mk.injEq] at h1
    exact h1.1.symm
  · rintro ⟨hn, h60, h0, yy, z, h1, h2, h3, h4, hs⟩
    obtain ⟨hp, hf⟩ := (tz_iff _ _).2 ⟨h60, h4⟩
    have hv := h3
    simp only [ValidCal] at hv
    have hy : t.year.toNat % 100 = yy := by rw [h2]; split <;> omega
    constructor
    · rw [parse_iff]
      refine ⟨z, z, ?_, h3, h0, ?_, hp⟩
      · rw [h2, hs, parseYear_short h1]
      · unfold fracOf
        rw [hn]
        split
        · rw [parseFrac_none (isZone_ne_dot h4)]
        · rfl
    · simp only [format, Bool.false_eq_true, if_false]
      rw [hy, hs, hf, appendInt_two (x := t.sec) (by omega), appendInt_two (by omega), appendInt_two (by omega), appendInt_two (by omega),
        appendInt_two (by omega), appendInt_two (by omega)]
      simp only [List.append_assoc]

theorem parseTZ_digits {x : Nat} (hx : x ≤ 99) (r : Bytes) (off : Int) (w : Bytes) : parseTZ (dd x ++ r) ≠ some (off, w) := by
  have hne : ∀ c ∈ [(0x5a : Byte), 0x2b, 0x2d], BitVec.ofNat 8 (48 + x / 10) ≠ c := by
    have : ∀ x : Fin 100, ∀ c ∈ [(0x5a : Byte), 0x2b, 0x2d], BitVec.ofNat 8 (48 + x / 10) ≠ c := by decide +kernel
    exact this ⟨x, by omega⟩
  intro h
  unfold parseTZ dd at h
  simp only [List.cons_append, List.nil_append] at h
  rw [if_neg (hne _ (by simp))] at h
  split at h
  · simp at h
  split at h
  · simp at h
  split at h
  · simp at h
  rw [if_neg (hne _ (by simp)), if_neg (hne _ (by simp))] at h
  simp at h

/-- What `parseUTCTime` accepts. -/
theorem utc_iff (s : Bytes) (t : GTime) : utc s = some t ↔
    t.nsec = 0 ∧ (60 : Int) ∣ t.offset ∧ IsUTCTime t.year t.month t.day t.hour t.min t.sec (t.offset / 60) s := by
  have fwd : ∀ (withSec : Bool) (r : GTime), parse false withSec s = some r → format false withSec r = s →
      (if r.year ≥ 2050 then some { r with year := r.year - 100 } else some r) = some t →
      t.nsec = 0 ∧ (60 : Int) ∣ t.offset ∧ IsUTCTime t.year t.month t.day t.hour t.min t.sec (t.offset / 60) s := by
    intro withSec r h1 h2 h3
    obtain ⟨hn, h60, h0, yy, z, g1, g2, g3, g4, g5⟩ := (utc_core _ _ _).1 ⟨h1, h2⟩
    have hs : (if withSec then dd r.sec else []) = dd r.sec ∨ (if withSec then dd r.sec else []) = [] ∧ r.sec = 0 := by
      cases withSec with
      | true => exact .inl (by simp)
      | false => exact .inr ⟨by simp, h0 rfl⟩
    split at h3
    · rename_i hy
      simp only [Option.some.injEq] at h3
      subst h3
      dsimp only
      refine ⟨hn, h60, yy, _, z, g1, ?_, ?_, hs, g4, by rw [g5]; simp only [List.append_assoc]⟩
      · split at g2 <;> rw [if_neg (by omega)] <;> omega
      · have h69 : ¬ yy ≥ 69 := by intro h; rw [if_pos h] at g2; omega
        rw [if_neg h69] at g2
        have e1 : r.year.toNat = 2000 + yy := by omega
        have e2 : (r.year - 100).toNat = 1900 + yy := by omega
        rw [e1] at g3
        rw [e2]
        unfold ValidCal at g3 ⊢
        rw [monthDays_century yy _ (by omega) (by omega)] at g3
        exact g3
    · rename_i hy
      simp only [Option.some.injEq] at h3
      subst h3
      refine ⟨hn, h60, yy, _, z, g1, ?_, g3, hs, g4, by rw [g5]; simp only [List.append_assoc]⟩
      split at g2
      · rw [if_neg (by omega)]; omega
      · rw [if_pos (by omega)]; omega
  constructor
  · intro h
    unfold utc at h
    cases h1 : parse false false s with
    | some r =>
      rw [h1] at h
      dsimp only at h
      split at h
      · simp at h
      rename_i hf
      exact fwd false r h1 (not_not.1 hf) h
    | none =>
      rw [h1] at h
      dsimp only at h
      cases h2 : parse false true s with
      | none => rw [h2] at h; simp at h
      | some r =>
        rw [h2] at h
        dsimp only at h
        split at h
        · simp at h
        rename_i hf
        exact fwd true r h2 (not_not.1 hf) h
  · rintro ⟨hn, h60, yy, sec, z, g1, g2, g3, g4, g5, g6⟩
    have key : ∃ (withSec : Bool) (r : GTime), (parse false withSec s = some r ∧ format false withSec r = s) ∧
        (if r.year ≥ 2050 then some { r with year := r.year - 100 } else some r) = some t ∧
        (withSec = true → s = dd yy ++ (dd t.month ++ dd t.day ++ dd t.hour ++ dd t.min ++ (dd t.sec ++ z))) := by
      have hb : ∃ withSec : Bool, sec = (if withSec then dd t.sec else []) ∧ (withSec = false → t.sec = 0) := by
        rcases g4 with h | ⟨h, h'⟩
        · exact ⟨true, by simp [h], by simp⟩
        · exact ⟨false, by simp [h], by simp [h']⟩
      obtain ⟨withSec, hb1, hb2⟩ := hb
      subst hb1
      have hs : withSec = true → s = dd yy ++ (dd t.month ++ dd t.day ++ dd t.hour ++ dd t.min ++ (dd t.sec ++ z)) := by
        rintro rfl
        rw [g6]; simp only [if_true, List.append_assoc]
      by_cases h50 : 50 ≤ yy ∧ yy < 69
      · rw [if_neg (by omega)] at g2
        refine ⟨withSec, { t with year := t.year + 100 }, (utc_core _ _ _).2 ⟨hn, h60, hb2, yy, z, g1, ?_, ?_, g5, ?_⟩, ?_, hs⟩
        · rw [if_neg (by omega)]; dsimp only; omega
        · dsimp only
          have e1 : t.year.toNat = 1900 + yy := by omega
          have e2 : (t.year + 100).toNat = 2000 + yy := by omega
          rw [e1] at g3
          rw [e2]
          unfold ValidCal at g3 ⊢
          rw [monthDays_century yy _ (by omega) (by omega)]
          exact g3
        · rw [g6]; simp only [List.append_assoc]
        · dsimp only
          rw [if_pos (by omega)]
          simp
      · refine ⟨withSec, t, (utc_core _ _ _).2 ⟨hn, h60, hb2, yy, z, g1, ?_, g3, g5, ?_⟩, ?_, hs⟩
        · split at g2 <;> split <;> omega
        · rw [g6]; simp only [List.append_assoc]
        · rw [if_neg (by split at g2 <;> omega)]
    obtain ⟨withSec, r, ⟨h1, h2⟩, h3, h4⟩ := key
    unfold utc
    cases withSec with
    | false =>
      rw [h1]
      dsimp only
      rw [if_neg (by rw [not_not]; exact h2)]
      exact h3
    | true =>
      have hnone : parse false false s = none := by
        cases hp : parse false false s with
        | none => rfl
        | some q =>
          exfalso
          have hs := h4 rfl
          obtain ⟨fz, v, a1, a2, a3, a4, a5⟩ := (parse_iff _ _ _ _).1 hp
          simp only [fracOf, Bool.false_eq_true, if_false, Option.some.injEq, Prod.mk.injEq] at a4
          rw [← a4.2] at a5
          rw [hs, parseYear_short g1, Option.some.injEq, Prod.mk.injEq] at a1
          have a6 := (List.append_inj a1.2 (by simp [length_dd])).2
          rw [← a6] at a5
          have := g3
          unfold ValidCal at this
          exact parseTZ_digits (by omega) _ _ _ a5
      rw [hnone, h1]
      dsimp only
      rw [if_neg (by rw [not_not]; exact h2)]
      exact h3

theorem parseGeneralizedTime_cases (s : Bytes) : (∃ t, parseGeneralizedTime s = .ok t) ∨ parseGeneralizedTime s = .err "parsing time" := by
  unfold parseGeneralizedTime
  split
  · exact .inr rfl
  split
  · exact .inr rfl
  split
  · exact .inr rfl
  · exact .inl ⟨_, rfl⟩

theorem parseUTCTime_cases (s : Bytes) : (∃ t, parseUTCTime s = .ok t) ∨ parseUTCTime s = .err "parsing time" := by
  unfold parseUTCTime
  split
  · exact .inr rfl
  dsimp only
  split
  · exact .inr rfl
  split
  · exact .inl ⟨_, rfl⟩
  · exact .inl ⟨_, rfl⟩

/-- The simplified reader of GeneralizedTime in the DER model is the transcription. -/
theorem parseGeneralizedTime_eq (s : Bytes) :
    parseGeneralizedTime s = (match generalized s with | some t => .ok t.toTime | none => .err "parsing time") := by
  cases h : generalized s with
  | some t =>
    obtain ⟨_, h2, h3⟩ := (generalized_iff _ _).1 h
    dsimp only
    rw [parseGeneralizedTime_iff]
    have : t.offset.tdiv 60 = t.offset / 60 := Int.tdiv_eq_ediv_of_dvd h2
    simp only [GTime.toTime, this]
    exact h3
  | none =>
    rcases parseGeneralizedTime_cases s with ⟨t, ht⟩ | ht
    · exfalso
      have h1 := (parseGeneralizedTime_iff _ _).1 ht
      have h2 : generalized s = some ⟨t.year, t.month, t.day, t.hour, t.min, t.sec, 0, t.offset * 60⟩ := by
        rw [generalized_iff]
        refine ⟨rfl, by simp, ?_⟩
        dsimp only
        rw [Int.mul_ediv_cancel _ (by norm_num)]
        exact h1
      rw [h] at h2
      simp at h2
    · exact ht

/-- The simplified reader of UTCTime in the DER model is the transcription. -/
theorem parseUTCTime_eq (s : Bytes) :
    parseUTCTime s = (match utc s with | some t => .ok t.toTime | none => .err "parsing time") := by
  cases h : utc s with
  | some t =>
    obtain ⟨_, h2, h3⟩ := (utc_iff _ _).1 h
    dsimp only
    rw [parseUTCTime_iff]
    have : t.offset.tdiv 60 = t.offset / 60 := Int.tdiv_eq_ediv_of_dvd h2
    simp only [GTime.toTime, this]
    exact h3
  | none =>
    rcases parseUTCTime_cases s with ⟨t, ht⟩ | ht
    · exfalso
      have h1 := (parseUTCTime_iff _ _).1 ht
      have h2 : utc s = some ⟨t.year, t.month, t.day, t.hour, t.min, t.sec, 0, t.offset * 60⟩ := by
        rw [utc_iff]
        refine ⟨rfl, by simp, ?_⟩
        dsimp only
        rw [Int.mul_ediv_cancel _ (by norm_num)]
        exact h1
      rw [h] at h2
      simp at h2
    · exact ht

end Verif.Der.GoTime
