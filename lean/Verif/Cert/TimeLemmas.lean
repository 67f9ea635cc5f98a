import Verif.Cert.TimeSpec
import Verif.Cert.Ext
import Mathlib.Tactic.IntervalCases
/-!
# Times: helper lemmas
-/
namespace Verif.Cert
open Verif Verif.Der Verif.Spec.Cert

theorem dd_twoDigits {n : Nat} (h : n ≤ 99) : dd n = twoDigits n := by
  unfold dd twoDigits
  rw [Nat.mod_eq_of_lt (show n / 10 < 10 by omega)]

theorem digit_eq {a : Byte} (h1 : 0x30 ≤ a.toNat) (h2 : a.toNat ≤ 0x39) : a = BitVec.ofNat 8 (48 + (a.toNat - 0x30)) := by
  apply BitVec.eq_of_toNat_eq
  rw [BitVec.toNat_ofNat]
  omega

theorem num2_iff {bs rest : Bytes} {n : Nat} : num2 bs = some (n, rest) ↔ n ≤ 99 ∧ bs = dd n ++ rest := by
  constructor
  · intro h
    match bs, h with
    | a :: b :: rest', h =>
      simp only [num2] at h
      split at h
      · rename_i hd
        simp only [Option.some.injEq, Prod.mk.injEq] at h
        obtain ⟨rfl, rfl⟩ := h
        refine ⟨by omega, ?_⟩
        unfold dd
        have e1 : ((a.toNat - 0x30) * 10 + (b.toNat - 0x30)) / 10 = a.toNat - 0x30 := by omega
        have e2 : ((a.toNat - 0x30) * 10 + (b.toNat - 0x30)) % 10 = b.toNat - 0x30 := by omega
        rw [e1, e2, ← digit_eq hd.1 hd.2.1, ← digit_eq hd.2.2.1 hd.2.2.2]
        rfl
      · simp at h
    | [], h => simp [num2] at h
    | [_], h => simp [num2] at h
  · rintro ⟨h, rfl⟩
    rw [dd_twoDigits h]
    exact num2_twoDigits (by omega) rest

theorem num2_none {bs : Bytes} (h : num2 bs = none) (n : Nat) (hn : n ≤ 99) (rest : Bytes) : bs ≠ dd n ++ rest := by
  intro e
  rw [num2_iff.2 ⟨hn, e⟩] at h
  simp at h

theorem dd_inj {n m : Nat} {x y : Bytes} (hn : n ≤ 99) (hm : m ≤ 99) (h : dd n ++ x = dd m ++ y) : n = m ∧ x = y := by
  have h1 : num2 (dd n ++ x) = some (n, x) := num2_iff.2 ⟨hn, rfl⟩
  rw [num2_iff.2 ⟨hm, h⟩] at h1
  simp only [Option.some.injEq, Prod.mk.injEq] at h1
  exact ⟨h1.1.symm, h1.2.symm⟩

theorem parseZone_iff {bs : Bytes} {o : Int} : parseZone bs = some o ↔ IsZone o bs := by
  unfold parseZone IsZone
  by_cases hz : bs = [0x5a]
  · rw [if_pos hz]
    subst hz
    simp only [Option.some.injEq, true_and]
    constructor
    · intro h; exact .inl h.symm
    · rintro (h | ⟨_, _, _, _, _, (⟨h, _⟩ | ⟨h, _⟩)⟩)
      · exact h.symm
      · simp [dd] at h
      · simp [dd] at h
  · rw [if_neg hz]
    simp only [hz, false_and, false_or]
    match bs with
    | [] => simp
    | s :: rest =>
      dsimp only
      cases h1 : num2 rest with
      | none =>
        dsimp only
        simp only [reduceCtorEq, List.cons.injEq, false_iff, not_exists]
        rintro h m ⟨hh, _, _, (⟨⟨_, e⟩, _⟩ | ⟨⟨_, e⟩, _⟩)⟩ <;> exact num2_none h1 h hh _ e
      | some p1 =>
        obtain ⟨hh, r1⟩ := p1
        obtain ⟨a1, rfl⟩ := num2_iff.1 h1
        dsimp only
        cases h2 : num2 r1 with
        | none =>
          dsimp only
          simp only [reduceCtorEq, List.cons.injEq, false_iff, not_exists]
          have : ∀ m : Nat, m ≤ 59 → r1 ≠ dd m := by
            intro m hm e
            exact num2_none h2 m (by omega) [] (by simpa using e)
          rintro h m ⟨q1, q2, _, (⟨⟨_, e⟩, _⟩ | ⟨⟨_, e⟩, _⟩)⟩ <;> exact this m q2 (dd_inj a1 q1 e).2
        | some p2 =>
          obtain ⟨mm, r2⟩ := p2
          obtain ⟨a2, rfl⟩ := num2_iff.1 h2
          dsimp only
          constructor
          · intro h
            split at h
            · simp at h
            rename_i hc
            simp only [ne_eq, not_or, not_not] at hc
            obtain ⟨rfl, hc1, hc2⟩ := hc
            refine ⟨hh, mm, a1, by omega, by omega, ?_⟩
            rw [List.append_nil]
            split at h
            · rename_i hs
              simp only [Option.some.injEq] at h
              exact .inl ⟨by rw [hs], by rw [← h]; push_cast; rfl⟩
            · split at h
              · rename_i hs
                simp only [Option.some.injEq] at h
                exact .inr ⟨by rw [hs], by rw [← h]; push_cast; rfl⟩
              · simp at h
          · rintro ⟨h, m, q1, q2, q3, (⟨e, rfl⟩ | ⟨e, rfl⟩)⟩
            · simp only [List.cons.injEq] at e
              obtain ⟨rfl, e⟩ := e
              obtain ⟨rfl, e'⟩ := dd_inj a1 q1 e
              rw [← List.append_nil (dd m)] at e'
              obtain ⟨rfl, rfl⟩ := dd_inj a2 (by omega) e'
              rw [if_neg (by simp; omega), if_pos rfl]
              push_cast; rfl
            · simp only [List.cons.injEq] at e
              obtain ⟨rfl, e⟩ := e
              obtain ⟨rfl, e'⟩ := dd_inj a1 q1 e
              rw [← List.append_nil (dd m)] at e'
              obtain ⟨rfl, rfl⟩ := dd_inj a2 (by omega) e'
              rw [if_neg (by simp; omega), if_neg (by decide), if_pos rfl]
              push_cast; rfl

theorem isLeap_iff (y : Nat) : isLeap y = true ↔ Leap y := by
  unfold isLeap Leap
  simp only [Bool.and_eq_true, Bool.or_eq_true, decide_eq_true_eq]
  omega

theorem daysIn_eq (m y : Nat) : daysIn m y = monthDays y m := by
  unfold daysIn monthDays
  have : (isLeap y = true) = Leap y := propext (isLeap_iff y)
  simp only [this, List.mem_cons, List.not_mem_nil, or_false]

theorem parseAfterYear_iff (year : Nat) (withSec : Bool) (bs : Bytes) (t : Time) :
    parseAfterYear year withSec bs = some t ↔ ∃ sec z, (if withSec then sec = dd t.sec else sec = [] ∧ t.sec = 0) ∧
      t.year = year ∧ ValidCal year t.month t.day t.hour t.min t.sec ∧ IsZone t.offset z ∧
      bs = dd t.month ++ (dd t.day ++ (dd t.hour ++ (dd t.min ++ (sec ++ z)))) := by
  have hmd : ∀ y m, monthDays y m ≤ 31 := by intro y m; unfold monthDays; split <;> [split; split] <;> omega
  constructor
  · intro h
    unfold parseAfterYear at h
    split at h
    · simp at h
    rename_i month b1 e1
    split at h
    · simp at h
    rename_i day b2 e2
    split at h
    · simp at h
    rename_i hour b3 e3
    split at h
    · simp at h
    rename_i min b4 e4
    split at h
    · simp at h
    rename_i sec b5 e5
    split at h
    · simp at h
    rename_i offset e6
    split at h
    swap
    · simp at h
    rename_i hv
    simp only [Option.some.injEq] at h
    subst h
    dsimp only
    obtain ⟨_, rfl⟩ := num2_iff.1 e1
    obtain ⟨_, rfl⟩ := num2_iff.1 e2
    obtain ⟨_, rfl⟩ := num2_iff.1 e3
    obtain ⟨_, rfl⟩ := num2_iff.1 e4
    have hvc : ValidCal year month day hour min sec := by
      rw [daysIn_eq] at hv
      unfold ValidCal; omega
    cases withSec with
    | true =>
      obtain ⟨_, rfl⟩ := num2_iff.1 (show num2 b4 = some (sec, b5) from e5)
      exact ⟨dd sec, b5, by simp, rfl, hvc, parseZone_iff.1 e6, rfl⟩
    | false =>
      have e5' : (0, b4) = (sec, b5) := by simpa using e5
      simp only [Prod.mk.injEq] at e5'
      obtain ⟨rfl, rfl⟩ := e5'
      exact ⟨[], b4, by simp, rfl, hvc, parseZone_iff.1 e6, rfl⟩
  · rintro ⟨sec, z, h1, h2, h3, h4, rfl⟩
    have h3' := h3
    unfold ValidCal at h3'
    have := hmd year t.month
    unfold parseAfterYear
    rw [num2_iff.2 ⟨by omega, rfl⟩]
    dsimp only
    rw [num2_iff.2 ⟨by omega, rfl⟩]
    dsimp only
    rw [num2_iff.2 ⟨by omega, rfl⟩]
    dsimp only
    rw [num2_iff.2 ⟨by omega, rfl⟩]
    dsimp only
    have e5 : (if withSec = true then num2 (sec ++ z) else some (0, sec ++ z)) = some (t.sec, z) := by
      cases withSec with
      | true =>
        simp only [if_true] at h1 ⊢
        rw [h1]
        exact num2_iff.2 ⟨by omega, rfl⟩
      | false =>
        simp only [Bool.false_eq_true, if_false] at h1 ⊢
        rw [h1.1, h1.2]; rfl
    rw [e5]
    dsimp only
    rw [parseZone_iff.2 h4]
    dsimp only
    rw [if_pos (by rw [daysIn_eq]; omega), ← h2]

theorem zone_not_digit {o : Int} {z : Bytes} (h : IsZone o z) (n : Nat) (hn : n ≤ 99) (r : Bytes) : z ≠ dd n ++ r := by
  have hb : ∀ n : Nat, n ≤ 99 → (BitVec.ofNat 8 (48 + n / 10) : Byte).toNat = 48 + n / 10 := by
    intro n hn; rw [BitVec.toNat_ofNat]; omega
  rcases h with ⟨rfl, _⟩ | ⟨_, _, _, _, _, (⟨rfl, _⟩ | ⟨rfl, _⟩)⟩ <;> intro e <;>
    simp only [dd, List.cons_append, List.cons.injEq] at e <;> have := congrArg BitVec.toNat e.1 <;> rw [hb n hn] at this <;>
    simp at this <;> omega

theorem monthDays_century (yy m : Nat) (h : 50 ≤ yy) (h' : yy < 69) : monthDays (2000 + yy) m = monthDays (1900 + yy) m := by
  have : Leap (2000 + yy) ↔ Leap (1900 + yy) := by unfold Leap; omega
  unfold monthDays
  simp only [this]

theorem parseUTCTime_iff (c : Bytes) (t : Time) :
    parseUTCTime c = .ok t ↔ IsUTCTime t.year t.month t.day t.hour t.min t.sec t.offset c := by
  constructor
  · intro h
    unfold parseUTCTime at h
    split at h
    · simp at h
    rename_i yy rest e1
    obtain ⟨hy, rfl⟩ := num2_iff.1 e1
    dsimp only at h
    have key : ∃ (w : Bool) (t' : Time), parseAfterYear (if yy ≥ 69 then 1900 + yy else 2000 + yy) w rest = some t' ∧
        (if t'.year ≥ 2050 then Res.ok { t' with year := t'.year - 100 } else Res.ok t') = Res.ok t := by
      cases hp : parseAfterYear (if yy ≥ 69 then 1900 + yy else 2000 + yy) false rest with
      | some t' => rw [hp] at h; exact ⟨false, t', hp, h⟩
      | none =>
        rw [hp] at h
        dsimp only at h
        cases hq : parseAfterYear (if yy ≥ 69 then 1900 + yy else 2000 + yy) true rest with
        | some t' => rw [hq] at h; exact ⟨true, t', hq, h⟩
        | none => rw [hq] at h; simp at h
    obtain ⟨w, t', k1, k2⟩ := key
    obtain ⟨sec, z, g1, g2, g3, g4, rfl⟩ := (parseAfterYear_iff _ _ _ _).1 k1
    have hsec : sec = dd t'.sec ∨ sec = [] ∧ t'.sec = 0 := by
      cases w with
      | true => left; simpa using g1
      | false => right; simpa using g1
    by_cases h69 : yy ≥ 69
    · rw [if_pos h69] at g2 g3
      rw [if_neg (by omega)] at k2
      simp only [Res.ok.injEq] at k2
      subst k2
      refine ⟨yy, sec, z, hy, by rw [if_neg (by omega)]; exact g2, by rw [g2, Int.toNat_natCast]; exact g3, hsec, g4, by simp⟩
    · rw [if_neg h69] at g2 g3
      by_cases h50 : yy ≥ 50
      · rw [if_pos (by omega)] at k2
        simp only [Res.ok.injEq] at k2
        subst k2
        dsimp only
        have e : t'.year - 100 = ((1900 + yy : Nat) : Int) := by omega
        refine ⟨yy, sec, z, hy, by rw [if_neg (by omega)]; exact e, ?_, hsec, g4, by simp⟩
        rw [e, Int.toNat_natCast]
        unfold ValidCal at g3 ⊢
        rw [← monthDays_century yy _ (by omega) (by omega)]
        exact g3
      · rw [if_neg (by omega)] at k2
        simp only [Res.ok.injEq] at k2
        subst k2
        exact ⟨yy, sec, z, hy, by rw [if_pos (by omega)]; exact g2, by rw [g2, Int.toNat_natCast]; exact g3, hsec, g4, by simp⟩
  · rintro ⟨yy, sec, z, hy, h1, h2, h3, h4, rfl⟩
    unfold parseUTCTime
    simp only [List.append_assoc]
    rw [num2_iff.2 ⟨hy, rfl⟩]
    dsimp only
    -- the time as Go reads it first
    obtain ⟨year, month, day, hour, min, s, offset⟩ := t
    dsimp only at *
    have hv : ValidCal (if yy ≥ 69 then 1900 + yy else 2000 + yy) month day hour min s := by
      rw [h1, Int.toNat_natCast] at h2
      split
      · rw [if_neg (by omega)] at h2; exact h2
      · by_cases h50 : yy < 50
        · rw [if_pos h50] at h2; exact h2
        · rw [if_neg h50] at h2
          unfold ValidCal at h2 ⊢
          rw [monthDays_century yy _ (by omega) (by omega)]
          exact h2
    generalize hT : (⟨((if yy ≥ 69 then 1900 + yy else 2000 + yy : Nat) : Int), month, day, hour, min, s, offset⟩ : Time) = T
    have hp : parseAfterYear (if yy ≥ 69 then 1900 + yy else 2000 + yy) false (dd month ++ (dd day ++ (dd hour ++ (dd min ++ (sec ++ z))))) = some T ∨
        parseAfterYear (if yy ≥ 69 then 1900 + yy else 2000 + yy) false (dd month ++ (dd day ++ (dd hour ++ (dd min ++ (sec ++ z))))) = none ∧
        parseAfterYear (if yy ≥ 69 then 1900 + yy else 2000 + yy) true (dd month ++ (dd day ++ (dd hour ++ (dd min ++ (sec ++ z))))) = some T := by
      subst hT
      rcases h3 with rfl | ⟨rfl, rfl⟩
      · have hnone : parseAfterYear (if yy ≥ 69 then 1900 + yy else 2000 + yy) false (dd month ++ (dd day ++ (dd hour ++ (dd min ++ (dd s ++ z))))) = none := by
          cases hq : parseAfterYear (if yy ≥ 69 then 1900 + yy else 2000 + yy) false (dd month ++ (dd day ++ (dd hour ++ (dd min ++ (dd s ++ z))))) with
          | none => rfl
          | some t' =>
            exfalso
            obtain ⟨sec', z', q1, _, q3, q4, e⟩ := (parseAfterYear_iff _ _ _ _).1 hq
            simp only [Bool.false_eq_true, if_false] at q1
            rw [q1.1, List.nil_append] at e
            have hmd : ∀ y m, monthDays y m ≤ 31 := by intro y m; unfold monthDays; split <;> [split; split] <;> omega
            have m1 := hmd (if yy ≥ 69 then 1900 + yy else 2000 + yy) month
            have m2 := hmd (if yy ≥ 69 then 1900 + yy else 2000 + yy) t'.month
            unfold ValidCal at hv q3
            obtain ⟨_, e⟩ := dd_inj (by omega) (by omega) e
            obtain ⟨_, e⟩ := dd_inj (by omega) (by omega) e
            obtain ⟨_, e⟩ := dd_inj (by omega) (by omega) e
            obtain ⟨_, e⟩ := dd_inj (by omega) (by omega) e
            exact zone_not_digit q4 s (by omega) z e.symm
        exact .inr ⟨hnone, (parseAfterYear_iff _ _ _ _).2 ⟨dd s, z, by simp, rfl, hv, h4, rfl⟩⟩
      · exact .inl ((parseAfterYear_iff _ false _ ⟨((if yy ≥ 69 then 1900 + yy else 2000 + yy : Nat) : Int), month, day, hour, min, 0, offset⟩).2
          ⟨[], z, by simp, rfl, hv, h4, rfl⟩)
    have hq : (if T.year ≥ 2050 then Res.ok { T with year := T.year - 100 } else Res.ok T) = Res.ok (⟨year, month, day, hour, min, s, offset⟩ : Time) := by
      subst hT h1
      dsimp only
      by_cases h69 : yy ≥ 69
      · rw [if_pos h69, if_neg (by omega), if_neg (show ¬ yy < 50 by omega)]
      · rw [if_neg h69]
        by_cases h50 : yy < 50
        · rw [if_neg (by omega), if_pos h50]
        · rw [if_pos (by omega), if_neg h50]
          congr 2
          push_cast
          omega
    rcases hp with hp | ⟨hn, hp⟩
    · rw [hp]; exact hq
    · rw [hn, hp]; exact hq

theorem parseGeneralizedTime_iff (c : Bytes) (t : Time) :
    parseGeneralizedTime c = .ok t ↔ IsGeneralizedTime t.year t.month t.day t.hour t.min t.sec t.offset c := by
  constructor
  · intro h
    unfold parseGeneralizedTime at h
    split at h
    · simp at h
    rename_i cc b1 e1
    obtain ⟨h1, rfl⟩ := num2_iff.1 e1
    split at h
    · simp at h
    rename_i yy b2 e2
    obtain ⟨h2, rfl⟩ := num2_iff.1 e2
    split at h
    · simp at h
    rename_i t' e3
    simp only [Res.ok.injEq] at h
    subst h
    obtain ⟨sec, z, g1, g2, g3, g4, rfl⟩ := (parseAfterYear_iff _ _ _ _).1 e3
    simp only [if_true] at g1
    refine ⟨cc * 100 + yy, z, by omega, g2, g3, g4, ?_⟩
    rw [show (cc * 100 + yy) / 100 = cc by omega, show (cc * 100 + yy) % 100 = yy by omega, g1]
    simp
  · rintro ⟨y, z, h1, h2, h3, h4, rfl⟩
    unfold parseGeneralizedTime
    simp only [List.append_assoc]
    rw [num2_iff.2 ⟨by omega, rfl⟩]
    dsimp only
    rw [num2_iff.2 ⟨by omega, rfl⟩]
    dsimp only
    rw [show y / 100 * 100 + y % 100 = y by omega, (parseAfterYear_iff y true _ t).2 ⟨dd t.sec, z, by simp, h2, h3, h4, rfl⟩]

/-! ## Instants -/

theorem dayNumber_day (y mo d e : Nat) : dayNumber y mo (d + e) = dayNumber y mo d + e := by
  unfold dayNumber; push_cast; omega

theorem dayNumber_month (y mo : Nat) (h1 : 1 ≤ mo) (h2 : mo < 12) :
    dayNumber y (mo + 1) 1 = dayNumber y mo (monthDays y mo) + 1 := by
  unfold dayNumber monthDays
  by_cases hl : Leap y
  · simp only [hl, if_true]
    unfold Leap at hl
    interval_cases mo <;> simp <;> omega
  · simp only [hl, if_false]
    unfold Leap at hl
    interval_cases mo <;> simp <;> omega

theorem dayNumber_year (y : Nat) : dayNumber (y + 1) 1 1 = dayNumber y 12 31 + 1 := by
  unfold dayNumber
  simp
  omega

theorem nextDay_spec {t : Time} (hy : 0 ≤ t.year) (h : ValidCal t.year.toNat t.month t.day t.hour t.min t.sec) :
    ValidCal (nextDay t).year.toNat (nextDay t).month (nextDay t).day t.hour t.min t.sec ∧ 0 ≤ (nextDay t).year ∧
    dayNumber (nextDay t).year.toNat (nextDay t).month (nextDay t).day = dayNumber t.year.toNat t.month t.day + 1 ∧
    (nextDay t).sec = t.sec := by
  obtain ⟨year, month, day, hour, min, sec, offset⟩ := t
  have hmd : ∀ y m, 28 ≤ monthDays y m := by intro y m; unfold monthDays; split <;> [split; split] <;> omega
  unfold nextDay
  dsimp only at *
  rw [daysIn_eq]
  split
  · rename_i hd
    exact ⟨by unfold ValidCal at h ⊢; dsimp only; omega, hy, dayNumber_day _ _ _ 1, rfl⟩
  · rename_i hd
    split
    · rename_i hm
      refine ⟨?_, hy, ?_, rfl⟩
      · have := hmd year.toNat (month + 1)
        unfold ValidCal at h ⊢; dsimp only; omega
      · dsimp only
        have e : day = monthDays year.toNat month := by unfold ValidCal at h; omega
        rw [dayNumber_month _ _ (by unfold ValidCal at h; omega) hm, ← e]
    · rename_i hm
      refine ⟨?_, by dsimp only; omega, ?_, rfl⟩
      · unfold ValidCal at h ⊢
        dsimp only
        have := hmd (year + 1).toNat 1
        omega
      · dsimp only
        have em : month = 12 := by unfold ValidCal at h; omega
        subst em
        have e : day = 31 := by unfold ValidCal monthDays at h; simp at h; unfold monthDays at hd; simp at hd; omega
        subst e
        rw [show (year + 1).toNat = year.toNat + 1 by omega]
        exact dayNumber_year _

theorem prevDay_spec {t : Time} (hy : 1 ≤ t.year) (h : ValidCal t.year.toNat t.month t.day t.hour t.min t.sec) :
    ValidCal (prevDay t).year.toNat (prevDay t).month (prevDay t).day t.hour t.min t.sec ∧ 0 ≤ (prevDay t).year ∧
    dayNumber (prevDay t).year.toNat (prevDay t).month (prevDay t).day + 1 = dayNumber t.year.toNat t.month t.day ∧
    (prevDay t).sec = t.sec := by
  obtain ⟨year, month, day, hour, min, sec, offset⟩ := t
  have hmd : ∀ y m, 28 ≤ monthDays y m := by intro y m; unfold monthDays; split <;> [split; split] <;> omega
  unfold prevDay
  dsimp only at *
  split
  · rename_i hd
    refine ⟨by unfold ValidCal at h ⊢; dsimp only; omega, by dsimp only; omega, ?_, rfl⟩
    dsimp only
    have := dayNumber_day year.toNat month (day - 1) 1
    rw [show day - 1 + 1 = day by omega] at this
    exact this.symm
  · rename_i hd
    have e : day = 1 := by unfold ValidCal at h; omega
    subst e
    split
    · rename_i hm
      rw [daysIn_eq]
      refine ⟨?_, by dsimp only; omega, ?_, rfl⟩
      · have := hmd year.toNat (month - 1)
        unfold ValidCal at h ⊢; dsimp only; omega
      · dsimp only
        have := dayNumber_month year.toNat (month - 1) (by omega) (by unfold ValidCal at h; omega)
        rw [show month - 1 + 1 = month by omega] at this
        exact this.symm
    · rename_i hm
      have e : month = 1 := by unfold ValidCal at h; omega
      subst e
      refine ⟨?_, by dsimp only; omega, ?_, rfl⟩
      · unfold ValidCal at h ⊢
        dsimp only
        unfold monthDays
        simp
        omega
      · dsimp only
        have := dayNumber_year (year - 1).toNat
        rw [show (year - 1).toNat + 1 = year.toNat by omega] at this
        exact this.symm

theorem toUTC_spec {t : Time} (hy : 1 ≤ t.year) (h : ValidCal t.year.toNat t.month t.day t.hour t.min t.sec)
    (ho : -1440 < t.offset ∧ t.offset < 1440) :
    ValidCal (toUTC t).year.toNat (toUTC t).month (toUTC t).day (toUTC t).hour (toUTC t).min (toUTC t).sec ∧ 0 ≤ (toUTC t).year ∧
    (toUTC t).offset = 0 ∧ (toUTC t).sec = t.sec ∧
    minuteNumber (toUTC t).year.toNat (toUTC t).month (toUTC t).day (toUTC t).hour (toUTC t).min (toUTC t).offset =
      minuteNumber t.year.toNat t.month t.day t.hour t.min t.offset := by
  have hh : t.hour ≤ 23 ∧ t.min ≤ 59 := ⟨h.2.2.2.2.1, h.2.2.2.2.2.1⟩
  obtain ⟨n1, n2, n3, n4⟩ := nextDay_spec (t := t) (by omega) h
  obtain ⟨p1, p2, p3, p4⟩ := prevDay_spec hy h
  unfold ValidCal at h n1 p1 ⊢
  unfold toUTC minuteNumber
  dsimp only
  split
  · dsimp only
    refine ⟨?_, p2, rfl, p4, ?_⟩
    · rw [p4]; omega
    · omega
  · split
    · dsimp only
      refine ⟨?_, n2, rfl, n4, ?_⟩
      · rw [n4]; omega
      · omega
    · dsimp only
      refine ⟨?_, by omega, rfl, rfl, ?_⟩ <;> omega

end Verif.Cert
