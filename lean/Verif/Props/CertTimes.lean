import Verif.Cert.TimeLemmas
import Verif.Props.CertAccept
/-!
# C75: validity times are read and written as the standard says

The language of times is `IsUTCTime`, `IsGeneralizedTime` (`Verif.Cert.TimeSpec`): digits, a calendar date, a zone.
Instants are compared through `minuteNumber`, an independent count of days.
-/
namespace Verif.Props
open Verif Verif.Der Verif.Cert Verif.Spec.Cert Verif.Spec.DER

/-- **C75** A UTCTime is accepted exactly if it is well formed, and read as the time it denotes (1950 to 2049). -/
theorem C75_utc (c : Bytes) (t : Time) :
    parseUTCTime c = .ok t ↔ IsUTCTime t.year t.month t.day t.hour t.min t.sec t.offset c := parseUTCTime_iff c t

/-- **C75** A GeneralizedTime is accepted exactly if it is well formed, and read as the time it denotes. -/
theorem C75_generalized (c : Bytes) (t : Time) :
    parseGeneralizedTime c = .ok t ↔ IsGeneralizedTime t.year t.month t.day t.hour t.min t.sec t.offset c :=
  parseGeneralizedTime_iff c t

/-- A time field, either form. -/
def IsTimeField (y : ℤ) (mo d h mi s : ℕ) (offset : ℤ) (w : Bytes) : Prop :=
  ∃ c, w = elem 0x17 c ∧ IsUTCTime y mo d h mi s offset c ∨ w = elem 0x18 c ∧ IsGeneralizedTime y mo d h mi s offset c

theorem timeField_parse {w : Bytes} {t : Time} (rest : Bytes) (hl : w.length < 2 ^ 31)
    (h : IsTimeField t.year t.month t.day t.hour t.min t.sec t.offset w) :
    parseField tyTime {} (w ++ rest) = .ok (t, rest) := by
  obtain ⟨c, (⟨rfl, h⟩ | ⟨rfl, h⟩)⟩ := h
  · have := length_le_elem 0x17 c
    exact parseField_time (tag := 23) rest (by simp) (by omega) (by rw [if_pos rfl]; exact (C75_utc c t).2 h)
  · have := length_le_elem 0x18 c
    exact parseField_time (tag := 24) rest (by simp) (by omega) (by rw [if_neg (by omega)]; exact (C75_generalized c t).2 h)

/-- **C75** What is written for the validity of a certificate: a valid time of the years 1 to 9998 in any zone is written
as the same instant in UTC, with seconds and `Z`, as UTCTime from 1950 to 2049 and as GeneralizedTime otherwise
(RFC 5280 4.1.2.5). -/
theorem C75_written (t : Time) (hy : 1 ≤ t.year ∧ t.year ≤ 9998)
    (hv : ValidCal t.year.toNat t.month t.day t.hour t.min t.sec) (ho : -1440 < t.offset ∧ t.offset < 1440) :
    ∃ y mo d h mi : ℕ, y ≤ 9999 ∧ ValidCal y mo d h mi t.sec ∧
      minuteNumber y mo d h mi 0 = minuteNumber t.year.toNat t.month t.day t.hour t.min t.offset ∧
      tyTime.make {} (toUTC t) = .ok (if 1950 ≤ y ∧ y < 2050 then
          elem 0x17 (dd (y % 100) ++ dd mo ++ dd d ++ dd h ++ dd mi ++ dd t.sec ++ [0x5a])
        else elem 0x18 (dd (y / 100) ++ dd (y % 100) ++ dd mo ++ dd d ++ dd h ++ dd mi ++ dd t.sec ++ [0x5a])) := by
  obtain ⟨h1, h2, h3, h4, h5⟩ := toUTC_spec hy.1 hv ho
  rw [h4] at h1
  rw [h3] at h5
  have hyear : (toUTC t).year ≤ 9999 := by
    have a : (nextDay t).year ≤ t.year + 1 := by unfold nextDay; split <;> [skip; split] <;> dsimp only <;> omega
    have b : (prevDay t).year ≤ t.year := by unfold prevDay; split <;> [skip; split] <;> dsimp only <;> omega
    unfold toUTC
    dsimp only
    split <;> [skip; split] <;> dsimp only <;> omega
  refine ⟨(toUTC t).year.toNat, _, _, _, _, by omega, h1, h5, ?_⟩
  generalize toUTC t = u at *
  obtain ⟨y, mo, d, h, mi, s, o⟩ := u
  dsimp only at *
  subst h3 h4
  obtain ⟨y, rfl⟩ : ∃ n : ℕ, y = n := ⟨y.toNat, by omega⟩
  rw [Int.toNat_natCast] at *
  have hmd : ∀ y m, monthDays y m ≤ 31 := by intro y m; unfold monthDays; split <;> [split; split] <;> omega
  have := hmd y mo
  have hv' := h1
  unfold ValidCal at hv'
  show makeTagged {} (if outsideUTCRange ⟨y, mo, d, h, mi, t.sec, 0⟩ then 24 else 23) false false (fun _ => false)
    (makeTimeBody ⟨y, mo, d, h, mi, t.sec, 0⟩) = _
  have hc : timeCommon ⟨y, mo, d, h, mi, t.sec, 0⟩ = dd mo ++ dd d ++ dd h ++ dd mi ++ dd t.sec ++ [0x5a] := by
    unfold timeCommon
    dsimp only
    rw [if_pos rfl, dd_twoDigits (by omega), dd_twoDigits (by omega), dd_twoDigits (by omega), dd_twoDigits (by omega), dd_twoDigits (by omega)]
  have hlen : ∀ n, (dd n).length = 2 := fun _ => rfl
  have hm : ∀ (tag : Nat) (c : Bytes), c.length < 128 → makeTagged {} tag false false (fun _ => false) (.ok c) = .ok (elem (idOctet 0 tag false) c) := by
    intro tag c hc
    show (Res.ok (makeElem 0 tag false c) : Res Bytes) = _
    rw [makeElem_eq (by omega)]
  unfold makeTimeBody outsideUTCRange
  dsimp only
  by_cases hr : 1950 ≤ y ∧ y < 2050
  · rw [if_pos hr]
    have e : (decide ((y : ℤ) < 1950) || decide ((y : ℤ) ≥ 2050)) = false := by simp; omega
    rw [e]
    simp only [Bool.false_eq_true, if_false, hc]
    by_cases h2 : (y : ℤ) < 2000
    · rw [if_pos h2, Int.toNat_natCast, hm _ _ (by simp [hlen, twoDigits]), ← dd_twoDigits (by omega), show y - 1900 = y % 100 by omega]
      simp only [List.append_assoc]
      rfl
    · rw [if_neg h2, Int.toNat_natCast, hm _ _ (by simp [hlen, twoDigits]), ← dd_twoDigits (by omega), show y - 2000 = y % 100 by omega]
      simp only [List.append_assoc]
      rfl
  · rw [if_neg hr]
    have e : (decide ((y : ℤ) < 1950) || decide ((y : ℤ) ≥ 2050)) = true := by simp; omega
    rw [e]
    simp only [if_true, hc]
    rw [if_neg (by omega), Int.toNat_natCast, hm _ _ (by simp [hlen, twoDigits]), ← dd_twoDigits (by omega), ← dd_twoDigits (by omega)]
    simp only [List.append_assoc]
    rfl

/-- **C75** Reading the written time back gives the same instant (and second), in UTC. -/
theorem C75_roundtrip (t : Time) (hy : 1 ≤ t.year ∧ t.year ≤ 9998)
    (hv : ValidCal t.year.toNat t.month t.day t.hour t.min t.sec) (ho : -1440 < t.offset ∧ t.offset < 1440) :
    ∃ w u, tyTime.make {} (toUTC t) = .ok w ∧ (∀ rest, parseField tyTime {} (w ++ rest) = .ok (u, rest)) ∧ u.offset = 0 ∧ u.sec = t.sec ∧
      minuteNumber u.year.toNat u.month u.day u.hour u.min 0 = minuteNumber t.year.toNat t.month t.day t.hour t.min t.offset := by
  obtain ⟨y, mo, d, h, mi, hy', h1, h2, h3⟩ := C75_written t hy hv ho
  refine ⟨_, ⟨y, mo, d, h, mi, t.sec, 0⟩, h3, ?_, rfl, rfl, by dsimp only; rw [Int.toNat_natCast]; exact h2⟩
  intro rest
  apply timeField_parse
  · split <;> rw [CB.length_elem] <;> simp [dd, lenOctets]
  · split
    · rename_i hr
      refine ⟨_, .inl ⟨rfl, y % 100, dd t.sec, [0x5a], by omega, ?_, by rw [Int.toNat_natCast]; exact h1, .inl rfl, .inl ⟨rfl, rfl⟩, rfl⟩⟩
      split <;> push_cast <;> omega
    · exact ⟨_, .inr ⟨rfl, y, [0x5a], hy', rfl, h1, .inl ⟨rfl, rfl⟩, rfl⟩⟩

/-- **C75** Times in other zones, as attributes of names and requests may hold them: a valid time with an offset in whole minutes
below 100 hours is written with its own date, time of day and offset, and is read back unchanged. -/
theorem C75_zones (t : Time) (hy : 0 ≤ t.year ∧ t.year ≤ 9999) (hv : ValidCal t.year.toNat t.month t.day t.hour t.min t.sec)
    (ho : -6000 < t.offset ∧ t.offset < 6000) :
    ∃ w, tyTime.make {} t = .ok w ∧ IsTimeField t.year t.month t.day t.hour t.min t.sec t.offset w ∧
      ∀ rest, parseField tyTime {} (w ++ rest) = .ok (t, rest) := by
  suffices ∃ w, tyTime.make {} t = .ok w ∧ w.length < 2 ^ 31 ∧ IsTimeField t.year t.month t.day t.hour t.min t.sec t.offset w by
    obtain ⟨w, h1, h2, h3⟩ := this
    exact ⟨w, h1, h3, fun rest => timeField_parse rest h2 h3⟩
  have hz : ∃ z, IsZone t.offset z ∧ z.length ≤ 5 ∧ timeCommon t = dd t.month ++ dd t.day ++ dd t.hour ++ dd t.min ++ dd t.sec ++ z := by
    have hmd : monthDays t.year.toNat t.month ≤ 31 := by unfold monthDays; split <;> [split; split] <;> omega
    have hv' := hv
    unfold ValidCal at hv'
    unfold timeCommon
    rw [dd_twoDigits (n := t.month) (by omega), dd_twoDigits (n := t.day) (by omega), dd_twoDigits (n := t.hour) (by omega),
      dd_twoDigits (n := t.min) (by omega), dd_twoDigits (n := t.sec) (by omega)]
    refine ⟨_, ?_, ?_, rfl⟩
    · unfold IsZone
      by_cases h0 : t.offset = 0
      · left; rw [if_pos h0]; exact ⟨rfl, h0⟩
      · right
        rw [if_neg h0]
        refine ⟨t.offset.natAbs / 60, t.offset.natAbs % 60, by omega, by omega, by omega, ?_⟩
        rw [dd_twoDigits (by omega), dd_twoDigits (by omega)]
        by_cases hp : t.offset > 0
        · left; rw [if_pos hp]; exact ⟨rfl, by omega⟩
        · right; rw [if_neg hp]; exact ⟨rfl, by omega⟩
    · split <;> simp [twoDigits]
  obtain ⟨z, hz, hzl, hc⟩ := hz
  have hlen : ∀ n, (dd n).length = 2 := fun _ => rfl
  have hm : ∀ (tag : Nat) (c : Bytes), c.length < 128 → makeTagged {} tag false false (fun _ => false) (.ok c) = .ok (elem (idOctet 0 tag false) c) := by
    intro tag c hc
    show (Res.ok (makeElem 0 tag false c) : Res Bytes) = _
    rw [makeElem_eq (by omega)]
  obtain ⟨y, hyy⟩ : ∃ n : ℕ, t.year = n := ⟨t.year.toNat, by omega⟩
  show ∃ w, makeTagged {} (if outsideUTCRange t then 24 else 23) false false (fun _ => false) (makeTimeBody t) = .ok w ∧ _
  unfold makeTimeBody outsideUTCRange
  rw [hc, hyy]
  rw [hyy] at hv
  rw [Int.toNat_natCast] at hv ⊢
  by_cases hr : 1950 ≤ y ∧ y < 2050
  · have e : (decide ((y : ℤ) < 1950) || decide ((y : ℤ) ≥ 2050)) = false := by simp; omega
    rw [e]
    simp only [Bool.false_eq_true, if_false]
    have hyr : (if (y : ℤ) < 2000 then (Res.ok (twoDigits (y - 1900) ++ (dd t.month ++ dd t.day ++ dd t.hour ++ dd t.min ++ dd t.sec ++ z)) : Res Bytes)
        else .ok (twoDigits (y - 2000) ++ (dd t.month ++ dd t.day ++ dd t.hour ++ dd t.min ++ dd t.sec ++ z))) =
        .ok (dd (y % 100) ++ dd t.month ++ dd t.day ++ dd t.hour ++ dd t.min ++ dd t.sec ++ z) := by
      rw [dd_twoDigits (n := y % 100) (by omega)]
      simp only [List.append_assoc]
      split
      · rw [show y - 1900 = y % 100 by omega]
      · rw [show y - 2000 = y % 100 by omega]
    rw [hyr, hm _ _ (by simp [hlen]; omega)]
    refine ⟨_, rfl, ?_, _, .inl ⟨rfl, y % 100, dd t.sec, z, by omega, ?_, by rw [Int.toNat_natCast]; exact hv, .inl rfl, hz, rfl⟩⟩
    · rw [CB.length_elem, CB.length_lenOctets]; simp [hlen]; rw [if_pos (by omega)]; omega
    · split <;> push_cast <;> omega
  · have e : (decide ((y : ℤ) < 1950) || decide ((y : ℤ) ≥ 2050)) = true := by simp; omega
    rw [e]
    simp only [if_true]
    rw [if_neg (by omega), ← dd_twoDigits (by omega), ← dd_twoDigits (by omega), hm _ _ (by simp [hlen]; omega)]
    refine ⟨_, rfl, ?_, _, .inr ⟨rfl, y, z, by omega, rfl, hv, hz, by simp only [List.append_assoc]⟩⟩
    rw [CB.length_elem, CB.length_lenOctets]; simp [hlen]; rw [if_pos (by omega)]; omega

/-- A leap day in a zone west of Greenwich, one minute before midnight. -/
def exLeapEve : Time := ⟨2024, 2, 28, 23, 59, 7, -90⟩

example : (1 ≤ exLeapEve.year ∧ exLeapEve.year ≤ 9998) ∧
    ValidCal exLeapEve.year.toNat exLeapEve.month exLeapEve.day exLeapEve.hour exLeapEve.min exLeapEve.sec ∧
    toUTC exLeapEve = ⟨2024, 2, 29, 1, 29, 7, 0⟩ ∧ minuteNumber 2024 2 28 23 59 (-90) = minuteNumber 2024 2 29 1 29 0 := by
  unfold ValidCal; decide +kernel

/-- The same in its own zone, an hour and a half west. -/
example : (0 ≤ exLeapEve.year ∧ exLeapEve.year ≤ 9999) ∧ (-6000 < exLeapEve.offset ∧ exLeapEve.offset < 6000) ∧
    tyTime.make {} exLeapEve = .ok (elem 0x17 (dd 24 ++ dd 2 ++ dd 28 ++ dd 23 ++ dd 59 ++ dd 7 ++ (0x2d :: (dd 1 ++ dd 30)))) := by decide +kernel

/-- The Unix epoch and the day before 1 March of a leap century, by the day count of the specification. -/
example : dayNumber 2026 11 16 - dayNumber 1970 1 1 = 20773 ∧ dayNumber 2000 3 1 - dayNumber 2000 2 28 = 2 ∧
    dayNumber 1900 3 1 - dayNumber 1900 2 28 = 1 := by decide +kernel

example : parseUTCTime [0x35, 0x32, 0x30, 0x32, 0x32, 0x39, 0x30, 0x30, 0x30, 0x30, 0x30, 0x30, 0x5a] = .ok ⟨1952, 2, 29, 0, 0, 0, 0⟩ := by
  decide +kernel

/-- 29 February 1900 does not exist. -/
example : ∀ h mi s o c, ¬ IsGeneralizedTime 1900 2 29 h mi s o c := by
  rintro h mi s o c ⟨y, z, _, h1, h2, _⟩
  have : y = 1900 := by omega
  subst this
  have : monthDays 1900 2 = 28 := by decide +kernel
  unfold ValidCal at h2
  omega

/-! ## Where the code is more liberal than RFC 5280 4.1.2.5 -/

/-- A time as RFC 5280 wants it in a certificate: UTC with seconds and `Z`; UTCTime exactly for 1950 to 2049. -/
def IsRfcTime (y mo d h mi s : ℕ) (w : Bytes) : Prop :=
  ValidCal y mo d h mi s ∧ y ≤ 9999 ∧ w = if 1950 ≤ y ∧ y < 2050 then
      elem 0x17 (dd (y % 100) ++ dd mo ++ dd d ++ dd h ++ dd mi ++ dd s ++ [0x5a])
    else elem 0x18 (dd (y / 100) ++ dd (y % 100) ++ dd mo ++ dd d ++ dd h ++ dd mi ++ dd s ++ [0x5a])

/-- **C76** Every time RFC 5280 allows is read as what it denotes. -/
theorem C76_rfc_times (y mo d h mi s : ℕ) (w rest : Bytes) (hw : IsRfcTime y mo d h mi s w) :
    parseField tyTime {} (w ++ rest) = .ok (⟨y, mo, d, h, mi, s, 0⟩, rest) := by
  obtain ⟨hv, hy, rfl⟩ := hw
  apply timeField_parse
  · split <;> rw [CB.length_elem] <;> simp [dd, lenOctets]
  · split
    · rename_i hr
      refine ⟨_, .inl ⟨rfl, y % 100, dd s, [0x5a], by omega, ?_, by rw [Int.toNat_natCast]; exact hv, .inl rfl, .inl ⟨rfl, rfl⟩, rfl⟩⟩
      split <;> push_cast <;> omega
    · exact ⟨_, .inr ⟨rfl, y, [0x5a], hy, rfl, hv, .inl ⟨rfl, rfl⟩, rfl⟩⟩

example : IsRfcTime 2049 12 31 23 59 59 [0x17, 13, 0x34, 0x39, 0x31, 0x32, 0x33, 0x31, 0x32, 0x33, 0x35, 0x39, 0x35, 0x39, 0x5a] := by
  refine ⟨by unfold ValidCal; decide +kernel, by omega, by decide +kernel⟩

/-- **C76** (negation) Also accepted: a UTCTime without seconds, one with a zone offset (even of 99 hours), and a
GeneralizedTime of a year before 2050. -/
theorem C76_liberal_violated : ∀ w ∈ [elem 0x17 (dd 49 ++ dd 12 ++ dd 31 ++ dd 23 ++ dd 59 ++ [0x5a]),
      elem 0x17 (dd 49 ++ dd 12 ++ dd 31 ++ dd 23 ++ dd 59 ++ dd 59 ++ (0x2d :: (dd 99 ++ dd 59))),
      elem 0x18 (dd 20 ++ dd 49 ++ dd 12 ++ dd 31 ++ dd 23 ++ dd 59 ++ dd 59 ++ [0x5a])],
    (∃ t, parseField tyTime {} w = .ok (t, [])) ∧ ¬ ∃ y mo d h mi s, IsRfcTime y mo d h mi s w := by
  have key : ∀ (w : Bytes) (t : Time), parseField tyTime {} w = .ok (t, []) →
      (t.offset ≠ 0 ∨ w.length ≠ (if 1950 ≤ t.year ∧ t.year < 2050 then 15 else 17)) →
      (∃ t, parseField tyTime {} w = .ok (t, [])) ∧ ¬ ∃ y mo d h mi s, IsRfcTime y mo d h mi s w := by
    intro w t h h'
    refine ⟨⟨t, h⟩, ?_⟩
    rintro ⟨y, mo, d, hh, mi, s, hw⟩
    have := C76_rfc_times y mo d hh mi s w [] hw
    rw [List.append_nil, h] at this
    simp only [Res.ok.injEq, Prod.mk.injEq, and_true] at this
    subst this
    rcases h' with h' | h'
    · exact h' rfl
    · apply h'
      rw [hw.2.2]
      dsimp only
      by_cases hr : 1950 ≤ y ∧ y < 2050
      · rw [if_pos hr, if_pos (by omega)]; rfl
      · rw [if_neg hr, if_neg (by omega)]; rfl
  intro w hw
  simp only [List.mem_cons, List.not_mem_nil, or_false] at hw
  rcases hw with rfl | rfl | rfl
  · exact key _ ⟨2049, 12, 31, 23, 59, 0, 0⟩ (by decide +kernel) (by decide +kernel)
  · exact key _ ⟨2049, 12, 31, 23, 59, 59, -5999⟩ (by decide +kernel) (by decide +kernel)
  · exact key _ ⟨2049, 12, 31, 23, 59, 59, 0⟩ (by decide +kernel) (by decide +kernel)

end Verif.Props
