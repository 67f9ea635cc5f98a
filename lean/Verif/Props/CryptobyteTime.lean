import Verif.CB.Time
import Verif.Cert.GoTimeLemmas
import Verif.Props.CryptobyteRoundTrip
import Verif.Props.CryptobyteRead
/-!
# cryptobyte: GeneralizedTime (C91)
-/
namespace Verif.Props
open Verif Verif.CB Verif.Spec.DER Verif.Spec.Builder Verif.Spec.Cert Verif.Cert Verif.Der.GoTime

/-- The second, counted in UTC, of a local date and time; the offset is in seconds. -/
def secondNumber (t : GTime) : ℤ :=
  dayNumber t.year.toNat t.month t.day * 86400 + t.hour * 3600 + t.min * 60 + t.sec - t.offset

/-- The calendar fields of a time that exists. -/
def ValidTime (t : GTime) : Prop := 0 ≤ t.year ∧ t.year ≤ 9999 ∧ ValidCal t.year.toNat t.month t.day t.hour t.min t.sec

theorem format_eq {t : GTime} (h : ValidTime t) : format true true t = dd (t.year.toNat / 100) ++ dd (t.year.toNat % 100) ++ dd t.month ++
    dd t.day ++ dd t.hour ++ dd t.min ++ dd t.sec ++ formatTZ t.offset := by
  obtain ⟨h1, h2, h3⟩ := h
  have hmd : monthDays t.year.toNat t.month ≤ 31 := by unfold monthDays; split_ifs <;> omega
  simp only [ValidCal] at h3
  simp only [format, if_true]
  rw [appendInt_four (by omega), appendInt_two (by omega), appendInt_two (by omega), appendInt_two (by omega), appendInt_two (by omega),
    appendInt_two (by omega)]

theorem length_decimalLoop_le : ∀ f u : ℕ, (decimalLoop f u).length ≤ f
  | 0, _ => by simp [decimalLoop]
  | f + 1, u => by
    unfold decimalLoop
    split
    · have := length_decimalLoop_le f (u / 10)
      simp; omega
    · simp

theorem length_formatTZ (o : ℤ) : (formatTZ o).length ≤ 43 := by
  have h : ∀ x, (appendInt x 2).length ≤ 20 := by
    intro x
    have h1 := length_decimalLoop_le 20 x
    have h2 := length_decimalLoop 19 x
    simp only [appendInt, decimal, List.length_append, List.length_replicate]
    omega
  unfold formatTZ
  split
  · simp
  · dsimp only
    have h1 := h ((o.tdiv 60).natAbs / 60)
    have h2 := h ((o.tdiv 60).natAbs % 60)
    simp only [List.length_cons, List.length_append]
    omega

theorem lowTag_time : LowTag tagGeneralizedTime := by decide

theorem eval_time {t : GTime} (h : ValidTime t) :
    eval (addASN1GeneralizedTime t .nil) false [] = .done (some (elem tagGeneralizedTime (format true true t))) [] := by
  have hl : (format true true t).length ≤ 57 := by
    have := length_formatTZ t.offset
    rw [format_eq h]
    simp only [List.length_append, length_dd]
    omega
  obtain ⟨h1, h2, _⟩ := h
  unfold addASN1GeneralizedTime
  rw [if_neg (by omega), eval_asn1 (c := format true true t) (by simp [eval, Den.prepend]) lowTag_time, if_pos (by omega)]

theorem length_elem_time {t : GTime} (h : ValidTime t) : (elem tagGeneralizedTime (format true true t)).length < 2 ^ 32 := by
  have := length_formatTZ t.offset
  have hl : (format true true t).length ≤ 57 := by
    rw [format_eq h]
    simp only [List.length_append, length_dd]
    omega
  rw [elem, lenOctets, if_pos (by omega)]
  simp; omega

theorem read_time {t : GTime} (h : ValidTime t) (rest : Bytes) :
    readASN1GeneralizedTime (some (elem tagGeneralizedTime (format true true t) ++ rest)) = .ok (generalized (format true true t), some rest) := by
  unfold readASN1GeneralizedTime
  rw [readASN1Tag_elem rest lowTag_time (length_elem_time h)]
  rfl

theorem isZone_formatTZ {o : ℤ} (h60 : (60 : ℤ) ∣ o) (ho : o.natAbs < 360000) : IsZone (o / 60) (formatTZ o) := by
  obtain ⟨z, rfl⟩ := h60
  rw [Int.mul_ediv_cancel_left _ (by norm_num)]
  unfold formatTZ
  split
  · exact .inl ⟨rfl, by omega⟩
  · dsimp only
    rw [Int.mul_tdiv_cancel_left _ (by norm_num), appendInt_two (by omega), appendInt_two (by omega)]
    refine .inr ⟨z.natAbs / 60, z.natAbs % 60, by omega, by omega, by omega, ?_⟩
    split
    · exact .inr ⟨rfl, by omega⟩
    · exact .inl ⟨rfl, by omega⟩

theorem tdiv_sixty (o : ℤ) : (0 ≤ o ∧ o.tdiv 60 = o / 60) ∨ (o < 0 ∧ o.tdiv 60 = -(-o / 60)) := by
  rcases le_or_gt 0 o with h | h
  · exact .inl ⟨h, Int.tdiv_eq_ediv_of_nonneg h⟩
  · refine .inr ⟨h, ?_⟩
    rw [← Int.tdiv_eq_ediv_of_nonneg (show 0 ≤ -o by omega), Int.neg_tdiv, neg_neg]

/-- C91: the reader never fails abnormally and consumes a prefix. -/
theorem C91_total : Safe0 readASN1GeneralizedTime := by
  refine (safe_readASN1Tag tagGeneralizedTime).post (fun bytes => .ok (generalized bytes.bytes)) ?_ ?_ ?_
  · intro a; exact ⟨_, rfl, by simp⟩
  · intro s s' h; unfold readASN1GeneralizedTime; rw [h]; rfl
  · intro s s' a h; unfold readASN1GeneralizedTime; rw [h]; rfl

/-- C91: the reader accepts exactly the GeneralizedTime elements with four digits of the year, without fractions of a second
and with `Z` or an offset in whole minutes that is not zero, and returns what they say. -/
theorem C91_reader (s rest : Bytes) (t : GTime) : readASN1GeneralizedTime (some s) = .ok (some t, some rest) ↔
    t.nsec = 0 ∧ (60 : ℤ) ∣ t.offset ∧
    ∃ c, IsGeneralizedTime t.year t.month t.day t.hour t.min t.sec (t.offset / 60) c ∧ s = elem 24 c ++ rest := by
  unfold readASN1GeneralizedTime
  constructor
  · intro h
    rcases readASN1Tag_cases tagGeneralizedTime (some s) with h1 | ⟨_, c, rest', h1, h2, h3, h4, h5⟩ | ⟨c, rest', h1, h2, h3, h4⟩
    · rw [h1] at h; simp at h
    · rw [h5] at h; simp at h
    · rw [h4] at h
      simp only [Res.ok_bind, Res.ok.injEq, Prod.mk.injEq, Option.some.injEq] at h h3
      obtain ⟨h, rfl⟩ := h
      obtain ⟨g1, g2, g3⟩ := (generalized_iff _ _).1 h
      exact ⟨g1, g2, c, g3, h3⟩
  · rintro ⟨g1, g2, c, g3, rfl⟩
    have hl : c.length ≤ 20 := by
      obtain ⟨y, z, _, _, _, hz, rfl⟩ := g3
      have : z.length ≤ 5 := by
        rcases hz with ⟨rfl, _⟩ | ⟨_, _, _, _, _, ⟨rfl, _⟩ | ⟨rfl, _⟩⟩ <;> simp [length_dd]
      simp only [List.length_append, length_dd]
      omega
    have : (elem tagGeneralizedTime c).length < 2 ^ 32 := by
      rw [elem, lenOctets, if_pos (by omega)]
      simp; omega
    rw [show (24 : Byte) = tagGeneralizedTime from rfl, readASN1Tag_elem rest lowTag_time this]
    simp only [Res.ok_bind, Res.ok.injEq, Prod.mk.injEq, and_true]
    exact (generalized_iff _ _).2 ⟨g1, g2, g3⟩

/-- C91: years that four digits cannot hold are reported. -/
theorem C91_reported (t : GTime) (h : t.year < 0 ∨ 9999 < t.year) : Reports (addASN1GeneralizedTime t .nil) := by
  refine reports_of_eval ?_
  unfold addASN1GeneralizedTime
  rw [if_pos h]
  simp [eval]

/-- C91, the part that holds: times whose zone has an offset in whole minutes (below 100 hours) are written as GeneralizedTime
elements and read back, without the fraction of the second. -/
theorem C91_roundtrip_partial (t : GTime) (h : ValidTime t) (h60 : (60 : ℤ) ∣ t.offset) (ho : t.offset.natAbs < 360000) :
    (∃ c, IsGeneralizedTime t.year t.month t.day t.hour t.min t.sec (t.offset / 60) c ∧ Writes (addASN1GeneralizedTime t .nil) (elem 24 c)) ∧
    RoundTrips (addASN1GeneralizedTime t .nil) readASN1GeneralizedTime { t with nsec := 0 } := by
  have hg : IsGeneralizedTime t.year t.month t.day t.hour t.min t.sec (t.offset / 60) (format true true t) := by
    obtain ⟨h1, h2, h3⟩ := h
    exact ⟨t.year.toNat, _, by omega, by omega, h3, isZone_formatTZ h60 ho, format_eq ⟨h1, h2, h3⟩⟩
  refine ⟨⟨_, hg, writes_of_eval (eval_time h)⟩, roundTrips_of_eval _ (eval_time h) fun rest => ?_⟩
  rw [read_time h]
  congr 2
  exact (generalized_iff _ _).2 ⟨rfl, h60, hg⟩

/-- C91 is violated for zones whose offset is not in whole minutes (as local mean times are): the element is written without
an error, and reading it fails or gives another instant. -/
theorem C91_seconds_violated (t : GTime) (h : ValidTime t) (h60 : ¬ (60 : ℤ) ∣ t.offset) (ho : t.offset.natAbs < 360000) :
    ∃ e, Writes (addASN1GeneralizedTime t .nil) e ∧ ∀ rest,
      (t.offset.natAbs < 60 → readASN1GeneralizedTime (some (e ++ rest)) = .ok (none, some rest)) ∧
      (60 ≤ t.offset.natAbs → ∃ r, readASN1GeneralizedTime (some (e ++ rest)) = .ok (some r, some rest) ∧ secondNumber r ≠ secondNumber t) := by
  have htd := tdiv_sixty t.offset
  refine ⟨_, writes_of_eval (eval_time h), fun rest => ⟨fun hs => ?_, fun hs => ?_⟩⟩
  · rw [read_time h]
    congr 2
    by_contra hc
    obtain ⟨r, hr⟩ := Option.ne_none_iff_exists'.1 hc
    obtain ⟨_, _, y, z, _, _, _, hz, hf⟩ := (generalized_iff _ _).1 hr
    rw [format_eq h] at hf
    have hz' := (List.append_inj hf (by simp [length_dd])).2
    have hz0 : z = 0x2b :: (dd 0 ++ dd 0) := by
      rw [← hz']
      unfold formatTZ
      rw [if_neg (by rintro h0; rw [h0] at h60; simp at h60)]
      dsimp only
      rw [show t.offset.tdiv 60 = 0 by omega]
      rfl
    subst hz0
    rcases hz with ⟨h1, _⟩ | ⟨a, b, h1, h2, h3, ⟨h4, _⟩ | ⟨h4, _⟩⟩
    · simp [dd] at h1
    · rw [List.cons.injEq] at h4
      obtain ⟨h5, h6⟩ := dd_inj (by omega) h1 h4.2
      have h7 := (dd_inj (n := 0) (m := b) (x := []) (y := []) (by omega) (by omega) (by rw [h6])).1
      omega
    · rw [List.cons.injEq] at h4
      simp at h4
  · have hz : formatTZ t.offset = formatTZ (t.offset.tdiv 60 * 60) := by
      unfold formatTZ
      rw [if_neg (by omega), if_neg (by omega)]
      dsimp only
      rw [Int.mul_tdiv_cancel _ (by norm_num)]
    generalize hq : t.offset.tdiv 60 = q at *
    have hv : ValidTime { t with offset := q * 60, nsec := 0 } := h
    have hf : format true true t = format true true { t with offset := q * 60, nsec := 0 } := by
      rw [format_eq h, format_eq hv, hz]
    have hzone : IsZone (q * 60 / 60) (formatTZ (q * 60)) := isZone_formatTZ (by simp) (by omega)
    refine ⟨{ t with offset := q * 60, nsec := 0 }, ?_, ?_⟩
    · rw [read_time h, hf]
      have h1 := h.1
      have h2 := h.2.1
      have hg : generalized (format true true { t with offset := q * 60, nsec := 0 }) = some { t with offset := q * 60, nsec := 0 } := by
        rw [generalized_iff]
        exact ⟨rfl, Dvd.intro_left _ rfl, t.year.toNat, formatTZ (q * 60), by omega, (Int.toNat_of_nonneg h1).symm, h.2.2, hzone, format_eq hv⟩
      rw [hg]
    · unfold secondNumber
      dsimp only
      intro he
      apply h60
      exact ⟨q, by omega⟩

theorem length_appendInt_hundred {x w : ℕ} (h : 100 ≤ x) : 3 ≤ (appendInt x w).length := by
  have h1 : 1 ≤ (decimalLoop 18 (x / 10 / 10)).length := length_decimalLoop 17 _
  have h2 : decimal x = decimalLoop 18 (x / 10 / 10) ++ [BitVec.ofNat 8 (48 + (x / 10 - x / 10 / 10 * 10))] ++
      [BitVec.ofNat 8 (48 + (x - x / 10 * 10))] := by
    rw [decimal, decimalLoop, if_pos (by omega), decimalLoop, if_pos (by omega)]
  rw [appendInt, h2]
  simp only [List.length_append, List.length_replicate, List.length_cons, List.length_nil]
  omega

/-- C91 is violated for offsets of 100 hours and more, which `time.FixedZone` permits: the element is written without an
error, with three digits or more for the hours, and cannot be read. -/
theorem C91_hours_violated (t : GTime) (h : ValidTime t) (ho : 360000 ≤ t.offset.natAbs) :
    ∃ e, Writes (addASN1GeneralizedTime t .nil) e ∧ ∀ rest, readASN1GeneralizedTime (some (e ++ rest)) = .ok (none, some rest) := by
  refine ⟨_, writes_of_eval (eval_time h), fun rest => ?_⟩
  rw [read_time h]
  congr 2
  by_contra hc
  obtain ⟨r, hr⟩ := Option.ne_none_iff_exists'.1 hc
  obtain ⟨_, _, y, z, _, _, _, hz, hf⟩ := (generalized_iff _ _).1 hr
  rw [format_eq h] at hf
  have hz' := (List.append_inj hf (by simp [length_dd])).2
  have hl : z.length ≤ 5 := by
    rcases hz with ⟨rfl, _⟩ | ⟨_, _, _, _, _, ⟨rfl, _⟩ | ⟨rfl, _⟩⟩ <;> simp [length_dd]
  have htd := tdiv_sixty t.offset
  rw [← hz', formatTZ, if_neg (by omega)] at hl
  dsimp only at hl
  rw [appendInt_two (x := _ % 60) (by omega)] at hl
  have := length_appendInt_hundred (x := (t.offset.tdiv 60).natAbs / 60) (w := 2) (by omega)
  simp only [List.length_cons, List.length_append, length_dd] at hl
  omega

/-- C91, DER: the standard asks for UTC (X.690 11.7.1, the encoding ends with `Z`); for other zones the builder writes an
offset, and the reader accepts it. -/
theorem C91_der_violated (t : GTime) (h : ValidTime t) (h60 : (60 : ℤ) ∣ t.offset) (h0 : t.offset ≠ 0) (ho : t.offset.natAbs < 360000) :
    ∃ e, Writes (addASN1GeneralizedTime t .nil) e ∧ e.getLast? ≠ some 0x5a ∧
      ∀ rest, readASN1GeneralizedTime (some (e ++ rest)) = .ok (some { t with nsec := 0 }, some rest) := by
  refine ⟨_, writes_of_eval (eval_time h), ?_, fun rest => ?_⟩
  · rw [elem, format_eq h, formatTZ, if_neg h0]
    dsimp only
    rw [appendInt_two (x := _ % 60) (by omega)]
    generalize (t.offset.tdiv 60).natAbs % 60 = m
    have hl : ∀ (x y : Bytes), (x ++ (y ++ dd m)).getLast? = some (BitVec.ofNat 8 (48 + m % 10)) := by
      intro x y
      rw [← List.append_assoc, List.getLast?_append]
      rfl
    have hl' : ∀ (x y z : Bytes) (c : Byte), (24 :: (x ++ (y ++ c :: (z ++ dd m)))).getLast? = some (BitVec.ofNat 8 (48 + m % 10)) := by
      intro x y z c
      have := hl (24 :: x ++ y ++ [c]) z
      rw [← this]
      simp
    rw [show tagGeneralizedTime = (24 : Byte) from rfl, hl']
    intro hc
    have hc := congrArg BitVec.toNat (Option.some.inj hc)
    rw [toNat_dig (by omega)] at hc
    simp at hc
    omega
  · rw [read_time h]
    congr 2
    exact (generalized_iff _ _).2 ⟨rfl, h60, t.year.toNat, _, by have := h.2.1; omega, by have := h.1; dsimp only; omega, h.2.2,
      isZone_formatTZ h60 ho, format_eq h⟩

/-- C75: the readers of the DER model are the transcribed `time.Parse` with the check by `Format`. -/
theorem C75_go_parse (s : Bytes) :
    Der.parseGeneralizedTime s = (match generalized s with | some t => .ok t.toTime | none => .err "parsing time") ∧
    Der.parseUTCTime s = (match utc s with | some t => .ok t.toTime | none => .err "parsing time") :=
  ⟨parseGeneralizedTime_eq s, parseUTCTime_eq s⟩

/-- A leap year's in another zone, with nanoseconds. -/
def exGTime : GTime := ⟨2024, 2, 29, 23, 59, 7, 123456789, -5400⟩

example : ValidTime exGTime ∧ (60 : ℤ) ∣ exGTime.offset ∧ exGTime.offset ≠ 0 ∧ exGTime.offset.natAbs < 360000 := by
  unfold ValidTime ValidCal exGTime; decide

/-- `20240229235907-0130` -/
example : format true true exGTime = [0x32, 0x30, 0x32, 0x34, 0x30, 0x32, 0x32, 0x39, 0x32, 0x33, 0x35, 0x39, 0x30, 0x37, 0x2d, 0x30, 0x31, 0x33, 0x30] := by decide +kernel

/-- Amsterdam before 1937, 19 minutes and 32 seconds ahead. -/
def exAmsterdam : GTime := ⟨1936, 5, 1, 12, 0, 0, 0, 1172⟩

example : ValidTime exAmsterdam ∧ ¬ (60 : ℤ) ∣ exAmsterdam.offset ∧ 60 ≤ exAmsterdam.offset.natAbs ∧ exAmsterdam.offset.natAbs < 360000 := by
  unfold ValidTime ValidCal exAmsterdam; decide

/-- 101 hours and 40 minutes ahead: `20240229235907+10140`. -/
def exFarZone : GTime := ⟨2024, 2, 29, 23, 59, 7, 0, 366000⟩

example : ValidTime exFarZone ∧ 360000 ≤ exFarZone.offset.natAbs := by unfold ValidTime ValidCal exFarZone; decide

example : format true true exFarZone = "20240229235907+10140".toList.map (fun x => BitVec.ofNat 8 x.toNat) := by decide +kernel

/-- Fractions of seconds, a zero offset and a one-digit hour are refused. -/
example : ∀ c ∈ ["20240229235907.5Z", "20240229235907+0000", "202402299:5907Z", "20230229235907Z", "20240229235907+9999"],
    generalized (c.toList.map fun x => BitVec.ofNat 8 x.toNat) = none := by decide +kernel

end Verif.Props
