import Verif.Der.RoundTrip
/-!
# Times in certificates (X.680 46 and 47, RFC 5280 4.1.2.5), independently of the model
-/
namespace Verif.Spec.Cert
open Verif

/-- Gregorian leap years. -/
def Leap (y : ℕ) : Prop := 4 ∣ y ∧ (100 ∣ y → 400 ∣ y)

instance (y : ℕ) : Decidable (Leap y) := by unfold Leap; infer_instance

/-- The number of days of a month. -/
def monthDays (y m : ℕ) : ℕ :=
  if m = 2 then (if Leap y then 29 else 28) else if m ∈ [4, 6, 9, 11] then 30 else 31

/-- A calendar date and a time of day. -/
def ValidCal (y mo d h mi s : ℕ) : Prop :=
  1 ≤ mo ∧ mo ≤ 12 ∧ 1 ≤ d ∧ d ≤ monthDays y mo ∧ h ≤ 23 ∧ mi ≤ 59 ∧ s ≤ 59

/-- Two decimal digits. -/
def dd (n : ℕ) : Bytes := [BitVec.ofNat 8 (48 + n / 10), BitVec.ofNat 8 (48 + n % 10)]

/-- A time zone: `Z`, or a sign, hours and minutes; the offset in minutes. -/
def IsZone (offset : ℤ) (z : Bytes) : Prop :=
  (z = [0x5a] ∧ offset = 0) ∨ ∃ h m : ℕ, h ≤ 99 ∧ m ≤ 59 ∧ 0 < h + m ∧
    ((z = 0x2b :: (dd h ++ dd m) ∧ offset = h * 60 + m) ∨ (z = 0x2d :: (dd h ++ dd m) ∧ offset = -(h * 60 + m)))

/-- UTCTime: two digits of the year (1950 to 2049), seconds may be left out. -/
def IsUTCTime (y : ℤ) (mo d h mi s : ℕ) (offset : ℤ) (c : Bytes) : Prop :=
  ∃ (yy : ℕ) (sec z : Bytes), yy ≤ 99 ∧ y = (if yy < 50 then 2000 + yy else 1900 + yy : ℕ) ∧ ValidCal y.toNat mo d h mi s ∧
    (sec = dd s ∨ sec = [] ∧ s = 0) ∧ IsZone offset z ∧ c = dd yy ++ dd mo ++ dd d ++ dd h ++ dd mi ++ sec ++ z

/-- GeneralizedTime with four digits of the year, without fractions of seconds. -/
def IsGeneralizedTime (y : ℤ) (mo d h mi s : ℕ) (offset : ℤ) (c : Bytes) : Prop :=
  ∃ (yyyy : ℕ) (z : Bytes), yyyy ≤ 9999 ∧ y = yyyy ∧ ValidCal yyyy mo d h mi s ∧ IsZone offset z ∧
    c = dd (yyyy / 100) ++ dd (yyyy % 100) ++ dd mo ++ dd d ++ dd h ++ dd mi ++ dd s ++ z

/-! ## Instants -/

/-- A number for every day, consecutive for consecutive days. Years and months count from March, as the leap day then comes
last. -/
def dayNumber (y mo d : ℕ) : ℤ :=
  let y' : ℤ := if mo ≤ 2 then y - 1 else y
  let m' : ℤ := if mo ≤ 2 then mo + 9 else mo - 3
  365 * y' + y' / 4 - y' / 100 + y' / 400 + (153 * m' + 2) / 5 + d

/-- The minute, counted in UTC, of a local date and time with the given offset (in minutes). -/
def minuteNumber (y mo d h mi : ℕ) (offset : ℤ) : ℤ := dayNumber y mo d * 1440 + h * 60 + mi - offset

end Verif.Spec.Cert
