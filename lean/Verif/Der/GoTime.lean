import Verif.Der.Types
/-!
# `time.Parse` and `time.Time.Format` of Go 1.12 for the layouts of ASN.1 times

Transcribed from Go's time/format.go for the layouts `20060102150405Z0700`, `060102150405Z0700` and `0601021504Z0700`, whose
chunks are (nextStdChunk) stdLongYear or stdYear, stdZeroMonth, stdZeroDay, stdHour, stdZeroMinute, optionally
stdZeroSecond, and stdISO8601TZ. All errors of `Parse` are one here. Simplification: a time is given by its calendar fields
in its own zone and the zone's offset; the way through the instant (`Date`, `addSec`, `abs`) is not modelled.
-/
namespace Verif.Der.GoTime

/-- `time.Time` by its calendar fields; the offset of the zone is in seconds. -/
structure GTime where
  year : Int
  month : Nat
  day : Nat
  hour : Nat
  min : Nat
  sec : Nat
  nsec : Nat := 0
  offset : Int := 0
  deriving DecidableEq, Repr

/-- A decimal digit. -/
def isDig (c : Byte) : Bool := 0x30 ≤ c.toNat && c.toNat ≤ 0x39

/-- `isDigit` (time/format.go). -/
def isDigit (s : Bytes) (i : Nat) : Bool :=
  match s[i]? with
  | none => false
  | some c => isDig c

/-- `getnum` (time/format.go). -/
def getnum (s : Bytes) (fixed : Bool) : Option (Nat × Bytes) :=
  match s with
  | [] => none
  | a :: t =>
    if !isDig a then none
    else
      match t with
      | b :: u =>
        if isDig b then some ((a.toNat - 0x30) * 10 + (b.toNat - 0x30), u)
        else if fixed then none else some (a.toNat - 0x30, t)
      | [] => if fixed then none else some (a.toNat - 0x30, t)

/-- The value of decimal digits. -/
def digVal (s : Bytes) : Nat := s.foldl (fun v c => v * 10 + (c.toNat - 0x30)) 0

/-- `atoi` (time/format.go). The overflow check of `leadingInt` is left out: a number that large is out of range for the
one caller (`parseNanoseconds`) that passes more than four bytes. -/
def atoi (s : Bytes) : Option Int :=
  match s with
  | [] => some 0
  | c :: t =>
    if c = 0x2d ∨ c = 0x2b then (if t.all isDig then some (if c = 0x2d then -(digVal t : Int) else digVal t) else none)
    else if s.all isDig then some (digVal s : Int) else none

/-- `case stdLongYear` and `case stdYear` of `parse` (time/format.go). -/
def parseYear (long : Bool) (value : Bytes) : Option (Int × Bytes) :=
  if long then
    if value.length < 4 || !isDigit value 0 then none
    else
      match atoi (value.take 4) with
      | none => none
      | some y => some (y, value.drop 4)
  else
    if value.length < 2 then none
    else
      match atoi (value.take 2) with
      | none => none
      | some y => some (if y ≥ 69 then y + 1900 else y + 2000, value.drop 2)

/-- The fractional second that is accepted behind the seconds although the layout has none, with `parseNanoseconds`
(time/format.go). -/
def parseFrac (value : Bytes) : Option (Nat × Bytes) :=
  match value with
  | 0x2e :: d :: rest =>
    if isDig d then
      let digits := (d :: rest).takeWhile isDig
      let ns := digVal digits
      if 10 ^ 9 ≤ ns then none
      else some (ns * 10 ^ (9 - digits.length), (d :: rest).dropWhile isDig)
    else some (0, value)
  | _ => some (0, value)

/-- `case stdISO8601TZ` of `parse` (time/format.go). -/
def parseTZ (value : Bytes) : Option (Int × Bytes) :=
  match value with
  | [] => none
  | c :: rest =>
    if c = 0x5a then some (0, rest)
    else if value.length < 5 then none
    else
      match atoi (rest.take 2) with
      | none => none
      | some hr =>
        match atoi ((rest.drop 2).take 2) with
        | none => none
        | some mm =>
          if c = 0x2b then some ((hr * 60 + mm) * 60, rest.drop 4)
          else if c = 0x2d then some (-((hr * 60 + mm) * 60), rest.drop 4)
          else none

/-- `time.Parse` (time/format.go: Parse, parse). `long` is the layout with four digits of the year, `withSec` the one with
seconds. -/
def parse (long withSec : Bool) (value : Bytes) : Option GTime :=
  match parseYear long value with
  | none => none
  | some (year, value) =>
    match getnum value true with
    | none => none
    | some (month, value) =>
      if month = 0 ∨ 12 < month then none
      else
        match getnum value true with
        | none => none
        | some (day, value) =>
          match getnum value false with
          | none => none
          | some (hour, value) =>
            if 24 ≤ hour then none
            else
              match getnum value true with
              | none => none
              | some (min, value) =>
                if 60 ≤ min then none
                else
                  match (if withSec then
                      match getnum value true with
                      | none => none
                      | some (sec, value) =>
                        if 60 ≤ sec then none
                        else
                          match parseFrac value with
                          | none => none
                          | some (ns, value) => some (sec, ns, value)
                    else some (0, 0, value)) with
                  | none => none
                  | some (sec, nsec, value) =>
                    match parseTZ value with
                    | none => none
                    | some (offset, value) =>
                      if value ≠ [] then none
                      else if day < 1 ∨ daysIn month year.toNat < day then none
                      else some ⟨year, month, day, hour, min, sec, nsec, offset⟩

/-- The digits that the loops of `appendInt` (time/format.go) put into the buffer of 20 bytes, which hold every `uint`. -/
def decimalLoop : Nat → Nat → Bytes
  | 0, _ => []
  | fuel + 1, u =>
    if u ≥ 10 then decimalLoop fuel (u / 10) ++ [BitVec.ofNat 8 (48 + (u - u / 10 * 10))] else [BitVec.ofNat 8 (48 + u)]

/-- Decimal digits, at least one. -/
def decimal (x : Nat) : Bytes := decimalLoop 20 x

/-- `appendInt` (time/format.go) for `x ≥ 0`. -/
def appendInt (x width : Nat) : Bytes := List.replicate (width - (decimal x).length) 0x30 ++ decimal x

/-- The zone as `Format` writes it for `Z0700` (time/format.go): seconds of the offset are dropped, the sign is that of the
offset in minutes. Go divides towards zero. -/
def formatTZ (offset : Int) : Bytes :=
  if offset = 0 then [0x5a]
  else
    let zone := offset.tdiv 60
    (if zone < 0 then 0x2d else 0x2b) :: (appendInt (zone.natAbs / 60) 2 ++ appendInt (zone.natAbs % 60) 2)

/-- `Time.Format` (time/format.go: Format, AppendFormat). Years are not negative where this is used: the readers get them
from `parse`, the builder tests them. -/
def format (long withSec : Bool) (t : GTime) : Bytes :=
  (if long then appendInt t.year.toNat 4 else appendInt (t.year.toNat % 100) 2) ++ appendInt t.month 2 ++ appendInt t.day 2 ++
    appendInt t.hour 2 ++ appendInt t.min 2 ++ (if withSec then appendInt t.sec 2 else []) ++ formatTZ t.offset

/-- The time with the offset in minutes. -/
def GTime.toTime (t : GTime) : Time := ⟨t.year, t.month, t.day, t.hour, t.min, t.sec, t.offset.tdiv 60⟩

/-- `parseGeneralizedTime` (Go 1.12 encoding/asn1/asn1.go:355-368) and, with the same text, the reading of the content in
`ReadASN1GeneralizedTime` (/repo/cryptobyte/asn1.go:441-447). -/
def generalized (s : Bytes) : Option GTime :=
  match parse true true s with
  | none => none
  | some res => if format true true res ≠ s then none else some res

/-- `parseUTCTime` (Go 1.12 encoding/asn1/asn1.go:324-351). -/
def utc (s : Bytes) : Option GTime :=
  match (match parse false false s with
    | some ret => some (false, ret)
    | none =>
      match parse false true s with
      | some ret => some (true, ret)
      | none => none) with
  | none => none
  | some (withSec, ret) =>
    if format false withSec ret ≠ s then none
    else if ret.year ≥ 2050 then some { ret with year := ret.year - 100 } else some ret

end Verif.Der.GoTime
