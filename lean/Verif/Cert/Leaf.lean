import Verif.Cert.Utf8
/-!
# Model of the string and bit helpers of /repo/sm2/cert/gmx509.go

Go strings are their bytes. `int`s that only count are `Nat`s.
-/
namespace Verif.Cert
open Verif

/-! ## Domains -/

/-- `strings.LastIndexByte(s, c)`: `none` is -1. -/
def lastIndexByte (c : Byte) : Bytes → Option Nat
  | [] => none
  | b :: bs =>
    match lastIndexByte c bs with
    | some i => some (i + 1)
    | none => if b = c then some 0 else none

/-- The loop `for len(domain) > 0 { … }` of `domainToReverseLabels` (/repo/sm2/cert/gmx509.go:463-471). Every round
shortens `domain`; the fuel (its length) only serves termination. -/
def splitLabels : Nat → Bytes → List Bytes
  | 0, _ => []
  | fuel + 1, domain =>
    if domain = [] then []
    else
      match lastIndexByte 0x2e domain with
      | none => [domain]
      | some i => domain.drop (i + 1) :: splitLabels fuel (domain.take i)

/-- `domainToReverseLabels` (/repo/sm2/cert/gmx509.go:462-493); `none` is `nil, false`. -/
def domainToReverseLabels (domain : Bytes) : Option (List Bytes) :=
  let reverseLabels := splitLabels domain.length domain
  if reverseLabels.head? = some [] then none
  else if reverseLabels.any fun label => label == [] || (Utf8.runes label).any fun c => c < 33 || c > 126 then none
  else some reverseLabels

/-- `isIA5String` (/repo/sm2/cert/gmx509.go:681-689): whether it returns nil. -/
def isIA5String (s : Bytes) : Bool := (Utf8.runes s).all fun r => r < 0x80

/-! ## IP masks -/

/-- The loop of `isValidIPMask` (/repo/sm2/cert/gmx509.go:1463-1479) from state `seenZero`. -/
def isValidIPMaskLoop : Bool → Bytes → Bool
  | _, [] => true
  | true, b :: bs => if b ≠ 0 then false else isValidIPMaskLoop true bs
  | false, b :: bs =>
    if b ∈ ([0x00, 0x80, 0xc0, 0xe0, 0xf0, 0xf8, 0xfc, 0xfe] : List Byte) then isValidIPMaskLoop true bs
    else if b = 0xff then isValidIPMaskLoop false bs
    else false

/-- `isValidIPMask` (/repo/sm2/cert/gmx509.go:1460-1482). -/
def isValidIPMask (mask : Bytes) : Bool := isValidIPMaskLoop false mask

/-! ## Mailboxes -/

/-- The quoted-pair condition (/repo/sm2/cert/gmx509.go:1533-1536). -/
def quotedPairOk (c : Byte) : Bool :=
  c == 11 || c == 12 || (1 ≤ c && c ≤ 9) || (14 ≤ c && c ≤ 127)

/-- The qtext condition (/repo/sm2/cert/gmx509.go:1543-1556). -/
def qtextOk (c : Byte) : Bool :=
  c == 11 || c == 12 || c == 32 || c == 33 || c == 127 || (1 ≤ c && c ≤ 8) || (14 ≤ c && c ≤ 31) ||
    (35 ≤ c && c ≤ 91) || (93 ≤ c && c ≤ 126)

/-- The atext condition (/repo/sm2/cert/gmx509.go:1584-1591), which includes the period. -/
def atextOk (c : Byte) : Bool :=
  (0x30 ≤ c && c ≤ 0x39) || (0x61 ≤ c && c ≤ 0x7a) || (0x41 ≤ c && c ≤ 0x5a) ||
    c == 0x21 || c == 0x23 || c == 0x24 || c == 0x25 || c == 0x26 || c == 0x27 || c == 0x2a || c == 0x2b ||
    c == 0x2d || c == 0x2f || c == 0x3d || c == 0x3f || c == 0x5e || c == 0x5f || c == 0x60 || c == 0x7b ||
    c == 0x7c || c == 0x7d || c == 0x7e || c == 0x2e

/-- Go `s[i]`: out of range panics. -/
def byteAt (s : Bytes) (i : Nat) : Res Byte :=
  match s[i]? with
  | some b => .ok b
  | none => .panic

/-- The loop over a quoted string (/repo/sm2/cert/gmx509.go:1516-1563) after the opening quote, with the local part so
far: the local part and the rest of the input, or `none` for `return mailbox, false`. Every round consumes a byte; the
fuel (more than the length) only serves termination. -/
def quotedLoop : Nat → Bytes → Bytes → Res (Option (Bytes × Bytes))
  | 0, _, _ => .loop
  | fuel + 1, inp, localPart =>
    if inp.length = 0 then .ok none
    else do
      let c ← byteAt inp 0
      let inp := inp.drop 1
      if c = 0x22 then .ok (some (localPart, inp))
      else if c = 0x5c then
        if inp.length = 0 then .ok none
        else do
          let d ← byteAt inp 0
          if quotedPairOk d then quotedLoop fuel (inp.drop 1) (localPart ++ [d]) else .ok none
      else if qtextOk c then quotedLoop fuel inp (localPart ++ [c])
      else .ok none

/-- The loop over atoms (/repo/sm2/cert/gmx509.go:1566-1598). After a backslash the `fallthrough` appends the next
byte whatever it is. -/
def atomLoop : Nat → Bytes → Bytes → Res (Option (Bytes × Bytes))
  | 0, _, _ => .loop
  | fuel + 1, inp, localPart =>
    if inp.length > 0 then do
      let c ← byteAt inp 0
      if c = 0x5c then
        let inp := inp.drop 1
        if inp.length = 0 then .ok none
        else do
          let d ← byteAt inp 0
          atomLoop fuel (inp.drop 1) (localPart ++ [d])
      else if atextOk c then do
        let d ← byteAt inp 0
        atomLoop fuel (inp.drop 1) (localPart ++ [d])
      else .ok (some (localPart, inp))
    else .ok (some (localPart, inp))

/-- `bytes.Contains(s, []byte{'.', '.'})`. -/
def containsTwoDots : Bytes → Bool
  | a :: b :: s => (a == 0x2e && b == 0x2e) || containsTwoDots (b :: s)
  | _ => false

/-- The checks after the atoms (/repo/sm2/cert/gmx509.go:1600-1613): whether the local part passes. -/
def dotsOk (localPart : Bytes) : Res Bool :=
  if localPart.length = 0 then .ok false
  else do
    let first ← byteAt localPart 0
    if first = 0x2e then .ok false
    else do
      let last ← byteAt localPart (localPart.length - 1)
      if last = 0x2e then .ok false else .ok (!containsTwoDots localPart)

/-- The end of `parseRFC2821Mailbox` (/repo/sm2/cert/gmx509.go:1616-1630). -/
def mailboxDomain (localPart inp : Bytes) : Res (Option (Bytes × Bytes)) :=
  if inp.length = 0 then .ok none
  else do
    let c ← byteAt inp 0
    if c ≠ 0x40 then .ok none
    else
      match domainToReverseLabels (inp.drop 1) with
      | none => .ok none
      | some _ => .ok (some (localPart, inp.drop 1))

/-- `parseRFC2821Mailbox` (/repo/sm2/cert/gmx509.go:1496-1631): local part and domain; `none` is `ok = false`. -/
def parseRFC2821Mailbox (inp : Bytes) : Res (Option (Bytes × Bytes)) :=
  if inp.length = 0 then .ok none
  else do
    let c ← byteAt inp 0
    if c = 0x22 then do
      let r ← quotedLoop (inp.length + 1) (inp.drop 1) []
      match r with
      | none => .ok none
      | some (l, rest) => mailboxDomain l rest
    else do
      let r ← atomLoop (inp.length + 1) inp []
      match r with
      | none => .ok none
      | some (l, rest) => do
        let good ← dotsOk l
        if good then mailboxDomain l rest else .ok none

/-! ## Key usage bits -/

/-- `reverseBitsInAByte` (/repo/sm2/cert/gmx509.go:561-566). In Go `>>`, `<<` and `&` have the same precedence and
bind tighter than `|`. -/
def reverseBitsInAByte (inp : Byte) : Byte :=
  let b1 := (inp >>> 4) ||| (inp <<< 4)
  let b2 := ((b1 >>> 2) &&& 0x33) ||| ((b1 <<< 2) &&& 0xcc)
  let b3 := ((b2 >>> 1) &&& 0x55) ||| ((b2 <<< 1) &&& 0xaa)
  b3

/-- The inner loop of `asn1BitLength` (/repo/sm2/cert/gmx509.go:577-582): bits `8-fuel` to 7 of `b`; `inl` is
`return bitLen`, `inr` falls out of the loop with the new `bitLen`. -/
def bitLengthByte (b : Byte) : Nat → Nat → Nat ⊕ Nat
  | 0, bitLen => .inr bitLen
  | k + 1, bitLen => if (b >>> (7 - k)) &&& 1 = 1 then .inl bitLen else bitLengthByte b k (bitLen - 1)

/-- The outer loop of `asn1BitLength` (/repo/sm2/cert/gmx509.go:574-583) over the bytes from the last one on. -/
def bitLengthLoop : Bytes → Nat → Nat
  | [], _ => 0
  | b :: bs, bitLen =>
    match bitLengthByte b 8 bitLen with
    | .inl r => r
    | .inr bitLen => bitLengthLoop bs bitLen

/-- `asn1BitLength` (/repo/sm2/cert/gmx509.go:571-586). -/
def asn1BitLength (bitString : Bytes) : Nat := bitLengthLoop bitString.reverse (bitString.length * 8)

/-! ## Object identifiers -/

/-- `asn1.ObjectIdentifier`. Simplification: the components are natural numbers (Go has `int`; parsing yields none
below 0). `a.Equal(b)` is equality of the lists. -/
abbrev OID := List Nat

/-- `extKeyUsageOIDs` (/repo/sm2/cert/gmx509.go:601-636). `x509.ExtKeyUsage` is an `int`; the constants are those of
Go 1.12 crypto/x509, `iota` from 0 in the order of the table. -/
def extKeyUsageOIDs : List (Int × OID) := [
  (0, [2, 5, 29, 37, 0]),
  (1, [1, 3, 6, 1, 5, 5, 7, 3, 1]),
  (2, [1, 3, 6, 1, 5, 5, 7, 3, 2]),
  (3, [1, 3, 6, 1, 5, 5, 7, 3, 3]),
  (4, [1, 3, 6, 1, 5, 5, 7, 3, 4]),
  (5, [1, 3, 6, 1, 5, 5, 7, 3, 5]),
  (6, [1, 3, 6, 1, 5, 5, 7, 3, 6]),
  (7, [1, 3, 6, 1, 5, 5, 7, 3, 7]),
  (8, [1, 3, 6, 1, 5, 5, 7, 3, 8]),
  (9, [1, 3, 6, 1, 5, 5, 7, 3, 9]),
  (10, [1, 3, 6, 1, 4, 1, 311, 10, 3, 3]),
  (11, [2, 16, 840, 1, 113730, 4, 1]),
  (12, [1, 3, 6, 1, 4, 1, 311, 2, 1, 22]),
  (13, [1, 3, 6, 1, 4, 1, 311, 61, 1, 1])]

/-- `oidFromExtKeyUsage` (/repo/sm2/cert/gmx509.go:638-645); `none` is `ok = false`. -/
def oidFromExtKeyUsage (eku : Int) : Option OID := (extKeyUsageOIDs.find? fun pair => eku == pair.1).map Prod.snd

/-- `extKeyUsageFromOID` (/repo/sm2/cert/gmx509.go:1633-1640). -/
def extKeyUsageFromOID (oid : OID) : Option Int := (extKeyUsageOIDs.find? fun pair => oid == pair.2).map Prod.fst

end Verif.Cert
