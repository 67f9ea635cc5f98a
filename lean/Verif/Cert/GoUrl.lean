import Verif.Cert.San
/-!
# Go's net/url and net.ParseIP, as of Go 1.12

`/repo/sm2/cert/gmx509.go` calls `url.Parse` (gmx509.go:503), `(*url.URL).String` (gmx509.go:226), reads the field `Host`
(gmx509.go:507) and calls `net.ParseIP` (gmx509.go:1423). This file transcribes these functions from the standard library, so
that `Env` has an instance (`goEnv`). The transcription is part of the trusted base.

Strings are bytes. Errors are `none`, their texts are left out. Where Go first counts or checks and then builds the
result, there is one recursion here. Go 1.12.8 added a check of the port to `parseHost` (CVE-2019-14809); the parameter
`portCheck` says whether it is there, and theorems are about both.
-/
namespace Verif.GoUrl
open Verif

/-- A character as a byte. -/
abbrev ch (c : Char) : Byte := BitVec.ofNat 8 c.toNat

/-- `'A' <= c && c <= 'Z' || 'a' <= c && c <= 'z'`. -/
def isAlpha (c : Byte) : Bool := (ch 'A' ≤ c && c ≤ ch 'Z') || (ch 'a' ≤ c && c ≤ ch 'z')
/-- `'0' <= c && c <= '9'`. -/
def isDigit (c : Byte) : Bool := ch '0' ≤ c && c ≤ ch '9'

/-- `encoding` (net/url/url.go). -/
inductive Mode | path | pathSegment | host | zone | userPassword | queryComponent | fragment
  deriving DecidableEq, Repr

/-- `shouldEscape` (net/url/url.go). -/
def shouldEscape (c : Byte) (m : Mode) : Bool :=
  if isAlpha c || isDigit c then false
  else if (m == .host || m == .zone) &&
      ['!', '$', '&', '\'', '(', ')', '*', '+', ',', ';', '=', ':', '[', ']', '<', '>', '"'].any (ch · == c) then false
  else if ['-', '_', '.', '~'].any (ch · == c) then false
  else if ['$', '&', '+', ',', '/', ':', ';', '=', '?', '@'].any (ch · == c) then
    match m with
    | .path => c == ch '?'
    | .pathSegment => c == ch '/' || c == ch ';' || c == ch ',' || c == ch '?'
    | .userPassword => c == ch '@' || c == ch '/' || c == ch '?' || c == ch ':'
    | .queryComponent => true
    | .fragment => false
    | .host | .zone => true
  else if m == .fragment && ['!', '(', ')', '*'].any (ch · == c) then false
  else true

/-- `unhex` (net/url/url.go); `none` where `ishex` is false. -/
def unhex (c : Byte) : Option Byte :=
  if ch '0' ≤ c ∧ c ≤ ch '9' then some (c - ch '0')
  else if ch 'a' ≤ c ∧ c ≤ ch 'f' then some (c - ch 'a' + 10)
  else if ch 'A' ≤ c ∧ c ≤ ch 'F' then some (c - ch 'A' + 10)
  else none

/-- The hexadecimal digits of `escape`, for values below 16. -/
def hexDigit (v : Byte) : Byte := if v < 10 then ch '0' + v else ch 'A' + (v - 10)

/-- `unescape` (net/url/url.go). -/
def unescape (m : Mode) : Bytes → Option Bytes
  | [] => some []
  | c :: s =>
    if c = ch '%' then
      match s with
      | a :: b :: s' =>
        match unhex a, unhex b with
        | some x, some y =>
          let is25 : Bool := a == ch '2' && b == ch '5'
          let v := (x <<< 4) ||| y
          if m = .host ∧ x < 8 ∧ is25 = false then none
          else if m = .zone ∧ is25 = false ∧ v ≠ ch ' ' ∧ shouldEscape v .host = true then none
          else (unescape m s').map (v :: ·)
        | _, _ => none
      | _ => none
    else if c = ch '+' then (unescape m s).map ((if m = .queryComponent then ch ' ' else c) :: ·)
    else if (m = .host ∨ m = .zone) ∧ c < 0x80 ∧ shouldEscape c m = true then none
    else (unescape m s).map (c :: ·)

/-- One byte in `escape`. -/
def escapeByte (m : Mode) (c : Byte) : Bytes :=
  if shouldEscape c m = true then
    if c = ch ' ' ∧ m = .queryComponent then [ch '+'] else [ch '%', hexDigit (c >>> 4), hexDigit (c &&& 15)]
  else [c]

/-- `escape` (net/url/url.go). -/
def escape (m : Mode) (s : Bytes) : Bytes := s.flatMap (escapeByte m)

/-- `Userinfo` (net/url/url.go). -/
structure Userinfo where
  username : Bytes := []
  password : Bytes := []
  passwordSet : Bool := false
  deriving DecidableEq, Repr

/-- `URL` (net/url/url.go). -/
structure URL where
  scheme : Bytes := []
  opaq : Bytes := []
  user : Option Userinfo := none
  host : Bytes := []
  path : Bytes := []
  rawPath : Bytes := []
  forceQuery : Bool := false
  rawQuery : Bytes := []
  fragment : Bytes := []
  deriving DecidableEq, Repr

/-- The part before the first `c`; all of `s` if there is none. -/
def before (c : Byte) (s : Bytes) : Bytes := s.takeWhile (· != c)
/-- From the first `c` on. -/
def from_ (c : Byte) (s : Bytes) : Bytes := s.dropWhile (· != c)
/-- `split(s, c, true)` (net/url/url.go). -/
def splitCut (c : Byte) (s : Bytes) : Bytes × Bytes := (before c s, (from_ c s).tail)
/-- `split(s, c, false)` (net/url/url.go). -/
def splitKeep (c : Byte) (s : Bytes) : Bytes × Bytes := (before c s, from_ c s)

/-- The parts before and after the last `c` (`strings.LastIndex`). -/
def splitLast (c : Byte) : Bytes → Option (Bytes × Bytes)
  | [] => none
  | x :: s =>
    match splitLast c s with
    | some (a, b) => some (x :: a, b)
    | none => if x = c then some ([], s) else none

/-- The parts before and from the first `"%25"` (`strings.Index`). -/
def splitZone : Bytes → Option (Bytes × Bytes)
  | [] => none
  | x :: s =>
    if (x :: s).take 3 = [ch '%', ch '2', ch '5'] then some ([], x :: s)
    else (splitZone s).map fun p => (x :: p.1, p.2)

/-- The loop of `getscheme` (net/url/url.go) from position `i`, with what was read before; `none` is an error. -/
def getschemeLoop (raw : Bytes) : Bytes → Bytes → Option (Bytes × Bytes)
  | _, [] => some ([], raw)
  | seen, c :: s =>
    if isAlpha c then getschemeLoop raw (seen ++ [c]) s
    else if isDigit c || c == ch '+' || c == ch '-' || c == ch '.' then
      if seen = [] then some ([], raw) else getschemeLoop raw (seen ++ [c]) s
    else if c = ch ':' then if seen = [] then none else some (seen, s)
    else some ([], raw)

/-- `getscheme` (net/url/url.go). -/
def getscheme (raw : Bytes) : Option (Bytes × Bytes) := getschemeLoop raw [] raw

/-- `strings.ToLower` on ASCII. -/
def toLower (s : Bytes) : Bytes := s.map fun c => if ch 'A' ≤ c ∧ c ≤ ch 'Z' then c + 32 else c

/-- `validOptionalPort` (net/url/url.go). -/
def validOptionalPort : Bytes → Bool
  | [] => true
  | c :: s => c == ch ':' && s.all isDigit

/-- `parseHost` (net/url/url.go). -/
def parseHost (portCheck : Bool) (host : Bytes) : Option Bytes :=
  if host.head? = some (ch '[') then
    match splitLast (ch ']') host with
    | none => none
    | some (pre, port) =>
      if validOptionalPort port = false then none
      else
        match splitZone pre with
        | some (h1, h2) => do
          let host1 ← unescape .host h1
          let host2 ← unescape .zone h2
          let host3 ← unescape .host (ch ']' :: port)
          some (host1 ++ host2 ++ host3)
        | none => unescape .host host
  else
    match splitLast (ch ':') host with
    | some (_, port) => if portCheck = true ∧ validOptionalPort (ch ':' :: port) = false then none else unescape .host host
    | none => unescape .host host

/-- `validUserinfo` (net/url/url.go); it ranges over runes, but those from 0x80 on are all refused. -/
def validUserinfo (s : Bytes) : Bool :=
  s.all fun c => isAlpha c || isDigit c ||
    ['-', '.', '_', ':', '~', '!', '$', '&', '\'', '(', ')', '*', '+', ',', ';', '=', '%', '@'].any (ch · == c)

/-- The user part of `parseAuthority` (net/url/url.go). -/
def parseUser (userinfo : Bytes) : Option Userinfo :=
  if validUserinfo userinfo = false then none
  else if ch ':' ∉ userinfo then (unescape .userPassword userinfo).map fun u => ⟨u, [], false⟩
  else do
    let p := splitCut (ch ':') userinfo
    let username ← unescape .userPassword p.1
    let password ← unescape .userPassword p.2
    some ⟨username, password, true⟩

/-- `parseAuthority` (net/url/url.go). -/
def parseAuthority (portCheck : Bool) (authority : Bytes) : Option (Option Userinfo × Bytes) :=
  match splitLast (ch '@') authority with
  | none => (parseHost portCheck authority).map fun h => (none, h)
  | some (userinfo, h) => do
    let host ← parseHost portCheck h
    let user ← parseUser userinfo
    some (some user, host)

/-- `setPath` (net/url/url.go). -/
def setPath (u : URL) (p : Bytes) : Option URL :=
  (unescape .path p).map fun path => { u with path := path, rawPath := if p = escape .path path then [] else p }

/-- `stringContainsCTLByte` (net/url/url.go). -/
def containsCTL (s : Bytes) : Bool := s.any fun b => b < ch ' ' || b == 0x7f

/-- The query part of `parse` (net/url/url.go): the rest, `ForceQuery` and `RawQuery`. -/
def cutQuery (rest : Bytes) : Bytes × Bool × Bytes :=
  if rest.getLast? = some (ch '?') ∧ rest.count (ch '?') = 1 then (rest.dropLast, true, [])
  else ((splitCut (ch '?') rest).1, false, (splitCut (ch '?') rest).2)

/-- The part of `parse` (net/url/url.go) after the query was cut off. -/
def parseRest (portCheck : Bool) (u : URL) (rest : Bytes) : Option URL :=
  if rest.head? ≠ some (ch '/') ∧ u.scheme ≠ [] then some { u with opaq := rest }
  else if rest.head? ≠ some (ch '/') ∧ ch ':' ∈ before (ch '/') rest then none
  else if (u.scheme ≠ [] ∨ rest.take 3 ≠ [ch '/', ch '/', ch '/']) ∧ rest.take 2 = [ch '/', ch '/'] then do
    let p := splitKeep (ch '/') (rest.drop 2)
    let a ← parseAuthority portCheck p.1
    setPath { u with user := a.1, host := a.2 } p.2
  else setPath u rest

/-- `parse` (net/url/url.go) with `viaRequest` false. -/
def parse (portCheck : Bool) (raw : Bytes) : Option URL :=
  if containsCTL raw = true then none
  else if raw = [ch '*'] then some { path := [ch '*'] }
  else do
    let s ← getscheme raw
    let q := cutQuery s.2
    parseRest portCheck { scheme := toLower s.1, forceQuery := q.2.1, rawQuery := q.2.2 } q.1

/-- `Parse` (net/url/url.go). -/
def Parse (portCheck : Bool) (raw : Bytes) : Option URL := do
  let p := splitCut (ch '#') raw
  let u ← parse portCheck p.1
  if p.2 = [] then some u
  else do
    let f ← unescape .fragment p.2
    some { u with fragment := f }

/-- `validEncodedPath` (net/url/url.go). -/
def validEncodedPath (s : Bytes) : Bool :=
  s.all fun c => ['!', '$', '&', '\'', '(', ')', '*', '+', ',', ';', '=', ':', '@', '[', ']', '%'].any (ch · == c) || !shouldEscape c .path

/-- `EscapedPath` (net/url/url.go). -/
def escapedPath (u : URL) : Bytes :=
  if u.rawPath ≠ [] ∧ validEncodedPath u.rawPath = true ∧ unescape .path u.rawPath = some u.path then u.rawPath
  else if u.path = [ch '*'] then [ch '*']
  else escape .path u.path

/-- `(*Userinfo).String` (net/url/url.go). -/
def userString (ui : Userinfo) : Bytes :=
  escape .userPassword ui.username ++ if ui.passwordSet then ch ':' :: escape .userPassword ui.password else []

/-- What `String` writes before the path. -/
def prefixString (u : URL) : Bytes :=
  (if u.scheme ≠ [] then u.scheme ++ [ch ':'] else []) ++
  if u.scheme ≠ [] ∨ u.host ≠ [] ∨ u.user ≠ none then
    (if u.host ≠ [] ∨ u.path ≠ [] ∨ u.user ≠ none then [ch '/', ch '/'] else []) ++
    (match u.user with | some ui => userString ui ++ [ch '@'] | none => []) ++
    escape .host u.host
  else []

/-- What `String` writes for the path, when `pre` is what it wrote before. -/
def pathString (u : URL) (pre : Bytes) : Bytes :=
  let path := escapedPath u
  let pre' := if path ≠ [] ∧ path.head? ≠ some (ch '/') ∧ u.host ≠ [] then [ch '/'] else []
  let dot := if pre ++ pre' = [] ∧ ch ':' ∈ path ∧ ch '/' ∉ before (ch ':') path then [ch '.', ch '/'] else []
  pre' ++ dot ++ path

/-- `(*URL).String` (net/url/url.go). -/
def String (u : URL) : Bytes :=
  (if u.opaq ≠ [] then (if u.scheme ≠ [] then u.scheme ++ [ch ':'] else []) ++ u.opaq
   else prefixString u ++ pathString u (prefixString u)) ++
  (if u.forceQuery = true ∨ u.rawQuery ≠ [] then ch '?' :: u.rawQuery else []) ++
  (if u.fragment ≠ [] then ch '#' :: escape .fragment u.fragment else [])

/-! ## net.ParseIP -/

/-- The loop of `dtoi` (net/parse.go) with the number so far; the result is the number and the rest. -/
def dtoiLoop : Nat → Bytes → Option (Nat × Bytes)
  | n, [] => some (n, [])
  | n, c :: s =>
    if isDigit c then
      if n * 10 + (c.toNat - 48) ≥ 0xFFFFFF then none else dtoiLoop (n * 10 + (c.toNat - 48)) s
    else some (n, c :: s)

/-- `dtoi` (net/parse.go). -/
def dtoi (s : Bytes) : Option (Nat × Bytes) :=
  match s with
  | c :: _ => if isDigit c then dtoiLoop 0 s else none
  | [] => none

/-- The loop of `xtoi` (net/parse.go); `unhex` knows the same digits. -/
def xtoiLoop : Nat → Bytes → Option (Nat × Bytes)
  | n, [] => some (n, [])
  | n, c :: s =>
    match unhex c with
    | some v => if n * 16 + v.toNat ≥ 0xFFFFFF then none else xtoiLoop (n * 16 + v.toNat) s
    | none => some (n, c :: s)

/-- `xtoi` (net/parse.go). -/
def xtoi (s : Bytes) : Option (Nat × Bytes) :=
  match s with
  | c :: _ => if (unhex c).isSome then xtoiLoop 0 s else none
  | [] => none

/-- The loop of `parseIPv4` (net/ip.go) for the bytes from number `i` on; the result is the bytes. -/
def parseIPv4Loop : Nat → Nat → Bytes → Option Bytes
  | 0, _, s => if s.length ≠ 0 then none else some []
  | k + 1, i, s =>
    if s.length = 0 then none
    else if i > 0 ∧ s.head? ≠ some (ch '.') then none
    else do
      let r ← dtoi (if i > 0 then s.tail else s)
      if r.1 > 0xFF then none
      else (parseIPv4Loop k (i + 1) r.2).map (BitVec.ofNat 8 r.1 :: ·)

/-- `parseIPv4` (net/ip.go); the four bytes. -/
def parseIPv4 (s : Bytes) : Option Bytes := parseIPv4Loop 4 0 s

/-- The end of `parseIPv6` (net/ip.go), where `ip` are the bytes so far and `s` what is left. -/
def ipv6End (ellipsis : Option Nat) (ip s : Bytes) : Option Bytes :=
  if s.length ≠ 0 then none
  else if ip.length < 16 then
    match ellipsis with
    | none => none
    | some e => some (ip.take e ++ List.replicate (16 - ip.length) 0 ++ ip.drop e)
  else if ellipsis.isSome then none else some ip

/-- The loop of `parseIPv6` (net/ip.go); each round adds two bytes or ends, the fuel only serves termination. -/
def ipv6Loop : Nat → Option Nat → Bytes → Bytes → Option Bytes
  | 0, ellipsis, ip, s => ipv6End ellipsis ip s
  | fuel + 1, ellipsis, ip, s =>
    if ip.length < 16 then
      match xtoi s with
      | none => none
      | some (n, s') =>
        if n > 0xFFFF then none
        else if s'.head? = some (ch '.') then
          if ellipsis = none ∧ ip.length ≠ 12 then none
          else if ip.length + 4 > 16 then none
          else do
            let ip4 ← parseIPv4 s
            ipv6End ellipsis (ip ++ ip4) []
        else
          let ip := ip ++ [BitVec.ofNat 8 (n / 256), BitVec.ofNat 8 n]
          if s'.length = 0 then ipv6End ellipsis ip s'
          else if s'.head? ≠ some (ch ':') ∨ s'.length = 1 then none
          else if s'.tail.head? = some (ch ':') then
            if ellipsis.isSome then none
            else if s'.tail.tail.length = 0 then ipv6End (some ip.length) ip []
            else ipv6Loop fuel (some ip.length) ip s'.tail.tail
          else ipv6Loop fuel ellipsis ip s'.tail
    else ipv6End ellipsis ip s

/-- `parseIPv6` (net/ip.go); the sixteen bytes. -/
def parseIPv6 (s : Bytes) : Option Bytes :=
  if s.take 2 = [ch ':', ch ':'] then
    if (s.drop 2).length = 0 then some (List.replicate 16 0) else ipv6Loop 8 (some 0) [] (s.drop 2)
  else ipv6Loop 8 none [] s

/-- `ParseIP` (net/ip.go); `none` is nil, four bytes stand for the IPv4 address in its 16 byte form. -/
def parseIP (s : Bytes) : Option Bytes :=
  match s.find? (fun c => c == ch '.' || c == ch ':') with
  | some c => if c = ch '.' then parseIPv4 s else parseIPv6 s
  | none => none

/-- The environment of the certificate code (`Cert/San.lean`) with Go 1.12's net/url and net. -/
def goEnv (portCheck : Bool) (growth : CB.Growth) : Cert.Env URL where
  parseURL := Parse portCheck
  urlString := String
  urlHost := URL.host
  isIP s := (parseIP s).isSome
  growth := growth

/-! ## Examples from the documentation and the tests of the packages -/

/-- Text as bytes. -/
def txt (s : List Char) : Bytes := s.map ch

example : Parse true (txt ['h','t','t','p',':','/','/','u',':','p','@','a','.','b',':','8','0','/','x','%','2','0','y','?','q','#','f']) =
    some { scheme := txt ['h','t','t','p'], user := some ⟨txt ['u'], txt ['p'], true⟩, host := txt ['a','.','b',':','8','0'],
           path := txt ['/','x',' ','y'], rawQuery := txt ['q'], fragment := txt ['f'] } := by decide +kernel
example : Parse true (txt ['m','a','i','l','t','o',':','a','@','b']) =
    some { scheme := txt ['m','a','i','l','t','o'], opaq := txt ['a','@','b'] } := by decide +kernel
example : Parse true (txt ['h','t','t','p',':','/','/','[','f','e','8','0',':',':','1','%','2','5','e','n','0',']','/']) =
    some { scheme := txt ['h','t','t','p'], host := txt ['[','f','e','8','0',':',':','1','%','e','n','0',']'], path := txt ['/'] } := by
  decide +kernel
example : Parse true (txt ['h','t','t','p',':','/','/','%','4','1','/']) = none := by decide +kernel
example : Parse true (txt ['1',':']) = none := by decide +kernel
example : parseIP (txt ['1','2','7','.','0','.','0','.','1']) = some [127, 0, 0, 1] := by decide +kernel
example : parseIP (txt ['1','2','7','.','0','.','0']) = none := by decide +kernel
example : parseIP (txt ['2','0','0','1',':','d','b','8',':',':','1']) = some [0x20, 1, 0xd, 0xb8, 0, 0, 0, 0, 0, 0, 0, 0, 0, 0, 0, 1] := by
  decide +kernel
example : parseIP (txt [':',':','f','f','f','f',':','1','.','2','.','3','.','4']) = some [0, 0, 0, 0, 0, 0, 0, 0, 0, 0, 0xff, 0xff, 1, 2, 3, 4] := by
  decide +kernel
example : parseIP (txt ['1',':',':','2',':',':','3']) = none := by decide +kernel

end Verif.GoUrl
