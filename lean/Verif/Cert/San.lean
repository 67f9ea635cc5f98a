import Verif.Cert.Types
import Verif.CB.Builder
/-!
# Model of the subject alternative name functions of /repo/sm2/cert/gmx509.go

Strings and `net.IP`s are their bytes. What net/url and net do with strings is a parameter (`Env`); the theorems state
what they assume of it.
-/
namespace Verif.Cert
open Verif Verif.Der

/-- What the certificate code takes from elsewhere: `U` stands for `*url.URL`. -/
structure Env (U : Type) where
  /-- `url.Parse`: `none` is an error. -/
  parseURL : Bytes → Option U
  /-- `(*url.URL).String`. -/
  urlString : U → Bytes
  /-- The `Host` field. -/
  urlHost : U → Bytes
  /-- `net.ParseIP(s) != nil`. -/
  isIP : Bytes → Bool
  /-- How `append` grows the buffers of the cryptobyte builders. -/
  growth : CB.Growth

variable {U : Type}

/-- `IP.To4` (Go 1.12 net/ip.go); `none` is nil. -/
def to4 (ip : Bytes) : Option Bytes :=
  if ip.length = 4 then some ip
  else if ip.length = 16 ∧ ip.take 10 = List.replicate 10 0 ∧ (ip.drop 10).take 2 = [0xff, 0xff] then some (ip.drop 12)
  else none

/-- The elements that `marshalSANs` collects (gmx509.go:211-228); name types are those of gmx509.go:47-52. -/
def sanValues (env : Env U) (dnsNames emailAddresses ipAddresses : List Bytes) (uris : List U) : List RawValue :=
  dnsNames.map (fun name => ({ tag := 2, cls := 2, bytes := name } : RawValue)) ++
  emailAddresses.map (fun email => ({ tag := 1, cls := 2, bytes := email } : RawValue)) ++
  ipAddresses.map (fun rawIP => ({ tag := 7, cls := 2, bytes := (to4 rawIP).getD rawIP } : RawValue)) ++
  uris.map (fun uri => ({ tag := 6, cls := 2, bytes := env.urlString uri } : RawValue))

/-- `marshalSANs` (gmx509.go:210-230). -/
def marshalSANs (env : Env U) (dnsNames emailAddresses ipAddresses : List Bytes) (uris : List U) : Res Bytes :=
  marshal (tySlice false tyRaw) (sanValues env dnsNames emailAddresses ipAddresses uris)

/-- The loop of `forEachSAN` (gmx509.go:445-455) over `rest`; `callback` works on a state. Every round consumes an
element; the fuel (the length) only serves termination. -/
def sanLoop {σ : Type} (callback : σ → Nat → Bytes → Res σ) : Nat → Bytes → σ → Res σ
  | _, [], s => .ok s
  | 0, _, _ => .loop
  | fuel + 1, rest, s => do
    let v ← unmarshal tyRaw rest
    let s ← callback s v.1.tag v.1.bytes
    sanLoop callback fuel v.2 s

/-- `forEachSAN` (gmx509.go:416-458). -/
def forEachSAN {σ : Type} (extension : Bytes) (callback : σ → Nat → Bytes → Res σ) (s : σ) : Res σ := do
  let seq ← unmarshal tyRaw extension
  if seq.2.length ≠ 0 then .err "x509: trailing data after X.509 extension"
  else if seq.1.isCompound = false ∨ seq.1.tag ≠ 16 ∨ seq.1.cls ≠ 0 then .err "bad SAN sequence"
  else sanLoop callback seq.1.bytes.length seq.1.bytes s

/-- The results of `parseSANExtension`. -/
structure Sans (U : Type) where
  dnsNames : List Bytes := []
  emailAddresses : List Bytes := []
  ipAddresses : List Bytes := []
  uris : List U := []

/-- The callback of `parseSANExtension` (gmx509.go:496-523). -/
def sanCallback (env : Env U) (s : Sans U) (tag : Nat) (data : Bytes) : Res (Sans U) :=
  if tag = 1 then .ok { s with emailAddresses := s.emailAddresses ++ [data] }
  else if tag = 2 then .ok { s with dnsNames := s.dnsNames ++ [data] }
  else if tag = 6 then
    match env.parseURL data with
    | none => .err "x509: cannot parse URI"
    | some uri =>
      if (env.urlHost uri).length > 0 ∧ domainToReverseLabels (env.urlHost uri) = none then
        .err "x509: cannot parse URI: invalid domain"
      else .ok { s with uris := s.uris ++ [uri] }
  else if tag = 7 then
    if data.length = 4 ∨ data.length = 16 then .ok { s with ipAddresses := s.ipAddresses ++ [data] }
    else .err "x509: cannot parse IP address"
  else .ok s

/-- `parseSANExtension` (gmx509.go:495-526). Its callers ignore the lists when there is an error. -/
def parseSANExtension (env : Env U) (value : Bytes) : Res (Sans U) := forEachSAN value (sanCallback env) {}

end Verif.Cert
