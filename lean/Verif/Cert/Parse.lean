import Verif.Cert.Ext
/-!
# Model of certificate parsing in /repo/sm2/cert/gmx509.go
-/
namespace Verif.Cert
open Verif Verif.Der

variable {U : Type}

/-- `asn1.Unmarshal` followed by the check that nothing is left. -/
def unmarshalAll {α : Type} (ty : Ty α) (bs : Bytes) : Res α := do
  let r ← unmarshal ty bs
  if r.2.length ≠ 0 then .err "x509: trailing data" else .ok r.1

/-! ## Name constraints -/

/-- The results of `getValues` (gmx509.go:1334) and the flag `unhandled`. -/
structure Subtrees where
  dnsNames : List Bytes := []
  ips : List IPNet := []
  emails : List Bytes := []
  uriDomains : List Bytes := []
  unhandled : Bool := false
  deriving DecidableEq, Repr

/-- A domain constraint without its leading period (gmx509.go:1357-1364, 1407-1410, 1427-1434). -/
def trimDot (domain : Bytes) : Bytes := if domain.head? = some 0x2e then domain.drop 1 else domain

/-- The switch on the tag (gmx509.go:1350-1442). -/
def subtreeValue (env : Env U) (st : Subtrees) (tag : CB.Tag) (value : Bytes) : Res Subtrees :=
  if tag = (2 : CB.Tag).contextSpecific then
    if isIA5String value = false then .err "x509: invalid constraint value"
    else if domainToReverseLabels (trimDot value) = none then .err "x509: failed to parse dnsName constraint"
    else .ok { st with dnsNames := st.dnsNames ++ [value] }
  else if tag = (7 : CB.Tag).contextSpecific then
    if value.length = 8 then
      if isValidIPMask (value.drop 4) = false then .err "x509: IP constraint contained invalid mask"
      else .ok { st with ips := st.ips ++ [⟨value.take 4, value.drop 4⟩] }
    else if value.length = 32 then
      if isValidIPMask (value.drop 16) = false then .err "x509: IP constraint contained invalid mask"
      else .ok { st with ips := st.ips ++ [⟨value.take 16, value.drop 16⟩] }
    else .err "x509: IP constraint contained value of wrong length"
  else if tag = (1 : CB.Tag).contextSpecific then
    if isIA5String value = false then .err "x509: invalid constraint value"
    else if 0x40 ∈ value then do
      let m ← parseRFC2821Mailbox value
      if m = none then .err "x509: failed to parse rfc822Name constraint"
      else .ok { st with emails := st.emails ++ [value] }
    else if domainToReverseLabels (trimDot value) = none then .err "x509: failed to parse rfc822Name constraint"
    else .ok { st with emails := st.emails ++ [value] }
  else if tag = (6 : CB.Tag).contextSpecific then
    if isIA5String value = false then .err "x509: invalid constraint value"
    else if env.isIP value = true then .err "x509: failed to parse URI constraint: cannot be IP address"
    else if domainToReverseLabels (trimDot value) = none then .err "x509: failed to parse URI constraint"
    else .ok { st with uriDomains := st.uriDomains ++ [value] }
  else .ok { st with unhandled := true }

/-- The loop of `getValues` (gmx509.go:1335-1443). Every round consumes an element; the fuel only serves termination. -/
def getValues (env : Env U) : Nat → CB.Str → Subtrees → Res Subtrees
  | fuel, subtrees, st =>
    if subtrees.empty then .ok st
    else
      match fuel with
      | 0 => .loop
      | fuel + 1 => do
        let (seq, subtrees) ← CB.readASN1Tag CB.tagSEQUENCE subtrees
        match seq with
        | none => .err "x509: invalid NameConstraints extension"
        | some seq => do
          let (tv, _) ← CB.readAnyASN1 seq
          match tv with
          | none => .err "x509: invalid NameConstraints extension"
          | some (tag, value) => do
            let st ← subtreeValue env st tag value.bytes
            getValues env fuel subtrees st

/-- The header of the extension (gmx509.go:1315-1324): the two optional fields; `none` is the error. -/
def readNameConstraints (value : Bytes) : Res (Option (Option CB.Str × Option CB.Str)) := do
  let (toplevel, outer) ← CB.readASN1Tag CB.tagSEQUENCE (some value)
  match toplevel with
  | none => .ok none
  | some toplevel =>
    if !outer.empty then .ok none
    else do
      let (permitted, toplevel) ← CB.readOptionalASN1 ((0 : CB.Tag).contextSpecific).constructed toplevel
      match permitted with
      | none => .ok none
      | some permitted => do
        let (excluded, toplevel) ← CB.readOptionalASN1 ((1 : CB.Tag).contextSpecific).constructed toplevel
        match excluded with
        | none => .ok none
        | some excluded => if !toplevel.empty then .ok none else .ok (some (permitted, excluded))

/-- `parseNameConstraintsExtension` (gmx509.go:1299-1457): the permitted and the excluded subtrees; `unhandled` is set
when it is in one of them. -/
def parseNameConstraints (env : Env U) (value : Bytes) : Res (Subtrees × Subtrees) := do
  let r ← readNameConstraints value
  match r with
  | none => .err "x509: invalid NameConstraints extension"
  | some (permitted, excluded) =>
    let p : CB.Str := permitted.getD none
    let e : CB.Str := excluded.getD none
    if (permitted = none ∧ excluded = none) ∨ (p.len = 0 ∧ e.len = 0) then .err "x509: empty name constraints extension"
    else do
      let ps ← getValues env p.len p {}
      let es ← getValues env e.len e {}
      .ok (ps, es)

/-! ## Extensions -/

/-- The loop at gmx509.go:1132-1137: bits `i` to 8 of the key usage. -/
def keyUsageLoop (usageBits : BitString) : Nat → Nat → Int → Res Int
  | 0, _, usage => .ok usage
  | k + 1, i, usage => do
    let b ← usageBits.at i
    keyUsageLoop usageBits k (i + 1) (if b ≠ 0 then usage + 2 ^ i else usage)

/-- Key usage (gmx509.go:1125-1138). `usage |= 1 << i` sets a bit that is not set yet. -/
def parseKeyUsage (value : Bytes) : Res Int := do
  let usageBits ← unmarshalAll tyBits value
  keyUsageLoop usageBits 9 0 0

/-- Extended key usage (gmx509.go:1231-1237). -/
def splitExtKeyUsage : List OID → List Int × List OID
  | [] => ([], [])
  | u :: us =>
    let r := splitExtKeyUsage us
    match extKeyUsageFromOID u with
    | some k => (k :: r.1, r.2)
    | none => (r.1, u :: r.2)

/-- CRL distribution points (gmx509.go:1192-1203). -/
def crlNames (cdp : List DP) : List Bytes :=
  cdp.flatMap fun dp => ((dp.name.fullName.getD []).filter fun f => f.tag = 6).map RawValue.bytes

/-- Authority information access (gmx509.go:1275-1285): the locations with the given method. -/
def aiaLocations (method : OID) (aia : List AIA) : List Bytes :=
  (aia.filter fun v => v.location.tag = 6 ∧ v.method = method).map fun v => v.location.bytes

/-- The part of `parseCertificate` on one extension (gmx509.go:1119-1289): the certificate and `unhandled`. The switch
on `e.Id[3]` under `len(e.Id) == 4 && e.Id[0] == 2 && …` is written as comparisons with the OIDs. -/
def parseExtension (env : Env U) (out : X509Cert U) (e : Extension) : Res (X509Cert U × Bool) :=
  if e.id = oidExtensionKeyUsage then do
    let usage ← parseKeyUsage e.value
    .ok ({ out with keyUsage := usage }, false)
  else if e.id = oidExtensionBasicConstraints then do
    let c ← unmarshalAll tyBasicConstraints e.value
    .ok ({ out with basicConstraintsValid := true, isCA := c.isCA, maxPathLen := c.maxPathLen, maxPathLenZero := c.maxPathLen = 0 }, false)
  else if e.id = oidExtensionSubjectAltName then do
    let s ← parseSANExtension env e.value
    .ok ({ out with dnsNames := s.dnsNames, emailAddresses := s.emailAddresses, ipAddresses := s.ipAddresses, uris := s.uris },
      !hasSans s.dnsNames s.emailAddresses s.ipAddresses s.uris)
  else if e.id = oidExtensionNameConstraints then do
    let (p, x) ← parseNameConstraints env e.value
    .ok ({ out with
      permittedDNSDomains := p.dnsNames, permittedIPRanges := p.ips
      permittedEmailAddresses := p.emails, permittedURIDomains := p.uriDomains
      excludedDNSDomains := x.dnsNames, excludedIPRanges := x.ips
      excludedEmailAddresses := x.emails, excludedURIDomains := x.uriDomains
      permittedDNSDomainsCritical := e.critical }, p.unhandled || x.unhandled)
  else if e.id = oidExtensionCRLDistributionPoints then do
    let cdp ← unmarshalAll (tySlice false tyDP) e.value
    .ok ({ out with crlDistributionPoints := out.crlDistributionPoints ++ crlNames cdp }, false)
  else if e.id = oidExtensionAuthorityKeyId then do
    let a ← unmarshalAll tyAuthKeyId e.value
    .ok ({ out with authorityKeyId := a.getD [] }, false)
  else if e.id = oidExtensionExtendedKeyUsage then do
    let keyUsage ← unmarshalAll (tySlice false tyOID) e.value
    .ok ({ out with
      extKeyUsage := out.extKeyUsage ++ (splitExtKeyUsage keyUsage).1
      unknownExtKeyUsage := out.unknownExtKeyUsage ++ (splitExtKeyUsage keyUsage).2 }, false)
  else if e.id = oidExtensionSubjectKeyId then do
    let keyid ← unmarshalAll tyBytes e.value
    .ok ({ out with subjectKeyId := keyid }, false)
  else if e.id = oidExtensionCertificatePolicies then do
    let policies ← unmarshalAll (tySlice false tyPolicyInformation) e.value
    .ok ({ out with policyIdentifiers := policies }, false)
  else if e.id = oidExtensionAuthorityInfoAccess then do
    let aia ← unmarshalAll (tySlice false tyAIA) e.value
    .ok ({ out with
      ocspServer := out.ocspServer ++ aiaLocations oidAuthorityInfoAccessOcsp aia
      issuingCertificateURL := out.issuingCertificateURL ++ aiaLocations oidAuthorityInfoAccessIssuers aia }, false)
  else .ok (out, true)

/-- The loop over the extensions (gmx509.go:1117-1294). -/
def parseExtensions (env : Env U) : List Extension → X509Cert U → Res (X509Cert U)
  | [], out => .ok out
  | e :: es, out => do
    let (out, unhandled) ← parseExtension env { out with extensions := out.extensions ++ [e] } e
    parseExtensions env es (if e.critical = true ∧ unhandled = true then
      { out with unhandledCriticalExtensions := out.unhandledCriticalExtensions ++ [e.id] } else out)

/-- `parseCertificate` (gmx509.go:1071-1297). The version is an `int` of 64 bits, adding 1 wraps. -/
def parseCert (env : Env U) (inp : Certificate) : Res (X509Cert U) :=
  if inp.sigAlg.algorithm ≠ oidSignatureSM3WithSM2 then .err "x509: illegal signature algorithm OID"
  else if inp.tbs.publicKey.algorithm.algorithm ≠ oidPublicKeyECDSA then .err "x509: illegal publick key algorithm OID"
  else do
    let pub ← parsePublicKey inp.tbs.publicKey
    let subject ← parseName inp.tbs.subject.fullBytes
    let issuer ← parseName inp.tbs.issuer.fullBytes
    parseExtensions env (inp.tbs.extensions.getD []) {
      raw := inp.raw
      rawTBS := inp.tbs.raw
      rawSPKI := inp.tbs.publicKey.raw
      rawSubject := inp.tbs.subject.fullBytes
      rawIssuer := inp.tbs.issuer.fullBytes
      signature := inp.sigValue.rightAlign
      publicKey := some pub
      version := (BitVec.ofInt 64 (inp.tbs.version + 1)).toInt
      serialNumber := some inp.tbs.serial
      issuer := Name.fillFromRDNSequence {} issuer
      subject := Name.fillFromRDNSequence {} subject
      notBefore := inp.tbs.validity.notBefore
      notAfter := inp.tbs.validity.notAfter }

/-- `ParseCertificate` (gmx509.go:1058-1069). -/
def parseCertificate (env : Env U) (asn1Data : Bytes) : Res (X509Cert U) := do
  let r ← unmarshal tyCertificate asn1Data
  if r.2.length > 0 then .err "trailing data" else parseCert env r.1

end Verif.Cert
