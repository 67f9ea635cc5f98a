import Verif.Cert.Csr
/-!
# Model of certificate creation in /repo/sm2/cert/gmx509.go
-/
namespace Verif.Cert
open Verif Verif.Der

variable {U : Type}

/-- `net.IPNet`. -/
structure IPNet where
  ip : Bytes
  mask : Bytes
  deriving DecidableEq, Repr

/-- `x509.Certificate` (Go 1.12 crypto/x509): the fields that the code reads or writes. `x509.KeyUsage` and
`x509.ExtKeyUsage` are `int`s; `serialNumber = none` is nil. -/
structure X509Cert (U : Type) where
  raw : Bytes := []
  rawTBS : Bytes := []
  rawSPKI : Bytes := []
  rawSubject : Bytes := []
  rawIssuer : Bytes := []
  signature : Bytes := []
  publicKey : Option Sm2.PublicKey := none
  version : Int := 0
  serialNumber : Option Int := none
  issuer : Name := {}
  subject : Name := {}
  notBefore : Time := tyTime.zero
  notAfter : Time := tyTime.zero
  keyUsage : Int := 0
  extensions : List Extension := []
  extraExtensions : List Extension := []
  unhandledCriticalExtensions : List OID := []
  extKeyUsage : List Int := []
  unknownExtKeyUsage : List OID := []
  basicConstraintsValid : Bool := false
  isCA : Bool := false
  maxPathLen : Int := 0
  maxPathLenZero : Bool := false
  subjectKeyId : Bytes := []
  authorityKeyId : Bytes := []
  ocspServer : List Bytes := []
  issuingCertificateURL : List Bytes := []
  dnsNames : List Bytes := []
  emailAddresses : List Bytes := []
  ipAddresses : List Bytes := []
  uris : List U := []
  permittedDNSDomainsCritical : Bool := false
  permittedDNSDomains : List Bytes := []
  excludedDNSDomains : List Bytes := []
  permittedIPRanges : List IPNet := []
  excludedIPRanges : List IPNet := []
  permittedEmailAddresses : List Bytes := []
  excludedEmailAddresses : List Bytes := []
  permittedURIDomains : List Bytes := []
  excludedURIDomains : List Bytes := []
  crlDistributionPoints : List Bytes := []
  policyIdentifiers : List OID := []

/-- `FillCertificateTemplateByCSR` (gmx509.go:541-551). -/
def fillCertificateTemplateByCSR (template : X509Cert U) (csr : CertReq U) : X509Cert U :=
  { template with
    subject := csr.subject
    publicKey := csr.publicKey
    extensions := csr.extensions
    extraExtensions := csr.extraExtensions
    dnsNames := csr.dnsNames
    emailAddresses := csr.emailAddresses
    ipAddresses := csr.ipAddresses
    uris := csr.uris }

/-! ## The extensions -/

/-- Key usage (gmx509.go:700-710). -/
def keyUsageValue (keyUsage : Int) : Res Bytes :=
  let a0 := reverseBitsInAByte (BitVec.ofInt 8 keyUsage)
  let a1 := reverseBitsInAByte (BitVec.ofInt 8 (keyUsage >>> 8))
  let bitString := if a1 ≠ 0 then [a0, a1] else [a0]
  marshal tyBits ⟨bitString, asn1BitLength bitString⟩

/-- The loop at gmx509.go:722-728: an unknown usage panics. -/
def extKeyUsageOidsOf : List Int → Res (List OID)
  | [] => .ok []
  | u :: us =>
    match oidFromExtKeyUsage u with
    | none => .panic
    | some oid => do
      let l ← extKeyUsageOidsOf us
      .ok (oid :: l)

/-- Extended key usage (gmx509.go:721-732). -/
def extKeyUsageValue (extKeyUsage : List Int) (unknownExtKeyUsage : List OID) : Res Bytes := do
  let oids ← extKeyUsageOidsOf extKeyUsage
  marshal (tySlice false tyOID) (oids ++ unknownExtKeyUsage)

/-- Basic constraints (gmx509.go:743-748). -/
def basicConstraintsValue (isCA : Bool) (maxPathLen : Int) (maxPathLenZero : Bool) : Res Bytes :=
  marshal tyBasicConstraints ⟨isCA, if maxPathLen = 0 ∧ maxPathLenZero = false then -1 else maxPathLen⟩

/-- Authority information access (gmx509.go:777-790). -/
def aiaValue (ocspServer issuingCertificateURL : List Bytes) : Res Bytes :=
  marshal (tySlice false tyAIA)
    (ocspServer.map (fun name => (⟨oidAuthorityInfoAccessOcsp, { tag := 6, cls := 2, bytes := name }⟩ : AIA)) ++
     issuingCertificateURL.map (fun name => (⟨oidAuthorityInfoAccessIssuers, { tag := 6, cls := 2, bytes := name }⟩ : AIA)))

/-- CRL distribution points (gmx509.go:927-939). -/
def crlValue (crlDistributionPoints : List Bytes) : Res Bytes :=
  marshal (tySlice false tyDP) (crlDistributionPoints.map fun name =>
    ({ name := { fullName := some [{ tag := 6, cls := 2, bytes := name }] } } : DP))

/-- `IP.Mask` (Go 1.12 net/ip.go); nil is the empty list. -/
def ipMask (ip mask : Bytes) : Bytes :=
  let mask := if mask.length = 16 ∧ ip.length = 4 ∧ mask.take 12 = List.replicate 12 0xff then mask.drop 12 else mask
  let ip := if mask.length = 4 ∧ ip.length = 16 ∧ ip.take 12 = List.replicate 10 0 ++ [0xff, 0xff] then ip.drop 12 else ip
  if ip.length ≠ mask.length then [] else List.zipWith (· &&& ·) ip mask

/-- `ipAndMask` (gmx509.go:833-839). -/
def ipAndMask (ipNet : IPNet) : Bytes := ipMask ipNet.ip ipNet.mask ++ ipNet.mask

/-- The calls on the builder in `serialiseConstraints` (gmx509.go:849-853, 857-861, 869-873, 881-885): one subtree per
tag and value. -/
def constraintProg : List (CB.Tag × Bytes) → CB.Prog
  | [] => .nil
  | (tag, value) :: rest => .asn1 CB.tagSEQUENCE (.asn1 tag.contextSpecific (.add value .nil) .nil) (constraintProg rest)

/-- A zero `cryptobyte.Builder`: calls, then `Bytes()`. -/
def runBuilder (env : Env U) (p : CB.Prog) : Res Bytes := CB.run env.growth [[]] ⟨0, 0, 0, 0⟩ p

/-- The subtrees in the order of `serialiseConstraints` (gmx509.go:844-886). -/
def constraintItems (dns : List Bytes) (ips : List IPNet) (emails uriDomains : List Bytes) : List (CB.Tag × Bytes) :=
  dns.map (fun v => ((2 : CB.Tag), v)) ++ ips.map (fun v => ((7 : CB.Tag), ipAndMask v)) ++
    emails.map (fun v => ((1 : CB.Tag), v)) ++ uriDomains.map (fun v => ((6 : CB.Tag), v))

/-- `serialiseConstraints` (gmx509.go:841-889). A string that is not IA5 ends it with an error. -/
def serialiseConstraints (env : Env U) (dns : List Bytes) (ips : List IPNet) (emails uriDomains : List Bytes) : Res Bytes :=
  if (dns ++ emails ++ uriDomains).any (fun s => isIA5String s = false) then .err "x509: cannot be encoded as an IA5String"
  else runBuilder env (constraintProg (constraintItems dns ips emails uriDomains))

/-- The builder program at gmx509.go:901-914. -/
def nameConstraintsProg (permitted excluded : Bytes) : CB.Prog :=
  let second : CB.Prog := if excluded.length > 0 then .asn1 ((1 : CB.Tag).contextSpecific).constructed (.add excluded .nil) .nil else .nil
  .asn1 CB.tagSEQUENCE
    (if permitted.length > 0 then .asn1 ((0 : CB.Tag).contextSpecific).constructed (.add permitted .nil) second else second) .nil

/-- Name constraints (gmx509.go:833-919). -/
def nameConstraintsValue (env : Env U) (t : X509Cert U) : Res Bytes := do
  let permitted ← serialiseConstraints env t.permittedDNSDomains t.permittedIPRanges t.permittedEmailAddresses t.permittedURIDomains
  let excluded ← serialiseConstraints env t.excludedDNSDomains t.excludedIPRanges t.excludedEmailAddresses t.excludedURIDomains
  runBuilder env (nameConstraintsProg permitted excluded)

/-- One section of `buildExtensions`: `ret[n]` is filled if the condition holds and `ExtraExtensions` do not have this
OID. `ret` (here its first `n` elements) has 10 slots (gmx509.go:692); beyond them indexing panics. -/
def genExt (extra : List Extension) (cond : Bool) (id : OID) (critical : Bool) (value : Res Bytes) (ret : List Extension) :
    Res (List Extension) :=
  if cond = true ∧ oidInExtensions id extra = false then
    if ret.length ≥ 10 then .panic
    else do
      let v ← value
      .ok (ret ++ [⟨id, critical, v⟩])
  else .ok ret

/-- Whether there are names for a SAN extension (gmx509.go:85, 797). -/
def hasSans (dnsNames emailAddresses ipAddresses : List Bytes) (uris : List U) : Bool :=
  dnsNames.length > 0 || emailAddresses.length > 0 || ipAddresses.length > 0 || uris.length > 0

/-- Whether there are name constraints (gmx509.go:825-828). -/
def hasConstraints (t : X509Cert U) : Bool :=
  t.permittedDNSDomains.length > 0 || t.excludedDNSDomains.length > 0 ||
  t.permittedIPRanges.length > 0 || t.excludedIPRanges.length > 0 ||
  t.permittedEmailAddresses.length > 0 || t.excludedEmailAddresses.length > 0 ||
  t.permittedURIDomains.length > 0 || t.excludedURIDomains.length > 0

/-- `buildExtensions` (gmx509.go:691-950). -/
def buildExtensions (env : Env U) (t : X509Cert U) (subjectIsEmpty : Bool) (authorityKeyId : Bytes) : Res (List Extension) := do
  let extra := t.extraExtensions
  let ret ← genExt extra (t.keyUsage ≠ 0) oidExtensionKeyUsage true (keyUsageValue t.keyUsage) []
  let ret ← genExt extra (t.extKeyUsage.length > 0 ∨ t.unknownExtKeyUsage.length > 0) oidExtensionExtendedKeyUsage false
    (extKeyUsageValue t.extKeyUsage t.unknownExtKeyUsage) ret
  let ret ← genExt extra t.basicConstraintsValid oidExtensionBasicConstraints true
    (basicConstraintsValue t.isCA t.maxPathLen t.maxPathLenZero) ret
  let ret ← genExt extra (t.subjectKeyId.length > 0) oidExtensionSubjectKeyId false (marshal tyBytes t.subjectKeyId) ret
  let ret ← genExt extra (authorityKeyId.length > 0) oidExtensionAuthorityKeyId false (marshal tyAuthKeyId (some authorityKeyId)) ret
  let ret ← genExt extra (t.ocspServer.length > 0 ∨ t.issuingCertificateURL.length > 0) oidExtensionAuthorityInfoAccess false
    (aiaValue t.ocspServer t.issuingCertificateURL) ret
  let ret ← genExt extra (hasSans t.dnsNames t.emailAddresses t.ipAddresses t.uris) oidExtensionSubjectAltName subjectIsEmpty
    (marshalSANs env t.dnsNames t.emailAddresses t.ipAddresses t.uris) ret
  let ret ← genExt extra (t.policyIdentifiers.length > 0) oidExtensionCertificatePolicies false
    (marshal (tySlice false tyPolicyInformation) t.policyIdentifiers) ret
  let ret ← genExt extra (hasConstraints t) oidExtensionNameConstraints t.permittedDNSDomainsCritical (nameConstraintsValue env t) ret
  let ret ← genExt extra (t.crlDistributionPoints.length > 0) oidExtensionCRLDistributionPoints false
    (crlValue t.crlDistributionPoints) ret
  .ok (ret ++ extra)

/-! ## Certificates -/

/-- The next day. -/
def nextDay (t : Time) : Time :=
  if t.day < daysIn t.month t.year.toNat then { t with day := t.day + 1 }
  else if t.month < 12 then { t with month := t.month + 1, day := 1 }
  else { t with year := t.year + 1, month := 1, day := 1 }

/-- The day before. -/
def prevDay (t : Time) : Time :=
  if 1 < t.day then { t with day := t.day - 1 }
  else if 1 < t.month then { t with month := t.month - 1, day := daysIn (t.month - 1) t.year.toNat }
  else { t with year := t.year - 1, month := 12, day := 31 }

/-- `Time.UTC` (Go time package) on the calendar fields. Simplification: zone offsets are less than a day, as in every
location Go knows. -/
def toUTC (t : Time) : Time :=
  let m : Int := (t.hour * 60 + t.min : Nat) - t.offset
  let clock (t : Time) (m : Int) : Time := { t with hour := (m / 60).toNat, min := (m % 60).toNat, offset := 0 }
  if m < 0 then clock (prevDay t) (m + 1440)
  else if m ≥ 1440 then clock (nextDay t) (m - 1440)
  else clock t m

/-- `emptyASN1Subject` (gmx509.go:981). -/
def emptyASN1Subject : Bytes := [0x30, 0]

/-- `CreateCertificateInfo` (gmx509.go:985-1036). -/
def createCertificateInfo (env : Env U) (template parent : X509Cert U) (csr : CertReq U) : Res TbsCert :=
  match template.serialNumber with
  | none => .err "x509: no SerialNumber given"
  | some serial => do
    let asn1Issuer ← subjectBytes parent.rawSubject parent.subject
    let asn1Subject ← subjectBytes template.rawSubject template.subject
    let authorityKeyId := if asn1Issuer ≠ asn1Subject ∧ parent.subjectKeyId.length > 0 then parent.subjectKeyId
      else template.authorityKeyId
    let extensions ← buildExtensions env template (asn1Subject = emptyASN1Subject) authorityKeyId
    let spki ← unmarshal tyPublicKeyInfo csr.rawSPKI
    if spki.2.length ≠ 0 then .err "trailing data"
    else do
      let c : TbsCert := {
        version := 2
        serial := serial
        sigAlg := sigAlgSM3WithSM2
        issuer := { fullBytes := asn1Issuer }
        validity := ⟨toUTC template.notBefore, toUTC template.notAfter⟩
        subject := { fullBytes := asn1Subject }
        publicKey := spki.1
        extensions := some extensions }
      let tbsCertContents ← marshal tyTbsCert c
      .ok { c with raw := tbsCertContents }

/-- `CreateCertificate` (gmx509.go:1046-1055). -/
def createCertificate (cinfo : TbsCert) (signature : Bytes) : Res Bytes :=
  marshal tyCertificate {
    tbs := cinfo
    sigAlg := sigAlgSM3WithSM2
    sigValue := ⟨signature, signature.length * 8⟩ }

/-- `IssueCertificateBySoftCAKey` (gmx509.go:1038-1044). -/
def issueCertificateBySoftCAKey (cinfo : TbsCert) (caPri : Sm2.PrivateKey) (userId : Option Bytes) (tape : Sm2.Tape) :
    Res Bytes := do
  let signature ← Sm2.sign caPri userId cinfo.raw tape
  createCertificate cinfo signature

end Verif.Cert
