import Verif.Cert.San
import Verif.Cert.Name
import Verif.Sm2.Model
/-!
# Model of certificate requests in /repo/sm2/cert/gmx509.go
-/
namespace Verif.Cert
open Verif Verif.Der

variable {U : Type}

/-- `x509.CertificateRequest` (Go 1.12 crypto/x509): the fields that the code reads or writes. `publicKey = none` stands
for anything that is not an `*sm2.PublicKey`. -/
structure CertReq (U : Type) where
  raw : Bytes := []
  rawTBS : Bytes := []
  rawSPKI : Bytes := []
  rawSubject : Bytes := []
  version : Int := 0
  signature : Bytes := []
  publicKey : Option Sm2.PublicKey := none
  subject : Name := {}
  attributes : List ATVSET := []
  extensions : List Extension := []
  extraExtensions : List Extension := []
  dnsNames : List Bytes := []
  emailAddresses : List Bytes := []
  ipAddresses : List Bytes := []
  uris : List U := []

/-- `oidInExtensions` (gmx509.go:234-241). -/
def oidInExtensions (oid : OID) (extensions : List Extension) : Bool := extensions.any fun e => e.id = oid

/-- `marshalPublicKey` (gmx509.go:243-253): the error of `asn1.Marshal` is dropped, `FullBytes` would then be nil. -/
def marshalPublicKey (pub : Sm2.PublicKey) : Res (Bytes × AlgId) := do
  let publicKeyBytes ← pub.getUnCompressBytes
  match marshal tyOID oidSM2P256V1 with
  | .ok paramBytes => .ok (publicKeyBytes, ⟨oidPublicKeyECDSA, { fullBytes := paramBytes }⟩)
  | .err _ => .ok (publicKeyBytes, ⟨oidPublicKeyECDSA, {}⟩)
  | .panic => .panic
  | .loop => .loop

/-- The OIDs in `specifiedExtensions` (gmx509.go:105-117). The map is keyed by `OID.String()`, which is injective. -/
def specifiedExtensions (attributes : List ATVSET) : List OID :=
  (attributes.filter fun a => a.type = oidExtensionRequest).flatMap fun a => a.value.flatten.map ATV.type

/-- The loop at gmx509.go:136-144: the first extension request with a value gets `atvs` appended to its first value.
`none` when there is none. -/
def appendToRequest (atvs : List ATV) : List ATVSET → Option (List ATVSET)
  | [] => none
  | a :: as =>
    match a.value with
    | v :: vs =>
      if a.type = oidExtensionRequest then some ({ a with value := (v ++ atvs) :: vs } :: as)
      else (appendToRequest atvs as).map (a :: ·)
    | [] => (appendToRequest atvs as).map (a :: ·)

/-- Gmx509.go:99-155: the attributes to encode, and the attributes of the template afterwards. `append` copies the
attribute structs but not their `Value` arrays, so line 141 writes into the template. Simplification: the attributes of
the template have separate `Value` arrays. -/
def buildAttributes (attributes : List ATVSET) (extensions : List Extension) : List ATVSET × List ATVSET :=
  if extensions.length > 0 then
    let atvs : List ATV := (extensions.filter fun e => e.id ∉ specifiedExtensions attributes).map fun e =>
      ⟨e.id, .octets e.value⟩
    match appendToRequest atvs attributes with
    | some as => (as, as)
    | none => (attributes ++ [⟨oidExtensionRequest, [atvs]⟩], attributes)
  else (attributes, attributes)

/-- `newRawAttributes` (gmx509.go:257-271). -/
def newRawAttributes (attributes : List ATVSET) : Res (List RawValue) := do
  let b ← marshal (tySlice false tyATVSET) attributes
  let r ← unmarshal (tySlice false tyRaw) b
  if r.2.length ≠ 0 then .err "x509: failed to unmarshal raw CSR Attributes" else .ok r.1

/-- Gmx509.go:84-97: the extensions that the request asks for. -/
def requestedExtensions (env : Env U) (template : CertReq U) : Res (List Extension) := do
  let sans : List Extension ←
    if (template.dnsNames.length > 0 ∨ template.emailAddresses.length > 0 ∨ template.ipAddresses.length > 0 ∨
        template.uris.length > 0) ∧ oidInExtensions oidExtensionSubjectAltName template.extraExtensions = false then do
      let sanBytes ← marshalSANs env template.dnsNames template.emailAddresses template.ipAddresses template.uris
      .ok [⟨oidExtensionSubjectAltName, false, sanBytes⟩]
    else .ok []
  .ok (sans ++ template.extraExtensions)

/-- Gmx509.go:157-163 and `subjectBytes` (gmx509.go:553-559). -/
def subjectBytes (rawSubject : Bytes) (subject : Name) : Res Bytes :=
  if rawSubject.length > 0 then .ok rawSubject else marshal tyRDNSequence subject.toRDNSequence

/-- The `AlgorithmIdentifier` of every signature (gmx509.go:195-196, 1010-1011, 1047-1048). -/
def sigAlgSM3WithSM2 : AlgId := ⟨oidSignatureSM3WithSM2, {}⟩

/-- `CreateCertificateRequest` (gmx509.go:75-206): the request, and the attributes of the template afterwards. -/
def createCertificateRequest (env : Env U) (template : CertReq U) (pub : Sm2.PublicKey) (pri : Sm2.PrivateKey)
    (userId : Option Bytes) (tape : Sm2.Tape) : Res (Bytes × List ATVSET) := do
  let pk ← marshalPublicKey pub
  let extensions ← requestedExtensions env template
  let attributes := buildAttributes template.attributes extensions
  let asn1Subject ← subjectBytes template.rawSubject template.subject
  let rawAttributes ← newRawAttributes attributes.1
  let tbsCSR : TbsCSR := {
    version := 0
    subject := { fullBytes := asn1Subject }
    publicKey := { algorithm := pk.2, publicKey := ⟨pk.1, pk.1.length * 8⟩ }
    rawAttributes := rawAttributes }
  let tbsCSRContents ← marshal tyTbsCSR tbsCSR
  let signature ← Sm2.sign pri userId tbsCSRContents tape
  let csr ← marshal tyCSR {
    tbs := { tbsCSR with raw := tbsCSRContents }
    sigAlg := sigAlgSM3WithSM2
    sigValue := ⟨signature, signature.length * 8⟩ }
  .ok (csr, attributes.2)

/-! ## Parsing -/

/-- `parsePublicKey` (gmx509.go:342-367). -/
def parsePublicKey (keyData : PublicKeyInfo) : Res Sm2.PublicKey := do
  let r ← unmarshal tyOID keyData.algorithm.parameters.fullBytes
  if r.2.length ≠ 0 then .err "x509: trailing data after SM2 parameters"
  else if r.1 ≠ oidSM2P256V1 then .err "x509: CurveOID is not the OID of SM2P256V1"
  else
    match EC.unmarshal Sm2.cv keyData.publicKey.rightAlign with
    | none => .err "x509: Unmarshal PublicKey failed"
    | some p => .ok ⟨p.1, p.2⟩

/-- `err == nil && len(rest) == 0` after an `asn1.Unmarshal`. -/
def wholly {α : Type} (r : Res (α × Bytes)) : Res (Option α) :=
  match r with
  | .ok (v, rest) => .ok (if rest.length = 0 then some v else none)
  | .err _ => .ok none
  | .panic => .panic
  | .loop => .loop

/-- `parseRawAttributes` (gmx509.go:370-382). -/
def parseRawAttributes : List RawValue → Res (List ATVSET)
  | [] => .ok []
  | rawAttr :: rest => do
    let a ← wholly (unmarshal tyATVSET rawAttr.fullBytes)
    let l ← parseRawAttributes rest
    .ok (a.toList ++ l)

/-- The body of the loop of `parseCSRExtensions` (gmx509.go:396-410). -/
def csrExtensionsOf (rawAttr : RawValue) : Res (List Extension) := do
  let a ← wholly (unmarshal tyPkcs10Attribute rawAttr.fullBytes)
  match a with
  | none => .ok []
  | some attr =>
    match attr.values with
    | [] => .ok []
    | v :: _ =>
      if attr.id ≠ oidExtensionRequest then .ok []
      else do
        let e ← unmarshal (tySlice false tyExtension) v.fullBytes
        .ok e.1

/-- `parseCSRExtensions` (gmx509.go:386-414). -/
def parseCSRExtensions : List RawValue → Res (List Extension)
  | [] => .ok []
  | rawAttr :: rest => do
    let e ← csrExtensionsOf rawAttr
    let l ← parseCSRExtensions rest
    .ok (e ++ l)

/-- The loop at gmx509.go:330-337. -/
def csrSans (env : Env U) : List Extension → Sans U → Res (Sans U)
  | [], s => .ok s
  | e :: es, s => do
    let s ← if e.id = oidExtensionSubjectAltName then parseSANExtension env e.value else .ok s
    csrSans env es s

/-- `asn1.Unmarshal(full, &rdns)` with the check for trailing data (gmx509.go:317-322, 1099-1109). -/
def parseName (full : Bytes) : Res RDNSequence := do
  let r ← unmarshal tyRDNSequence full
  if r.2.length ≠ 0 then .err "x509: trailing data after X.509 Subject" else .ok r.1

/-- `parseCertificateRequest` (gmx509.go:288-340). -/
def parseCSR (env : Env U) (inp : CSR) : Res (CertReq U) := do
  let attributes ← parseRawAttributes inp.tbs.rawAttributes
  if inp.sigAlg.algorithm ≠ oidSignatureSM3WithSM2 then .err "x509: illegal signature algorithm OID"
  else if inp.tbs.publicKey.algorithm.algorithm ≠ oidPublicKeyECDSA then .err "x509: illegal publick key algorithm OID"
  else do
    let pub ← parsePublicKey inp.tbs.publicKey
    let subject ← parseName inp.tbs.subject.fullBytes
    let extensions ← parseCSRExtensions inp.tbs.rawAttributes
    let sans ← csrSans env extensions {}
    .ok {
      raw := inp.raw
      rawTBS := inp.tbs.raw
      rawSPKI := inp.tbs.publicKey.raw
      rawSubject := inp.tbs.subject.fullBytes
      version := inp.tbs.version
      signature := inp.sigValue.rightAlign
      publicKey := some pub
      subject := Name.fillFromRDNSequence {} subject
      attributes := attributes
      extensions := extensions
      dnsNames := sans.dnsNames
      emailAddresses := sans.emailAddresses
      ipAddresses := sans.ipAddresses
      uris := sans.uris }

/-- `ParseCertificateRequest` (gmx509.go:275-286). -/
def parseCertificateRequest (env : Env U) (asn1Data : Bytes) : Res (CertReq U) := do
  let r ← unmarshal tyCSR asn1Data
  if r.2.length ≠ 0 then .err "trailing data" else parseCSR env r.1

/-- `VerifyCSRSign` (gmx509.go:536-539): the type assertion panics when the key is not an SM2 key. -/
def verifyCSRSign (csr : CertReq U) (userId : Option Bytes) : Res Bool :=
  match csr.publicKey with
  | none => .panic
  | some pub => Sm2.verify pub userId csr.rawTBS csr.signature

/-- `VerifyDERCSRSign` (gmx509.go:528-534). -/
def verifyDERCSRSign (env : Env U) (asn1Data : Bytes) (userId : Option Bytes) : Res Bool := do
  let csr ← parseCertificateRequest env asn1Data
  verifyCSRSign csr userId

end Verif.Cert
