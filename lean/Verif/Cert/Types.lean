import Verif.Der.Types
import Verif.Cert.Leaf
/-!
# ASN.1 types of sm2/cert/gmx509.go

The struct types that the file declares and those of crypto/x509/pkix (Go 1.12) it uses, as codec records. A struct is a
SEQUENCE of its fields; extra bytes at the end of the SEQUENCE are ignored (encoding/asn1 `parseField`, struct case). A
leading `asn1.RawContent` field receives the whole element when parsing, and replaces the other fields when marshalling
if it is not empty.
-/
namespace Verif.Cert
open Verif Verif.Der

/-! ## The OIDs, gmx509.go:24-45 -/

def oidSM2P256V1 : OID := [1, 2, 156, 10197, 1, 301]
def oidSignatureSM3WithSM2 : OID := [1, 2, 156, 10197, 1, 501]
def oidPublicKeyECDSA : OID := [1, 2, 840, 10045, 2, 1]
def oidExtensionRequest : OID := [1, 2, 840, 113549, 1, 9, 14]
def oidExtensionSubjectKeyId : OID := [2, 5, 29, 14]
def oidExtensionKeyUsage : OID := [2, 5, 29, 15]
def oidExtensionExtendedKeyUsage : OID := [2, 5, 29, 37]
def oidExtensionAuthorityKeyId : OID := [2, 5, 29, 35]
def oidExtensionBasicConstraints : OID := [2, 5, 29, 19]
def oidExtensionSubjectAltName : OID := [2, 5, 29, 17]
def oidExtensionCertificatePolicies : OID := [2, 5, 29, 32]
def oidExtensionNameConstraints : OID := [2, 5, 29, 30]
def oidExtensionCRLDistributionPoints : OID := [2, 5, 29, 31]
def oidExtensionAuthorityInfoAccess : OID := [1, 3, 6, 1, 5, 5, 7, 1, 1]
def oidAuthorityInfoAccessOcsp : OID := [1, 3, 6, 1, 5, 5, 7, 48, 1]
def oidAuthorityInfoAccessIssuers : OID := [1, 3, 6, 1, 5, 5, 7, 48, 2]

/-- A struct type: contents octets and whole element to value, value to contents octets (encoding/asn1). -/
def tyStruct {α : Type} (zero : α) (isZero : α → Bool) (body : Bytes → Bytes → Res α) (make : α → Res Bytes) : Ty α where
  tag := 16
  compound := true
  zero := zero
  body _ _ inner full := body inner full
  make p v := makeTagged p 16 true (isZero v) (fun _ => false) (make v)

/-- `stripTagAndLength` (encoding/asn1 marshal.go). -/
def stripTagAndLength (bs : Bytes) : Bytes :=
  match parseTagAndLength bs with
  | .ok r => r.2
  | _ => bs

/-- The struct case of `makeBody` (marshal.go) with a leading `RawContent`. -/
def withRaw (raw : Bytes) (fields : Res Bytes) : Res Bytes :=
  if raw.length > 0 then .ok (stripTagAndLength raw) else fields

/-! ## crypto/x509/pkix -/

/-- `pkix.AlgorithmIdentifier`. -/
structure AlgId where
  algorithm : OID := []
  parameters : RawValue := {}
  deriving DecidableEq, Repr

/-- `pkix.AlgorithmIdentifier`: `Parameters` is optional. -/
def tyAlgId : Ty AlgId := tyStruct {} (· = {})
  (fun inner _ => do
    let a ← parseField tyOID {} inner
    let b ← parseField tyRaw { optional := true } a.2
    .ok ⟨a.1, b.1⟩)
  (fun v => do
    let a ← tyOID.make {} v.algorithm
    let b ← tyRaw.make { optional := true } v.parameters
    .ok (a ++ b))

/-- `pkix.Extension`. -/
structure Extension where
  id : OID := []
  critical : Bool := false
  value : Bytes := []
  deriving DecidableEq, Repr

/-- `pkix.Extension`: `Critical` is optional. -/
def tyExtension : Ty Extension := tyStruct {} (· = {})
  (fun inner _ => do
    let a ← parseField tyOID {} inner
    let b ← parseField tyBool { optional := true } a.2
    let c ← parseField tyBytes {} b.2
    .ok ⟨a.1, b.1, c.1⟩)
  (fun v => do
    let a ← tyOID.make {} v.id
    let b ← tyBool.make { optional := true } v.critical
    let c ← tyBytes.make {} v.value
    .ok (a ++ (b ++ c)))

/-- `pkix.AttributeTypeAndValue`. -/
structure ATV where
  type : OID := []
  value : AnyVal := .nil
  deriving DecidableEq, Repr

/-- `pkix.AttributeTypeAndValue`. -/
def tyATV : Ty ATV := tyStruct {} (· = {})
  (fun inner _ => do
    let a ← parseField tyOID {} inner
    let b ← parseAny a.2
    .ok ⟨a.1, b.1⟩)
  (fun v => do
    let a ← tyOID.make {} v.type
    let b ← makeAny v.value
    .ok (a ++ b))

/-- `pkix.RDNSequence`: a sequence of `RelativeDistinguishedNameSET`s. -/
abbrev RDNSequence := List (List ATV)

/-- `pkix.RDNSequence`. -/
def tyRDNSequence : Ty RDNSequence := tySlice false (tySlice true tyATV)

/-- `pkix.AttributeTypeAndValueSET`. -/
structure ATVSET where
  type : OID := []
  value : List (List ATV) := []
  deriving DecidableEq, Repr

/-- `pkix.AttributeTypeAndValueSET`: `Value` is a SET. -/
def tyATVSET : Ty ATVSET := tyStruct {} (· = {})
  (fun inner _ => do
    let a ← parseField tyOID {} inner
    let b ← parseField (tySlice false (tySlice false tyATV)) { set := true } a.2
    .ok ⟨a.1, b.1⟩)
  (fun v => do
    let a ← tyOID.make {} v.type
    let b ← (tySlice false (tySlice false tyATV)).make { set := true } v.value
    .ok (a ++ b))

/-! ## Types of gmx509.go -/

/-- `publicKeyInfo`, gmx509.go:54-58. -/
structure PublicKeyInfo where
  raw : Bytes := []
  algorithm : AlgId := {}
  publicKey : BitString := {}
  deriving DecidableEq, Repr

/-- `publicKeyInfo`, gmx509.go:54-58. -/
def tyPublicKeyInfo : Ty PublicKeyInfo := tyStruct {} (· = {})
  (fun inner full => do
    let a ← parseField tyAlgId {} inner
    let b ← parseField tyBits {} a.2
    .ok ⟨full, a.1, b.1⟩)
  (fun v => withRaw v.raw (do
    let a ← tyAlgId.make {} v.algorithm
    let b ← tyBits.make {} v.publicKey
    .ok (a ++ b)))

/-- `tbsCertificateRequest`, gmx509.go:60-66. -/
structure TbsCSR where
  raw : Bytes := []
  version : Int := 0
  subject : RawValue := {}
  publicKey : PublicKeyInfo := {}
  rawAttributes : List RawValue := []
  deriving DecidableEq, Repr

/-- `tbsCertificateRequest`, gmx509.go:60-66: the attributes are tagged 0 and mandatory. -/
def tyTbsCSR : Ty TbsCSR := tyStruct {} (· = {})
  (fun inner full => do
    let a ← parseField tyInt {} inner
    let b ← parseField tyRaw {} a.2
    let c ← parseField tyPublicKeyInfo {} b.2
    let d ← parseField (tySlice false tyRaw) { tag := some 0 } c.2
    .ok ⟨full, a.1, b.1, c.1, d.1⟩)
  (fun v => withRaw v.raw (do
    let a ← tyInt.make {} v.version
    let b ← tyRaw.make {} v.subject
    let c ← tyPublicKeyInfo.make {} v.publicKey
    let d ← (tySlice false tyRaw).make { tag := some 0 } v.rawAttributes
    .ok (a ++ (b ++ (c ++ d)))))

/-- `certificateRequest`, gmx509.go:68-73. -/
structure CSR where
  raw : Bytes := []
  tbs : TbsCSR := {}
  sigAlg : AlgId := {}
  sigValue : BitString := {}
  deriving DecidableEq, Repr

/-- `certificateRequest`, gmx509.go:68-73. -/
def tyCSR : Ty CSR := tyStruct {} (· = {})
  (fun inner full => do
    let a ← parseField tyTbsCSR {} inner
    let b ← parseField tyAlgId {} a.2
    let c ← parseField tyBits {} b.2
    .ok ⟨full, a.1, b.1, c.1⟩)
  (fun v => withRaw v.raw (do
    let a ← tyTbsCSR.make {} v.tbs
    let b ← tyAlgId.make {} v.sigAlg
    let c ← tyBits.make {} v.sigValue
    .ok (a ++ (b ++ c))))

/-- `pkcs10Attribute`, gmx509.go:389-392. -/
structure Pkcs10Attribute where
  id : OID := []
  values : List RawValue := []
  deriving DecidableEq, Repr

/-- `pkcs10Attribute`, gmx509.go:389-392. Only parsed. -/
def tyPkcs10Attribute : Ty Pkcs10Attribute := tyStruct {} (· = {})
  (fun inner _ => do
    let a ← parseField tyOID {} inner
    let b ← parseField (tySlice false tyRaw) { set := true } a.2
    .ok ⟨a.1, b.1⟩)
  (fun v => do
    let a ← tyOID.make {} v.id
    let b ← (tySlice false tyRaw).make { set := true } v.values
    .ok (a ++ b))

/-- `basicConstraints`, gmx509.go:647-650. -/
structure BasicConstraints where
  isCA : Bool := false
  maxPathLen : Int := 0
  deriving DecidableEq, Repr

/-- `basicConstraints`, gmx509.go:647-650: both optional, the second with default -1. -/
def tyBasicConstraints : Ty BasicConstraints := tyStruct {} (· = {})
  (fun inner _ => do
    let a ← parseField tyBool { optional := true } inner
    let b ← parseField tyInt { optional := true, defaultValue := some (-1) } a.2
    .ok ⟨a.1, b.1⟩)
  (fun v => do
    let a ← tyBool.make { optional := true } v.isCA
    let b ← tyInt.make { optional := true, defaultValue := some (-1) } v.maxPathLen
    .ok (a ++ b))

/-- `authKeyId`, gmx509.go:653-655: `none` is a nil slice. -/
def tyAuthKeyId : Ty (Option Bytes) := tyStruct none (· = none)
  (fun inner _ => do
    let a ← parseField tyOptBytes { optional := true, tag := some 0 } inner
    .ok a.1)
  (fun v => tyOptBytes.make { optional := true, tag := some 0 } v)

/-- `authorityInfoAccess`, gmx509.go:658-661. -/
structure AIA where
  method : OID := []
  location : RawValue := {}
  deriving DecidableEq, Repr

/-- `authorityInfoAccess`, gmx509.go:658-661. -/
def tyAIA : Ty AIA := tyStruct {} (· = {})
  (fun inner _ => do
    let a ← parseField tyOID {} inner
    let b ← parseField tyRaw {} a.2
    .ok ⟨a.1, b.1⟩)
  (fun v => do
    let a ← tyOID.make {} v.method
    let b ← tyRaw.make {} v.location
    .ok (a ++ b))

/-- `policyInformation`, gmx509.go:664-667: the value is the `Policy` field. -/
def tyPolicyInformation : Ty OID := tyStruct [] (· = [])
  (fun inner _ => do
    let a ← parseField tyOID {} inner
    .ok a.1)
  (fun v => tyOID.make {} v)

/-- `distributionPointName`, gmx509.go:669-672. -/
structure DPName where
  fullName : Option (List RawValue) := none
  relativeName : Option RDNSequence := none
  deriving DecidableEq, Repr

/-- `distributionPointName`, gmx509.go:669-672. -/
def tyDPName : Ty DPName := tyStruct {} (· = {})
  (fun inner _ => do
    let a ← parseField (tyOptSlice tyRaw) { optional := true, tag := some 0 } inner
    let b ← parseField (tyOptSlice (tySlice true tyATV)) { optional := true, tag := some 1 } a.2
    .ok ⟨a.1, b.1⟩)
  (fun v => do
    let a ← (tyOptSlice tyRaw).make { optional := true, tag := some 0 } v.fullName
    let b ← (tyOptSlice (tySlice true tyATV)).make { optional := true, tag := some 1 } v.relativeName
    .ok (a ++ b))

/-- `distributionPoint`, gmx509.go:675-679. -/
structure DP where
  name : DPName := {}
  reason : Option BitString := none
  crlIssuer : RawValue := {}
  deriving DecidableEq, Repr

/-- `distributionPoint`, gmx509.go:675-679. -/
def tyDP : Ty DP := tyStruct {} (· = {})
  (fun inner _ => do
    let a ← parseField tyDPName { optional := true, tag := some 0 } inner
    let b ← parseField tyOptBits { optional := true, tag := some 1 } a.2
    let c ← parseField tyRaw { optional := true, tag := some 2 } b.2
    .ok ⟨a.1, b.1, c.1⟩)
  (fun v => do
    let a ← tyDPName.make { optional := true, tag := some 0 } v.name
    let b ← tyOptBits.make { optional := true, tag := some 1 } v.reason
    let c ← tyRaw.make { optional := true, tag := some 2 } v.crlIssuer
    .ok (a ++ (b ++ c)))

/-- `validity`, gmx509.go:952-954. -/
structure Validity where
  notBefore : Time
  notAfter : Time
  deriving DecidableEq, Repr

/-- `validity`, gmx509.go:952-954. -/
def tyValidity : Ty Validity := tyStruct ⟨tyTime.zero, tyTime.zero⟩ (· = ⟨tyTime.zero, tyTime.zero⟩)
  (fun inner _ => do
    let a ← parseField tyTime {} inner
    let b ← parseField tyTime {} a.2
    .ok ⟨a.1, b.1⟩)
  (fun v => do
    let a ← tyTime.make {} v.notBefore
    let b ← tyTime.make {} v.notAfter
    .ok (a ++ b))

/-- `tbsCertificate`, gmx509.go:963-977; `none` extensions are a nil slice. -/
structure TbsCert where
  raw : Bytes := []
  version : Int := 0
  serial : Int := 0
  sigAlg : AlgId := {}
  issuer : RawValue := {}
  validity : Validity := ⟨tyTime.zero, tyTime.zero⟩
  subject : RawValue := {}
  publicKey : PublicKeyInfo := {}
  uniqueId : Option BitString := none
  subjectUniqueId : Option BitString := none
  extensions : Option (List Extension) := none
  deriving DecidableEq, Repr

/-- `tbsCertificate`, gmx509.go:963-977. -/
def tyTbsCert : Ty TbsCert := tyStruct {} (· = {})
  (fun inner full => do
    let a ← parseField tyInt { optional := true, explicit := true, defaultValue := some 0, tag := some 0 } inner
    let b ← parseField tyBig {} a.2
    let c ← parseField tyAlgId {} b.2
    let d ← parseField tyRaw {} c.2
    let e ← parseField tyValidity {} d.2
    let f ← parseField tyRaw {} e.2
    let g ← parseField tyPublicKeyInfo {} f.2
    let h ← parseField tyOptBits { optional := true, tag := some 1 } g.2
    let i ← parseField tyOptBits { optional := true, tag := some 2 } h.2
    let j ← parseField (tyOptSlice tyExtension) { optional := true, explicit := true, tag := some 3 } i.2
    .ok ⟨full, a.1, b.1, c.1, d.1, e.1, f.1, g.1, h.1, i.1, j.1⟩)
  (fun v => withRaw v.raw (do
    let a ← tyInt.make { optional := true, explicit := true, defaultValue := some 0, tag := some 0 } v.version
    let b ← tyBig.make {} v.serial
    let c ← tyAlgId.make {} v.sigAlg
    let d ← tyRaw.make {} v.issuer
    let e ← tyValidity.make {} v.validity
    let f ← tyRaw.make {} v.subject
    let g ← tyPublicKeyInfo.make {} v.publicKey
    let h ← tyOptBits.make { optional := true, tag := some 1 } v.uniqueId
    let i ← tyOptBits.make { optional := true, tag := some 2 } v.subjectUniqueId
    let j ← (tyOptSlice tyExtension).make { optional := true, explicit := true, tag := some 3 } v.extensions
    .ok (a ++ (b ++ (c ++ (d ++ (e ++ (f ++ (g ++ (h ++ (i ++ j)))))))))))

/-- `certificate`, gmx509.go:956-961. -/
structure Certificate where
  raw : Bytes := []
  tbs : TbsCert := {}
  sigAlg : AlgId := {}
  sigValue : BitString := {}
  deriving DecidableEq, Repr

/-- `certificate`, gmx509.go:956-961. -/
def tyCertificate : Ty Certificate := tyStruct {} (· = {})
  (fun inner full => do
    let a ← parseField tyTbsCert {} inner
    let b ← parseField tyAlgId {} a.2
    let c ← parseField tyBits {} b.2
    .ok ⟨full, a.1, b.1, c.1⟩)
  (fun v => withRaw v.raw (do
    let a ← tyTbsCert.make {} v.tbs
    let b ← tyAlgId.make {} v.sigAlg
    let c ← tyBits.make {} v.sigValue
    .ok (a ++ (b ++ c))))

end Verif.Cert
