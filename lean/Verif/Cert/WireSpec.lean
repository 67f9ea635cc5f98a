import Verif.CB.OidSpec
import Verif.CB.IntSpec
/-!
# Certificates (RFC 5280 4.1), requests (RFC 2986 4) and extensions (RFC 5280 4.2) as octets, independently of the model
-/
namespace Verif.Spec.Wire
open Verif Verif.Spec.DER

/-- `OBJECT IDENTIFIER`. -/
def IsOidElem (oid : List ℕ) (e : Bytes) : Prop := ∃ c, IsOID oid c ∧ e = elem 0x06 c

/-- `AlgorithmIdentifier` of SM2 signatures with SM3, 1.2.156.10197.1.501 (GB/T 33560), without parameters. -/
def sm2WithSm3 : Bytes := elem 0x30 (elem 0x06 [0x2a, 0x81, 0x1c, 0xcf, 0x55, 0x01, 0x83, 0x75])

/-- `BIT STRING` of whole octets. -/
def bitString (b : Bytes) : Bytes := elem 0x03 (0 :: b)

/-- `SubjectPublicKeyInfo` of an elliptic curve key (1.2.840.10045.2.1) on the SM2 curve (1.2.156.10197.1.301), RFC 5480 and
GM/T 0009. -/
def publicKeyInfo (point : Bytes) : Bytes :=
  elem 0x30 (elem 0x30 (elem 0x06 [0x2a, 0x86, 0x48, 0xce, 0x3d, 0x02, 0x01] ++ elem 0x06 [0x2a, 0x81, 0x1c, 0xcf, 0x55, 0x01, 0x82, 0x2d]) ++
    bitString point)

/-- `Extension`; the default of `critical` is not encoded. -/
def extension (oid : Bytes) (critical : Bool) (value : Bytes) : Bytes :=
  elem 0x30 (oid ++ (if critical then [0x01, 0x01, 0xff] else []) ++ elem 0x04 value)

/-- `TBSCertificate` of version 3; all parts but the serial number are elements. -/
def tbsCertificate (serial issuer notBefore notAfter subject spki : Bytes) (extensions : List Bytes) : Bytes :=
  elem 0x30 (elem 0xa0 [0x02, 0x01, 0x02] ++ elem 0x02 serial ++ sm2WithSm3 ++ issuer ++ elem 0x30 (notBefore ++ notAfter) ++ subject ++ spki ++
    elem 0xa3 (elem 0x30 extensions.flatten))

/-- `CertificationRequestInfo` of version 1. -/
def requestInfo (subject spki : Bytes) (attributes : List Bytes) : Bytes :=
  elem 0x30 ([0x02, 0x01, 0x00] ++ subject ++ spki ++ elem 0xa0 attributes.flatten)

/-- `Attribute` of RFC 2985 5.4.2, extensionRequest (1.2.840.113549.1.9.14) with one value, the `Extensions`. -/
def extensionRequest (extensions : List Bytes) : Bytes :=
  elem 0x30 (elem 0x06 [0x2a, 0x86, 0x48, 0x86, 0xf7, 0x0d, 0x01, 0x09, 0x0e] ++ elem 0x31 (elem 0x30 extensions.flatten))

/-- `Certificate` and `CertificationRequest`: the signed part, the algorithm, the signature. -/
def signed (tbs signature : Bytes) : Bytes := elem 0x30 (tbs ++ sm2WithSm3 ++ bitString signature)

/-! ## Contents of extensions -/

/-- `AuthorityKeyIdentifier` with a key identifier only. -/
def authorityKeyIdentifier (k : Bytes) : Bytes := elem 0x30 (elem 0x80 k)

/-- `BasicConstraints`; `pathLen`: contents of the INTEGER. -/
def basicConstraints (ca : Bool) (pathLen : Option Bytes) : Bytes :=
  elem 0x30 ((if ca then [0x01, 0x01, 0xff] else []) ++ (pathLen.map (elem 0x02)).getD [])

/-- `AccessDescription` with method 1.3.6.1.5.5.7.48.`k` and a URI. -/
def accessDescription (k : Byte) (uri : Bytes) : Bytes :=
  elem 0x30 (elem 0x06 [0x2b, 0x06, 0x01, 0x05, 0x05, 0x07, 0x30, k] ++ elem 0x86 uri)

/-- `AuthorityInfoAccessSyntax`: OCSP servers, issuers. -/
def authorityInfoAccess (ocsp issuers : List Bytes) : Bytes :=
  elem 0x30 (ocsp.flatMap (accessDescription 1) ++ issuers.flatMap (accessDescription 2))

/-- `CRLDistributionPoints`, each with a full name that is one URI. -/
def crlDistributionPoints (uris : List Bytes) : Bytes :=
  elem 0x30 (uris.flatMap fun u => elem 0x30 (elem 0xa0 (elem 0xa0 (elem 0x86 u))))

/-- `CertificatePolicies` without qualifiers. -/
def certificatePolicies (oids : List Bytes) : Bytes := elem 0x30 (oids.flatMap fun o => elem 0x30 o)

end Verif.Spec.Wire
