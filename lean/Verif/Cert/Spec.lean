import Verif.CB.OidSpec
import Verif.CB.BitSpec
import Verif.Sm2.Spec
/-!
# The shape of certificates and requests (X.509, PKCS#10) with SM2 keys

Written from the standards (GM/T 0015, RFC 5280, RFC 2986), independently of the model of the code. Where encoding/asn1
is more liberal than DER (object identifiers with superfluous septets, octets at the end of a SEQUENCE), so is this.
-/
namespace Verif.Spec.Cert
open Verif Verif.Spec.DER Verif.Spec.SM2

/-- SM3 with SM2 signatures (GM/T 0006). -/
def sm3WithSM2 : List Nat := [1, 2, 156, 10197, 1, 501]
/-- Keys on elliptic curves (RFC 5480). -/
def ecPublicKey : List Nat := [1, 2, 840, 10045, 2, 1]
/-- The SM2 curve (GM/T 0006). -/
def sm2Curve : List Nat := [1, 2, 156, 10197, 1, 301]

/-- `c` are groups of septets (X.690 8.19.2) for the subidentifiers of `oid`. -/
def NamesOID (oid : List Nat) (c : Bytes) : Prop :=
  ∃ gs : List Bytes, c = gs.flatten ∧ List.Forall₂ (fun n g => IsGroup g ∧ subValue g = n) (subids oid) gs

/-- `AlgorithmIdentifier` with the given algorithm and what follows it. -/
def IsAlg (oid : List Nat) (params : Bytes) (e : Bytes) : Prop := ∃ c, NamesOID oid c ∧ e = elem 0x30 (elem 0x06 c ++ params)

/-- `e` is a `SubjectPublicKeyInfo` for the point with coordinates `x`, `y`: the key algorithm, the curve and a bit string
that is, without its unused bits, the uncompressed point. -/
def IsKeyInfo (x y : ℕ) (e : Bytes) : Prop :=
  ∃ (alg curve : Bytes) (pad : Byte) (bits t1 t2 : Bytes), NamesOID sm2Curve curve ∧ IsAlg ecPublicKey (elem 0x06 curve ++ t1) alg ∧
    pad.toNat ≤ 7 ∧ bits.length = 65 ∧ beNat bits = beNat (4 :: (fe x ++ fe y)) * 2 ^ pad.toNat ∧
    e = elem 0x30 (alg ++ elem 0x03 (pad :: bits) ++ t2)

/-- `e` is the signed structure with signed part `tbs`, for SM3 with SM2; `sig` are the contents of the signature's
bit string. -/
def IsSigned (tbs sig : Bytes) (e : Bytes) : Prop :=
  ∃ alg params extra, IsAlg sm3WithSM2 params alg ∧ e = elem 0x30 (tbs ++ alg ++ elem 0x03 sig ++ extra)

/-- `tbs` is a `CertificationRequestInfo` with this subject and key. -/
def IsRequestInfo (subject key tbs : Bytes) : Prop :=
  ∃ version attributes extra, tbs = elem 0x30 (elem 0x02 version ++ elem 0x30 subject ++ key ++ elem 0xa0 attributes ++ extra)

/-- `tbs` is a `TBSCertificate` with this issuer, subject and key; `version` is what stands before the serial number
and `after` what follows the key. -/
def IsCertInfo (issuer subject key tbs : Bytes) : Prop :=
  ∃ version serial alg validity after,
    tbs = elem 0x30 (version ++ elem 0x02 serial ++ elem 0x30 alg ++ elem 0x30 issuer ++ elem 0x30 validity ++
      elem 0x30 subject ++ key ++ after)

/-- A point of the curve other than infinity. -/
def IsPoint (x y : ℕ) : Prop := ∃ Q : Sm2.Pt, coords Q = some (x, y)

/-- `sig` are the contents of a bit string whose bits, moved to the right, are `bytes`. -/
def IsBitsOf (bytes : Bytes) (sig : Bytes) : Prop :=
  ∃ (pad : Byte) (bits : Bytes), sig = pad :: bits ∧ pad.toNat ≤ 7 ∧ bits.length = bytes.length ∧ beNat bits = beNat bytes * 2 ^ pad.toNat

/-- `data` is a certification request for an SM2 key, signed with SM3 and SM2. -/
def IsRequest (data : Bytes) : Prop :=
  ∃ x y subject key tbs sig, IsPoint x y ∧ IsKeyInfo x y key ∧ IsRequestInfo subject key tbs ∧ IsSigned tbs sig data

/-- `data` is a certificate for an SM2 key, signed with SM3 and SM2. -/
def IsCertificate (data : Bytes) : Prop :=
  ∃ x y issuer subject key tbs sig, IsPoint x y ∧ IsKeyInfo x y key ∧ IsCertInfo issuer subject key tbs ∧ IsSigned tbs sig data

/-! ## Elements with any tag -/

/-- Identifier octets (X.690 8.1.2): class, form and tag number; the requirement of the fewest octets for high tag numbers
is left out, as encoding/asn1 does. -/
def IsIdent (cls : ℕ) (constructed : Bool) (tag : ℕ) (id : Bytes) : Prop :=
  cls < 4 ∧ ((tag < 31 ∧ id = [BitVec.ofNat 8 (cls * 64 + (if constructed then 32 else 0) + tag)]) ∨
    (31 ≤ tag ∧ ∃ g, id = BitVec.ofNat 8 (cls * 64 + (if constructed then 32 else 0) + 31) :: g ∧ IsGroup g ∧ subValue g = tag))

/-- `e` is one element with contents `c`. -/
def IsTLV (cls : ℕ) (constructed : Bool) (tag : ℕ) (c e : Bytes) : Prop :=
  ∃ id, IsIdent cls constructed tag id ∧ e = id ++ lenOctets c.length ++ c

/-! ## Subject alternative names (RFC 5280 4.2.1.6) -/

/-- An address of four octets as the IPv4-mapped one of sixteen (RFC 4291 2.5.5.2). -/
def ip16 (ip : Bytes) : Bytes := if ip.length = 4 then List.replicate 10 0 ++ [0xff, 0xff] ++ ip else ip

/-- The two byte strings are the same address (as `net.IP.Equal`). -/
def SameIP (a b : Bytes) : Prop := ip16 a = ip16 b

/-- An IPv4 address has four octets or is mapped; the result is the `iPAddress` to be encoded. -/
def IsWireIP (ip w : Bytes) : Prop := SameIP ip w ∧ (w.length = 4 ∨ w.length = 16 ∧ w.take 12 ≠ List.replicate 10 0 ++ [0xff, 0xff])

/-- `GeneralNames` of DNS names, mail addresses, IP addresses and URIs, in this order. -/
def generalNames (dns emails ips uris : List Bytes) : Bytes :=
  elem 0x30 (dns.flatMap (elem 0x82) ++ emails.flatMap (elem 0x81) ++ ips.flatMap (elem 0x87) ++ uris.flatMap (elem 0x86))

/-! ## Name constraints (RFC 5280 4.2.1.10) -/

/-- The base of a `GeneralSubtree`: identifier octet and contents of the name. -/
abbrev Base := Byte × Bytes

/-- `GeneralSubtree` with this base and what follows it (minimum and maximum). -/
def subtree (b : Base) (more : Bytes) : Bytes := elem 0x30 (elem b.1 b.2 ++ more)

/-- An optional field. -/
def optField (t : Byte) : Option Bytes → Bytes
  | none => []
  | some c => elem t c

/-- `NameConstraints` with these fields. -/
def nameConstraints (permitted excluded : Option Bytes) : Bytes := elem 0x30 (optField 0xa0 permitted ++ optField 0xa1 excluded)

/-- The values of the names with identifier octet `t`. -/
def valuesOf (t : Byte) (bases : List Base) : List Bytes := (bases.filter fun b => b.1 = t).map Prod.snd

/-- All characters are ASCII. -/
def IA5 (s : Bytes) : Prop := ∀ b ∈ s, b.toNat < 0x80

end Verif.Spec.Cert
