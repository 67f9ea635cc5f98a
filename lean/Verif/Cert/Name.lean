import Verif.Cert.Types
/-!
# `pkix.Name` (Go 1.12 crypto/x509/pkix/pkix.go)

Standard library text, part of the trusted base: the conversions between names and RDN sequences.
-/
namespace Verif.Cert
open Verif Verif.Der

/-- `pkix.Name`. -/
structure Name where
  country : List Bytes := []
  organization : List Bytes := []
  organizationalUnit : List Bytes := []
  locality : List Bytes := []
  province : List Bytes := []
  streetAddress : List Bytes := []
  postalCode : List Bytes := []
  serialNumber : Bytes := []
  commonName : Bytes := []
  names : List ATV := []
  extraNames : List ATV := []
  deriving DecidableEq, Repr

def oidCountry : OID := [2, 5, 4, 6]
def oidOrganization : OID := [2, 5, 4, 10]
def oidOrganizationalUnit : OID := [2, 5, 4, 11]
def oidCommonName : OID := [2, 5, 4, 3]
def oidSerialNumber : OID := [2, 5, 4, 5]
def oidLocality : OID := [2, 5, 4, 7]
def oidProvince : OID := [2, 5, 4, 8]
def oidStreetAddress : OID := [2, 5, 4, 9]
def oidPostalCode : OID := [2, 5, 4, 17]

/-- `Name.appendRDNs` (pkix.go). -/
def Name.appendRDNs (n : Name) (inp : RDNSequence) (values : List Bytes) (oid : OID) : RDNSequence :=
  if values.length = 0 ∨ n.extraNames.any (fun atv => atv.type = oid) then inp
  else inp ++ [values.map fun v => ⟨oid, .str v⟩]

/-- `Name.ToRDNSequence` (pkix.go). -/
def Name.toRDNSequence (n : Name) : RDNSequence :=
  let ret := n.appendRDNs [] n.country oidCountry
  let ret := n.appendRDNs ret n.organization oidOrganization
  let ret := n.appendRDNs ret n.organizationalUnit oidOrganizationalUnit
  let ret := n.appendRDNs ret n.locality oidLocality
  let ret := n.appendRDNs ret n.province oidProvince
  let ret := n.appendRDNs ret n.streetAddress oidStreetAddress
  let ret := n.appendRDNs ret n.postalCode oidPostalCode
  let ret := if n.commonName.length > 0 then n.appendRDNs ret [n.commonName] oidCommonName else ret
  let ret := if n.serialNumber.length > 0 then n.appendRDNs ret [n.serialNumber] oidSerialNumber else ret
  ret ++ n.extraNames.map fun atv => [atv]

/-- The body of the inner loop of `Name.FillFromRDNSequence` (pkix.go). -/
def Name.fillATV (n : Name) (atv : ATV) : Name :=
  let n := { n with names := n.names ++ [atv] }
  match atv.value with
  | .str value =>
    if atv.type = oidCommonName then { n with commonName := value }
    else if atv.type = oidSerialNumber then { n with serialNumber := value }
    else if atv.type = oidCountry then { n with country := n.country ++ [value] }
    else if atv.type = oidLocality then { n with locality := n.locality ++ [value] }
    else if atv.type = oidProvince then { n with province := n.province ++ [value] }
    else if atv.type = oidStreetAddress then { n with streetAddress := n.streetAddress ++ [value] }
    else if atv.type = oidOrganization then { n with organization := n.organization ++ [value] }
    else if atv.type = oidOrganizationalUnit then { n with organizationalUnit := n.organizationalUnit ++ [value] }
    else if atv.type = oidPostalCode then { n with postalCode := n.postalCode ++ [value] }
    else n
  | _ => n

/-- `Name.FillFromRDNSequence` (pkix.go). -/
def Name.fillFromRDNSequence (n : Name) (rdns : RDNSequence) : Name :=
  rdns.foldl (fun n rdn => rdn.foldl Name.fillATV n) n

end Verif.Cert
