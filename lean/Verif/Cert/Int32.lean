import Verif.CB.Int32
import Verif.Cert.Parse
/-!
# Name constraints on platforms where `int` has 32 bits

`parseNameConstraintsExtension` of /repo/sm2/cert/gmx509.go with the readers of `CB/Int32.lean`, and what calls it. The
fields `Version` and `MaxPathLen`, of type `int` too, are read as on 64-bit platforms (encoding/asn1 rejects values that
do not fit in 32 bits).
-/
namespace Verif.Cert.P32
open Verif Verif.Der Verif.Cert

variable {U : Type}

/-- The loop of `getValues` (gmx509.go:1335-1443). -/
def getValues (env : Env U) : Nat → CB.Str → Subtrees → Res Subtrees
  | fuel, subtrees, st =>
    if subtrees.empty then .ok st
    else
      match fuel with
      | 0 => .loop
      | fuel + 1 => do
        let (seq, subtrees) ← CB.P32.readASN1Tag CB.tagSEQUENCE subtrees
        match seq with
        | none => .err "x509: invalid NameConstraints extension"
        | some seq => do
          let (tv, _) ← CB.P32.readAnyASN1 seq
          match tv with
          | none => .err "x509: invalid NameConstraints extension"
          | some (tag, value) => do
            let st ← subtreeValue env st tag value.bytes
            getValues env fuel subtrees st

/-- The header of the extension (gmx509.go:1315-1324). -/
def readNameConstraints (value : Bytes) : Res (Option (Option CB.Str × Option CB.Str)) := do
  let (toplevel, outer) ← CB.P32.readASN1Tag CB.tagSEQUENCE (some value)
  match toplevel with
  | none => .ok none
  | some toplevel =>
    if !outer.empty then .ok none
    else do
      let (permitted, toplevel) ← CB.P32.readOptionalASN1 ((0 : CB.Tag).contextSpecific).constructed toplevel
      match permitted with
      | none => .ok none
      | some permitted => do
        let (excluded, toplevel) ← CB.P32.readOptionalASN1 ((1 : CB.Tag).contextSpecific).constructed toplevel
        match excluded with
        | none => .ok none
        | some excluded => if !toplevel.empty then .ok none else .ok (some (permitted, excluded))

/-- `parseNameConstraintsExtension` (gmx509.go:1299-1457). -/
def parseNameConstraints (env : Env U) (value : Bytes) : Res (Subtrees × Subtrees) := do
  let r ← readNameConstraints value
  match r with
  | none => .err "x509: invalid NameConstraints extension"
  | some (permitted, excluded) =>
    let p : CB.Str := permitted.getD none
    let e : CB.Str := excluded.getD none
    if (permitted = none ∧ excluded = none) ∨ (p.len = 0 ∧ e.len = 0) then .err "x509: empty name constraints extension"
    else do
      let ps ← getValues env p.len p {}
      let es ← getValues env e.len e {}
      .ok (ps, es)

/-- The body of the loop over the extensions (gmx509.go:1119-1288). -/
def parseExtension (env : Env U) (out : X509Cert U) (e : Extension) : Res (X509Cert U × Bool) :=
  if e.id = oidExtensionNameConstraints then do
    let (p, x) ← parseNameConstraints env e.value
    .ok ({ out with
      permittedDNSDomains := p.dnsNames, permittedIPRanges := p.ips
      permittedEmailAddresses := p.emails, permittedURIDomains := p.uriDomains
      excludedDNSDomains := x.dnsNames, excludedIPRanges := x.ips
      excludedEmailAddresses := x.emails, excludedURIDomains := x.uriDomains
      permittedDNSDomainsCritical := e.critical }, p.unhandled || x.unhandled)
  else Cert.parseExtension env out e

/-- The loop over the extensions (gmx509.go:1117-1294). -/
def parseExtensions (env : Env U) : List Extension → X509Cert U → Res (X509Cert U)
  | [], out => .ok out
  | e :: es, out => do
    let (out, unhandled) ← parseExtension env { out with extensions := out.extensions ++ [e] } e
    parseExtensions env es (if e.critical = true ∧ unhandled = true then
      { out with unhandledCriticalExtensions := out.unhandledCriticalExtensions ++ [e.id] } else out)

/-- `parseCertificate` (gmx509.go:1071-1297). -/
def parseCert (env : Env U) (inp : Certificate) : Res (X509Cert U) :=
  if inp.sigAlg.algorithm ≠ oidSignatureSM3WithSM2 then .err "x509: illegal signature algorithm OID"
  else if inp.tbs.publicKey.algorithm.algorithm ≠ oidPublicKeyECDSA then .err "x509: illegal publick key algorithm OID"
  else do
    let pub ← parsePublicKey inp.tbs.publicKey
    let subject ← parseName inp.tbs.subject.fullBytes
    let issuer ← parseName inp.tbs.issuer.fullBytes
    parseExtensions env (inp.tbs.extensions.getD []) {
      raw := inp.raw
      rawTBS := inp.tbs.raw
      rawSPKI := inp.tbs.publicKey.raw
      rawSubject := inp.tbs.subject.fullBytes
      rawIssuer := inp.tbs.issuer.fullBytes
      signature := inp.sigValue.rightAlign
      publicKey := some pub
      version := (BitVec.ofInt 64 (inp.tbs.version + 1)).toInt
      serialNumber := some inp.tbs.serial
      issuer := Name.fillFromRDNSequence {} issuer
      subject := Name.fillFromRDNSequence {} subject
      notBefore := inp.tbs.validity.notBefore
      notAfter := inp.tbs.validity.notAfter }

/-- `ParseCertificate` (gmx509.go:1058-1069). -/
def parseCertificate (env : Env U) (asn1Data : Bytes) : Res (X509Cert U) := do
  let r ← unmarshal tyCertificate asn1Data
  if r.2.length > 0 then .err "trailing data" else parseCert env r.1

end Verif.Cert.P32
