import Verif.Props.CertRenew
/-!
# Chains of certificates (C131)

The package has no path validation: `createCertificateInfo` gets the certificate of the CA as `parent`, and that is the only
place where a certificate and that of its issuer meet.
-/
namespace Verif.Props
open Verif Verif.Der Verif.Cert Verif.Spec.DER Verif.Spec.Cert Verif.Spec.Names

variable {U : Type}

/-- What ties a certificate to that of its issuer: the name octet for octet and as read (RFC 5280 6.1.3 (a)(4)), the key
identifier (4.2.1.1), and the signature under the key of the issuer's certificate (6.1.3 (a)(1)). -/
structure ChainLink (id : Option Bytes) (p c : X509Cert U) : Prop where
  rawName : c.rawIssuer = p.rawSubject
  name : c.issuer = p.subject
  keyId : p.rawSubject ≠ c.rawSubject → p.subjectKeyId ≠ [] → c.authorityKeyId = p.subjectKeyId
  signature : ∃ pub, p.publicKey = some pub ∧ Sm2.verify pub id c.rawTBS c.signature = .ok true

/-- `c` is what is read of a certificate made with `p` as the parent and with the private key of `p`. -/
structure IssuedUnder (env : Env U) (id : Option Bytes) (p c : X509Cert U) : Prop where
  made : ∃ (der : Bytes) (csr : CertReq U) (t : X509Cert U) (tbs : TbsCert) (d : ℕ) (pub : Sm2.PublicKey) (tape : Sm2.Tape) (cert : Bytes),
    parseCertificateRequest env der = .ok csr ∧ GoodTemplate env t ∧ NotExtra t [2, 5, 29, 35] ∧ createCertificateInfo env t p csr = .ok tbs ∧
    Sm2.calculatePubKey ⟨d⟩ = .ok pub ∧ p.publicKey = some pub ∧ issueCertificateBySoftCAKey tbs ⟨d⟩ id tape = .ok cert ∧
    cert.length < 2 ^ 31 ∧ parseCertificate env cert = .ok c

/-- The name of a parsed certificate is not empty and can be read. -/
theorem parsed_subject {env : Env U} {der : Bytes} {p : X509Cert U} (hp : parseCertificate env der = .ok p) :
    p.rawSubject ≠ [] ∧ GoodSubject p.rawSubject p.subject := by
  obtain ⟨_, _, hx, _, ⟨rdns, hn, _⟩, _⟩ := cert_read hp
  refine ⟨fun e => ?_, fun _ => ⟨rdns, hn⟩, fun a ha => ?_⟩
  · rw [e] at hn
    exact parseName_nil _ hn
  · rw [hx] at ha
    simp at ha

/-- **C131** A certificate made with a parsed certificate as its parent and with the key of that one is tied to it: by the
issuer's name, by the key identifier and by the signature. -/
theorem C131_link (env : Env U) (id : Option Bytes) (old : Bytes) (p c : X509Cert U) (hp : parseCertificate env old = .ok p)
    (h : IssuedUnder env id p c) : ChainLink id p c := by
  obtain ⟨der, csr, t, tbs, d, pub, tape, cert, hcsr, ht, hx, h1, hd, hpub, hi, hl, hc⟩ := h.made
  obtain ⟨hne, hgood⟩ := parsed_subject hp
  obtain ⟨r, k1, _, _, _, _, ki, _, _, _, _, _, _, _, _, kv⟩ := C84_issued env t p der csr tbs d id tape cert ht hgood hcsr h1 hi hl
  obtain ⟨r', k1', _, _, _, _, ka, _⟩ := C84_fields env t p der csr tbs d id tape cert ht hgood hcsr h1 hi hl
  rw [hc] at k1 k1'
  simp only [Res.ok.injEq] at k1 k1'
  subst k1 k1'
  have hraw : c.rawIssuer = p.rawSubject := by
    unfold subjectBytes at ki
    rw [if_pos (List.length_pos_iff.2 hne)] at ki
    simp only [Res.ok.injEq] at ki
    exact ki.symm
  refine ⟨hraw, ?_, fun h2 h3 => ?_, pub, hpub, kv pub hd⟩
  · obtain ⟨_, _, _, _, ⟨ps, hps, he⟩, _⟩ := cert_read hp
    obtain ⟨_, _, _, _, _, ci, hci, he'⟩ := cert_read hc
    rw [hraw, hps] at hci
    simp only [Res.ok.injEq] at hci
    rw [he, he', hci]
  · rw [ka hx, akidOf, hraw, if_neg (by simp [h2, h3])]

/-- **C131** In a chain of any length, each certificate made under the one before it and the first one read from some octets,
each is tied to the one before it. -/
theorem C131_chain (env : Env U) (id : Option Bytes) (old : Bytes) (p : X509Cert U) (l : List (X509Cert U))
    (hp : parseCertificate env old = .ok p) (h : List.IsChain (IssuedUnder env id) (p :: l)) : List.IsChain (ChainLink id) (p :: l) := by
  induction l generalizing old p with
  | nil => exact .singleton p
  | cons c l ih =>
    rw [List.isChain_cons_cons] at h ⊢
    obtain ⟨_, _, _, _, _, _, _, cert, _, _, _, _, _, _, _, _, hc⟩ := h.1.made
    exact ⟨C131_link env id old p c hp h.1, ih cert c hc h.2⟩

/-- **C131** is violated for everything else that makes a certificate that of a CA: only the name and the key identifier of the
parent are looked at. What is made is the same for every certificate that has these two, be it that of no CA, without the key
usage for signing certificates, with a path length of 0 or less, expired, with name constraints that rule the new names out, or
with another key or none. -/
theorem C131_parent_violated (env : Env U) (t p q : X509Cert U) (csr : CertReq U) (h1 : q.rawSubject = p.rawSubject) (h2 : q.subject = p.subject)
    (h3 : q.subjectKeyId = p.subjectKeyId) : createCertificateInfo env t q csr = createCertificateInfo env t p csr := by
  unfold createCertificateInfo
  rw [h1, h2, h3]

/-- **C131** is violated: for every certificate that can be made there is one made by a parent that may not make it. -/
theorem C131_ca_violated (env : Env U) (t p : X509Cert U) (csr : CertReq U) (tbs : TbsCert) (h : createCertificateInfo env t p csr = .ok tbs) :
    ∃ q : X509Cert U, q.rawSubject = p.rawSubject ∧ q.basicConstraintsValid = true ∧ q.isCA = false ∧ q.keyUsage = 1 ∧
      q.notAfter = ⟨1950, 1, 1, 0, 0, 0, 0⟩ ∧ q.excludedDNSDomains = [[]] ∧ q.publicKey = none ∧ createCertificateInfo env t q csr = .ok tbs :=
  ⟨{ p with basicConstraintsValid := true, isCA := false, keyUsage := 1, notAfter := ⟨1950, 1, 1, 0, 0, 0, 0⟩, excludedDNSDomains := [[]], publicKey := none },
    rfl, rfl, rfl, rfl, rfl, rfl, rfl, h⟩

/-- **C131** is violated for the key identifier when the parent has none, or has the subject's name: it is then the one that the
template happens to have. In a renewed certificate that is the identifier of the key of the former CA. -/
theorem C131_akid_violated (env : Env U) (t p : X509Cert U) (der : Bytes) (csr : CertReq U) (tbs : TbsCert) (d : ℕ) (id : Option Bytes)
    (tape : Sm2.Tape) (cert : Bytes) (c : X509Cert U) (ht : GoodTemplate env t) (hx : NotExtra t [2, 5, 29, 35])
    (hp : GoodSubject p.rawSubject p.subject) (hcsr : parseCertificateRequest env der = .ok csr)
    (h : createCertificateInfo env t p csr = .ok tbs) (hi : issueCertificateBySoftCAKey tbs ⟨d⟩ id tape = .ok cert) (hl : cert.length < 2 ^ 31)
    (hc : parseCertificate env cert = .ok c) (hn : p.subjectKeyId = [] ∨ c.rawIssuer = c.rawSubject) : c.authorityKeyId = t.authorityKeyId := by
  obtain ⟨r, k1, _, _, _, _, ka, _⟩ := C84_fields env t p der csr tbs d id tape cert ht hp hcsr h hi hl
  rw [hc] at k1
  simp only [Res.ok.injEq] at k1
  subst k1
  rw [ka hx, akidOf, if_pos (Or.symm hn)]

/-! ## Concrete cases -/

/-- Issue a certificate for a request of `exCreate` under the certificate `old`, whose key is 2, with the nonce 7. -/
def exIssueUnder (old : Bytes) (t : X509Cert Bytes) (f : X509Cert Bytes → Bytes → Bool) : Bool :=
  exCreate exCsrTemplate fun r =>
    match parseCertificateRequest exEnv r.1, parseCertificate exEnv old with
    | .ok csr, .ok p =>
      match createCertificateInfo exEnv t p csr with
      | .ok tbs =>
        match issueCertificateBySoftCAKey tbs ⟨2⟩ none [some (toBE 32 7)] with
        | .ok cert => f p cert
        | _ => false
      | _ => false
    | _, _ => false

def exMidTemplate : X509Cert Bytes := {
  serialNumber := some 6, subject := { commonName := [0x64] }, notBefore := ⟨2019, 1, 1, 0, 0, 0, 0⟩, notAfter := ⟨2069, 12, 31, 23, 30, 0, 0⟩
  basicConstraintsValid := true, isCA := true, subjectKeyId := [9], authorityKeyId := [8], dnsNames := [[0x7a]] }

/-- The certificate made with it under `exOldCert`. -/
def exMidCert : Bytes := [
  48, 130, 1, 67, 48, 129, 235, 160, 3, 2, 1, 2, 2, 1, 6, 48, 10, 6, 8, 42, 129, 28, 207, 85, 1, 131, 117, 48, 12, 49, 10, 48, 8, 6, 3, 85, 4, 3,
  19, 1, 99, 48, 32, 23, 13, 49, 57, 48, 49, 48, 49, 48, 48, 48, 48, 48, 48, 90, 24, 15, 50, 48, 54, 57, 49, 50, 51, 49, 50, 51, 51, 48, 48, 48, 90,
  48, 12, 49, 10, 48, 8, 6, 3, 85, 4, 3, 19, 1, 100, 48, 89, 48, 19, 6, 7, 42, 134, 72, 206, 61, 2, 1, 6, 8, 42, 129, 28, 207, 85, 1, 130, 45, 3,
  66, 0, 4, 86, 206, 253, 96, 215, 200, 124, 0, 13, 88, 239, 87, 250, 115, 186, 77, 156, 13, 250, 8, 192, 138, 115, 49, 73, 92, 46, 29, 163, 242,
  189, 82, 49, 183, 231, 230, 204, 129, 137, 246, 104, 83, 92, 224, 248, 234, 241, 189, 109, 232, 76, 24, 47, 108, 142, 113, 111, 120, 13, 58, 151,
  10, 35, 195, 163, 60, 48, 58, 48, 15, 6, 3, 85, 29, 19, 1, 1, 255, 4, 5, 48, 3, 1, 1, 255, 48, 10, 6, 3, 85, 29, 14, 4, 3, 4, 1, 9, 48, 13, 6, 3,
  85, 29, 35, 4, 6, 48, 4, 128, 2, 1, 2, 48, 12, 6, 3, 85, 29, 17, 4, 5, 48, 3, 130, 1, 122, 48, 10, 6, 8, 42, 129, 28, 207, 85, 1, 131, 117, 3, 71,
  0, 48, 68, 2, 32, 54, 68, 246, 169, 60, 137, 16, 196, 204, 204, 129, 8, 214, 47, 74, 207, 157, 201, 109, 191, 158, 84, 10, 0, 152, 229, 119, 45,
  62, 204, 27, 15, 2, 32, 49, 39, 91, 142, 215, 164, 159, 124, 204, 204, 255, 79, 113, 53, 206, 32, 18, 37, 171, 249, 76, 95, 80, 99, 96, 165, 172,
  143, 148, 20, 89, 4]

set_option maxRecDepth 100000 in
/-- C131 has instances: a chain of three certificates. The first one permits only DNS names that end in "a", and has no key usage
for signing certificates; the second one has the DNS name "z". -/
example : exIssueUnder exOldCert exMidTemplate (fun p cert => cert = exMidCert ∧ p.subjectKeyId = [1, 2] ∧ p.keyUsage = 3 ∧
    p.permittedDNSDomains = [[0x61]]) = true := by decide +kernel

set_option maxRecDepth 100000 in
example : (match parseCertificate exEnv exOldCert, parseCertificate exEnv exMidCert with
    | .ok p, .ok c => c.rawIssuer = p.rawSubject ∧ c.issuer.commonName = [0x63] ∧ c.authorityKeyId = [1, 2] ∧ c.dnsNames = [[0x7a]]
    | _, _ => false) = true := by decide +kernel

set_option maxRecDepth 100000 in
example : (match parseCertificate exEnv exOldCert with
    | .ok p => (match p.publicKey with | some k => Sm2.calculatePubKey ⟨2⟩ = .ok k | none => false)
    | _ => false) = true := by decide +kernel

set_option maxRecDepth 100000 in
example : (match parseCertificate exEnv exMidCert with
    | .ok c => (match c.publicKey with | some k => Sm2.verify k none c.rawTBS c.signature = .ok true | none => false)
    | _ => false) = true := by decide +kernel

set_option maxRecDepth 100000 in
example : exIssueUnder exMidCert exIssueTemplate (fun p cert =>
    match parseCertificate exEnv cert with
    | .ok c => c.rawIssuer = p.rawSubject ∧ c.issuer.commonName = [0x64] ∧ c.authorityKeyId = [9] ∧ c.subject.commonName = [0x63]
    | _ => false) = true := by decide +kernel

/-- The templates meet the hypotheses. -/
example : GoodTemplate exEnv exIssueTemplate ∧ NotExtra exIssueTemplate [2, 5, 29, 35] :=
  ⟨exIssueTemplate_good, by simp [NotExtra, exIssueTemplate]⟩

end Verif.Props
