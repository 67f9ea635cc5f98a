import Verif.Props.CertFlow
/-!
# Issued certificates and RFC 5280 (C92)
-/
namespace Verif.Props
open Verif Verif.Der Verif.Cert Verif.Spec.DER Verif.Spec.Cert

variable {U : Type}

/-- The first time is not after the second. -/
def NotAfter (a b : Time) : Prop :=
  minuteNumber a.year.toNat a.month a.day a.hour a.min a.offset * 60 + a.sec ≤
    minuteNumber b.year.toNat b.month b.day b.hour b.min b.offset * 60 + b.sec

/-- Demands of RFC 5280 on a certificate as it is read. -/
structure Rfc5280 (r : X509Cert U) : Prop where
  /-- 4.1.2.1: extensions need version 3. -/
  version : r.extensions ≠ [] → r.version = 3
  /-- 4.1.2.2: positive, at most 20 octets. -/
  serial : ∃ s, r.serialNumber = some s ∧ 0 < s ∧ s < 2 ^ 159
  /-- 4.1.2.4: the issuer is not the empty name. -/
  issuer : r.rawIssuer ≠ [0x30, 0]
  /-- 4.1.2.5: the period of validity is not empty. -/
  validity : NotAfter r.notBefore r.notAfter
  /-- 4.2: no extension occurs twice. -/
  unique : (r.extensions.map Extension.id).Nodup
  /-- 4.1.2.6: an empty subject needs a critical subject alternative name. -/
  subject : r.rawSubject = [0x30, 0] → ∃ e ∈ r.extensions, e.id = [2, 5, 29, 17] ∧ e.critical = true
  /-- 4.2.1.9: the basic constraints of a CA are critical. -/
  ca : r.isCA = true → ∃ e ∈ r.extensions, e.id = [2, 5, 29, 19] ∧ e.critical = true

/-- **C92**, what holds: the demands are met if the template meets those that are its own affair: serial number, order of the
times, extra extensions that are different, do not replace the SAN or the basic constraints; names if the subject is empty; a
parent with a name. Missing: templates that do not. -/
theorem C92_profile_partial (env : Env U) (t p : X509Cert U) (der : Bytes) (csr : CertReq U) (tbs : TbsCert) (d : ℕ) (id : Option Bytes)
    (tape : Sm2.Tape) (cert : Bytes) (ht : GoodTemplate env t) (hp : GoodSubject p.rawSubject p.subject)
    (hcsr : parseCertificateRequest env der = .ok csr)
    (h : createCertificateInfo env t p csr = .ok tbs) (hi : issueCertificateBySoftCAKey tbs ⟨d⟩ id tape = .ok cert) (hl : cert.length < 2 ^ 31)
    (hserial : ∀ s, t.serialNumber = some s → 0 < s ∧ s < 2 ^ 159) (hiss : subjectBytes p.rawSubject p.subject ≠ .ok [0x30, 0])
    (hval : NotAfter t.notBefore t.notAfter) (huniq : (t.extraExtensions.map Extension.id).Nodup)
    (hsan : NotExtra t [2, 5, 29, 17]) (hbc : NotExtra t [2, 5, 29, 19])
    (hnames : subjectBytes t.rawSubject t.subject = .ok [0x30, 0] → ¬(t.dnsNames = [] ∧ t.emailAddresses = [] ∧ t.ipAddresses = [] ∧ t.uris = [])) :
    ∃ r, parseCertificate env cert = .ok r ∧ Rfc5280 r := by
  obtain ⟨r, h1, _, _, h4, h5, h6, h7, _, _, h8, h9, _, _, h10, _⟩ := C84_issued env t p der csr tbs d id tape cert ht hp hcsr h hi hl
  obtain ⟨r', g1, _, _, gbc, _⟩ := C84_fields env t p der csr tbs d id tape cert ht hp hcsr h hi hl
  rw [h1] at g1
  simp only [Res.ok.injEq] at g1
  subst g1
  obtain ⟨gen, k1, _, k3, k4⟩ := C58_override env t p csr tbs h
  obtain ⟨gen', m1, m2⟩ := C58_extensions env t p csr tbs h
  rw [h10] at k1 m1
  simp only [Option.some.injEq] at k1 m1
  have hgen : gen' = gen := by rw [k1] at m1; exact (List.append_cancel_right m1).symm
  subst hgen
  -- an extension of the plan that is asked for and not replaced is there
  have there : ∀ x ∈ planOf t (tbs.subject.fullBytes = [0x30, 0]) (akidOf tbs.issuer.fullBytes tbs.subject.fullBytes t p), x.2.2 = true →
      NotExtra t x.1 → ∃ e ∈ r.extensions, e.id = x.1 ∧ e.critical = x.2.1 := by
    intro x hx hc hn
    have : (x.1, x.2.1) ∈ gen'.map (fun e => (e.id, e.critical)) := by
      rw [m2]
      refine List.mem_map.2 ⟨x, List.mem_filter.2 ⟨hx, ?_⟩, rfl⟩
      rw [hc, Bool.true_and, decide_eq_true_eq]
      exact hn
    obtain ⟨e, he, he'⟩ := List.mem_map.1 this
    simp only [Prod.mk.injEq] at he'
    exact ⟨e, by rw [k1]; exact List.mem_append_left _ he, he'.1, he'.2⟩
  refine ⟨r, h1, ⟨fun _ => h4, ?_, fun hr => hiss (by rw [h6, hr]), ?_, ?_, ?_, ?_⟩⟩
  · cases hs : t.serialNumber with
    | none => unfold createCertificateInfo at h; rw [hs] at h; simp at h
    | some s => exact ⟨s, by rw [h5, hs], hserial s hs⟩
  · unfold NotAfter at hval ⊢
    obtain ⟨a1, a2, a3⟩ := h8
    obtain ⟨b1, b2, b3⟩ := h9
    rw [a1, a2, a3, b1, b2, b3]
    exact hval
  · rw [k1, List.map_append]
    refine List.Nodup.append k3 huniq ?_
    intro i hi1 hi2
    obtain ⟨e1, he1, rfl⟩ := List.mem_map.1 hi1
    obtain ⟨e2, he2, he2'⟩ := List.mem_map.1 hi2
    exact k4 e1 he1 e2 he2 he2'.symm
  · intro hr
    rw [hr] at h7
    have hsub : tbs.subject.fullBytes = [0x30, 0] := by
      obtain ⟨_, _, _, _, _, _, _, _, q3, _, _, _, rfl⟩ := createCertificateInfo_ok h
      rw [h7] at q3
      simp only [Res.ok.injEq] at q3
      exact q3.symm
    have hn := hnames h7
    obtain ⟨e, he, he1, he2⟩ := there ([2, 5, 29, 17], tbs.subject.fullBytes = [0x30, 0],
      !(t.dnsNames.isEmpty && t.emailAddresses.isEmpty && t.ipAddresses.isEmpty && t.uris.isEmpty)) (by simp [planOf]) (by
        simp only [Bool.not_eq_true', Bool.and_eq_false_iff, List.isEmpty_eq_false_iff]
        by_contra hcon
        push Not at hcon
        exact hn ⟨hcon.1.1.1, hcon.1.1.2, hcon.1.2, hcon.2⟩) hsan
    exact ⟨e, he, he1, by rw [he2]; simp [hsub]⟩
  · intro hca
    obtain ⟨_, _, c3⟩ := gbc hbc
    have hv : t.basicConstraintsValid = true := by
      by_contra hv
      rw [(c3 (by simpa using hv)).1] at hca
      cases hca
    exact there ([2, 5, 29, 19], true, t.basicConstraintsValid) (by simp [planOf]) hv hbc

theorem outcome_of {α : Type} {p : α → Prop} [DecidablePred p] {r : Res α} (h : (match r with | .ok q => decide (p q) | _ => false) = true) :
    ∃ q, r = .ok q ∧ p q := by
  cases r <;> simp_all

/-- Whatever the serial number is, it is written and read back: 0, negative and overlong ones too. -/
theorem C92_serial_violated (env : Env U) (t p : X509Cert U) (der : Bytes) (csr : CertReq U) (tbs : TbsCert) (d : ℕ) (id : Option Bytes)
    (tape : Sm2.Tape) (cert : Bytes) (ht : GoodTemplate env t) (hp : GoodSubject p.rawSubject p.subject)
    (hcsr : parseCertificateRequest env der = .ok csr)
    (h : createCertificateInfo env t p csr = .ok tbs) (hi : issueCertificateBySoftCAKey tbs ⟨d⟩ id tape = .ok cert) (hl : cert.length < 2 ^ 31)
    (s : ℤ) (hs : t.serialNumber = some s) (hbad : s ≤ 0 ∨ 2 ^ 159 ≤ s) : ∃ r, parseCertificate env cert = .ok r ∧ ¬Rfc5280 r := by
  obtain ⟨r, h1, _, _, _, h5, _⟩ := C84_issued env t p der csr tbs d id tape cert ht hp hcsr h hi hl
  refine ⟨r, h1, fun hr => ?_⟩
  obtain ⟨s', g1, g2, g3⟩ := hr.serial
  rw [h5, hs] at g1
  simp only [Option.some.injEq] at g1
  omega

/-- A certificate that expires before it becomes valid is made and read. -/
theorem C92_validity_violated (env : Env U) (t p : X509Cert U) (der : Bytes) (csr : CertReq U) (tbs : TbsCert) (d : ℕ) (id : Option Bytes)
    (tape : Sm2.Tape) (cert : Bytes) (ht : GoodTemplate env t) (hp : GoodSubject p.rawSubject p.subject)
    (hcsr : parseCertificateRequest env der = .ok csr)
    (h : createCertificateInfo env t p csr = .ok tbs) (hi : issueCertificateBySoftCAKey tbs ⟨d⟩ id tape = .ok cert) (hl : cert.length < 2 ^ 31)
    (hbad : ¬NotAfter t.notBefore t.notAfter) : ∃ r, parseCertificate env cert = .ok r ∧ ¬Rfc5280 r := by
  obtain ⟨r, h1, _, _, _, _, _, _, _, _, h8, h9, _⟩ := C84_issued env t p der csr tbs d id tape cert ht hp hcsr h hi hl
  refine ⟨r, h1, fun hr => hbad ?_⟩
  have := hr.validity
  unfold NotAfter at this ⊢
  obtain ⟨a1, a2, a3⟩ := h8
  obtain ⟨b1, b2, b3⟩ := h9
  rw [a1, a2, a3, b1, b2, b3] at this
  exact this

/-- An extension that the template brings along twice is in the certificate twice, and is read. -/
theorem C92_twice_violated (env : Env U) (t p : X509Cert U) (der : Bytes) (csr : CertReq U) (tbs : TbsCert) (d : ℕ) (id : Option Bytes)
    (tape : Sm2.Tape) (cert : Bytes) (ht : GoodTemplate env t) (hp : GoodSubject p.rawSubject p.subject)
    (hcsr : parseCertificateRequest env der = .ok csr)
    (h : createCertificateInfo env t p csr = .ok tbs) (hi : issueCertificateBySoftCAKey tbs ⟨d⟩ id tape = .ok cert) (hl : cert.length < 2 ^ 31)
    (hbad : ¬(t.extraExtensions.map Extension.id).Nodup) : ∃ r, parseCertificate env cert = .ok r ∧ ¬Rfc5280 r := by
  obtain ⟨r, h1, _, _, _, _, _, _, _, _, _, _, _, _, h10, _⟩ := C84_issued env t p der csr tbs d id tape cert ht hp hcsr h hi hl
  obtain ⟨gen, k1, _⟩ := C58_override env t p csr tbs h
  rw [h10] at k1
  simp only [Option.some.injEq] at k1
  refine ⟨r, h1, fun hr => hbad ?_⟩
  have := hr.unique
  rw [k1, List.map_append] at this
  exact (List.nodup_append.1 this).2.1

/-- An empty name is taken as the issuer. -/
theorem C92_issuer_violated (env : Env U) (t p : X509Cert U) (der : Bytes) (csr : CertReq U) (tbs : TbsCert) (d : ℕ) (id : Option Bytes)
    (tape : Sm2.Tape) (cert : Bytes) (ht : GoodTemplate env t) (hp : GoodSubject p.rawSubject p.subject)
    (hcsr : parseCertificateRequest env der = .ok csr)
    (h : createCertificateInfo env t p csr = .ok tbs) (hi : issueCertificateBySoftCAKey tbs ⟨d⟩ id tape = .ok cert) (hl : cert.length < 2 ^ 31)
    (hbad : subjectBytes p.rawSubject p.subject = .ok [0x30, 0]) : ∃ r, parseCertificate env cert = .ok r ∧ ¬Rfc5280 r := by
  obtain ⟨r, h1, _, _, _, _, h6, _⟩ := C84_issued env t p der csr tbs d id tape cert ht hp hcsr h hi hl
  refine ⟨r, h1, fun hr => hr.issuer ?_⟩
  rw [hbad] at h6
  simp only [Res.ok.injEq] at h6
  exact h6.symm

/-- So is an empty subject without other names. -/
theorem C92_subject_violated (env : Env U) (t p : X509Cert U) (der : Bytes) (csr : CertReq U) (tbs : TbsCert) (d : ℕ) (id : Option Bytes)
    (tape : Sm2.Tape) (cert : Bytes) (ht : GoodTemplate env t) (hp : GoodSubject p.rawSubject p.subject)
    (hcsr : parseCertificateRequest env der = .ok csr)
    (h : createCertificateInfo env t p csr = .ok tbs) (hi : issueCertificateBySoftCAKey tbs ⟨d⟩ id tape = .ok cert) (hl : cert.length < 2 ^ 31)
    (hbad : subjectBytes t.rawSubject t.subject = .ok [0x30, 0])
    (hnone : t.dnsNames = [] ∧ t.emailAddresses = [] ∧ t.ipAddresses = [] ∧ t.uris = []) (hsan : NotExtra t [2, 5, 29, 17]) :
    ∃ r, parseCertificate env cert = .ok r ∧ ¬Rfc5280 r := by
  obtain ⟨r, h1, _, _, _, _, _, h7, _, _, _, _, _, _, h10, _⟩ := C84_issued env t p der csr tbs d id tape cert ht hp hcsr h hi hl
  refine ⟨r, h1, fun hr => ?_⟩
  rw [hbad] at h7
  simp only [Res.ok.injEq] at h7
  obtain ⟨e, he, he1, _⟩ := hr.subject h7.symm
  obtain ⟨gen, m1, m2⟩ := C58_extensions env t p csr tbs h
  rw [h10] at m1
  simp only [Option.some.injEq] at m1
  rw [m1] at he
  rcases List.mem_append.1 he with he | he
  · have : (e.id, e.critical) ∈ gen.map (fun e => (e.id, e.critical)) := List.mem_map_of_mem he
    rw [m2, List.mem_map] at this
    obtain ⟨x, hx, hx'⟩ := this
    obtain ⟨hx1, hx2⟩ := List.mem_filter.1 hx
    simp only [Prod.mk.injEq] at hx'
    rw [he1] at hx'
    simp only [planOf, List.mem_cons, List.not_mem_nil, or_false] at hx1
    rcases hx1 with rfl | rfl | rfl | rfl | rfl | rfl | rfl | rfl | rfl | rfl <;> simp_all
  · exact hsan e he he1

/-- The version is not looked at when a certificate is read: extensions are taken from one of version 1, and a negative version
is taken too. Adding 1 to the greatest version gives the least one. -/
theorem C92_version_violated : ∃ v w ext : Bytes, ∃ q r s,
    parseCertificate exEnv (exSigned exOidSig (exCertInfo [] exOidSig (exGoodKey ++ ext)) []) = .ok q ∧ q.version = 1 ∧ q.keyUsage = 1 ∧ ¬Rfc5280 q ∧
    parseCertificate exEnv (exSigned exOidSig (exCertInfo v exOidSig exGoodKey) []) = .ok r ∧ r.version = -4 ∧
    parseCertificate exEnv (exSigned exOidSig (exCertInfo w exOidSig exGoodKey) []) = .ok s ∧ s.version = -2 ^ 63 := by
  refine ⟨elem 0xa0 (elem 0x02 [0xfb]), elem 0xa0 (elem 0x02 [0x7f, 0xff, 0xff, 0xff, 0xff, 0xff, 0xff, 0xff]), elem 0xa3 (elem 0x30 (elem 0x30 (elem 0x06 [0x55, 0x1d, 0x0f] ++ elem 0x04 [3, 2, 7, 0x80]))), ?_⟩
  obtain ⟨q, h1, h2, h3, h4⟩ := outcome_of (p := fun q : X509Cert Bytes => q.version = 1 ∧ q.keyUsage = 1 ∧ q.extensions.length = 1)
    (r := parseCertificate exEnv (exSigned exOidSig (exCertInfo [] exOidSig (exGoodKey ++
      elem 0xa3 (elem 0x30 (elem 0x30 (elem 0x06 [0x55, 0x1d, 0x0f] ++ elem 0x04 [3, 2, 7, 0x80]))))) [])) (by decide +kernel)
  obtain ⟨r, g1, g2⟩ := outcome_of (p := fun q : X509Cert Bytes => q.version = -4)
    (r := parseCertificate exEnv (exSigned exOidSig (exCertInfo (elem 0xa0 (elem 0x02 [0xfb])) exOidSig exGoodKey) [])) (by decide +kernel)
  obtain ⟨s, k1, k2⟩ := outcome_of (p := fun q : X509Cert Bytes => q.version = -2 ^ 63)
    (r := parseCertificate exEnv (exSigned exOidSig (exCertInfo (elem 0xa0 (elem 0x02 [0x7f, 0xff, 0xff, 0xff, 0xff, 0xff, 0xff, 0xff])) exOidSig exGoodKey) [])) (by decide +kernel)
  refine ⟨q, r, s, h1, h2, h3, fun hr => ?_, g1, g2, k1, k2⟩
  have := hr.version (by intro h; rw [h] at h4; cases h4)
  omega

/-! ## Concrete cases -/

/-- `exIssueTemplate` meets the hypotheses of `C92_profile_partial`; here it is without a subject. -/
example : (∀ s, exIssueTemplate.serialNumber = some s → 0 < s ∧ s < 2 ^ 159) ∧ NotAfter exIssueTemplate.notBefore exIssueTemplate.notAfter ∧
    (exIssueTemplate.extraExtensions.map Extension.id).Nodup ∧ NotExtra exIssueTemplate [2, 5, 29, 17] ∧ NotExtra exIssueTemplate [2, 5, 29, 19] := by
  refine ⟨by intro s hs; simp only [exIssueTemplate, Option.some.injEq] at hs; omega, ?_, by decide, by unfold NotExtra; decide, by unfold NotExtra; decide⟩
  unfold NotAfter minuteNumber dayNumber
  decide

/-- A bad template in each respect: serial number -1, valid to 2019 from 2020, an extension twice, no names. -/
def exBadTemplate : X509Cert Bytes := {
  serialNumber := some (-1), notBefore := ⟨2020, 1, 1, 0, 0, 0, 0⟩, notAfter := ⟨2019, 1, 1, 0, 0, 0, 0⟩
  extraExtensions := [⟨[1, 2, 3], false, []⟩, ⟨[1, 2, 3], false, []⟩] }

theorem exBadTemplate_good : GoodTemplate exEnv exBadTemplate where
  subject := ⟨fun h => absurd rfl h, by simp [exBadTemplate]⟩
  notBefore := by unfold WritableTime ValidCal; decide
  notAfter := by unfold WritableTime ValidCal; decide
  keyUsage := by decide
  unknownUsages := by simp [exBadTemplate]
  maxPathLen := by unfold Int64Range; decide
  ips := by simp [exBadTemplate]
  uris := by simp [exBadTemplate]
  policies := by simp [exBadTemplate]
  permittedMasks := by simp [exBadTemplate]
  excludedMasks := by simp [exBadTemplate]
  permitted := by constructor <;> simp [exBadTemplate]
  excluded := by constructor <;> simp [exBadTemplate]
  extra := by
    intro e he
    simp only [exBadTemplate, List.mem_cons, List.not_mem_nil, or_false, or_self] at he
    subst he
    exact ⟨by unfold OIDFits; decide, fun out => ⟨_, rfl⟩⟩

example : ¬NotAfter exBadTemplate.notBefore exBadTemplate.notAfter ∧ ¬(exBadTemplate.extraExtensions.map Extension.id).Nodup := by
  unfold NotAfter minuteNumber dayNumber
  decide

set_option maxRecDepth 100000 in
/-- The violations have instances: the certificate is made, for a parent without a name, and read. -/
example : exIssue exCsrTemplate (fun _ => exBadTemplate) (fun csr tbs cert =>
    match createCertificateInfo exEnv exBadTemplate {} csr with
    | .ok tbs' =>
      match issueCertificateBySoftCAKey tbs' ⟨5⟩ none [some (toBE 32 7)] with
      | .ok cert' =>
        match parseCertificate exEnv cert, parseCertificate exEnv cert' with
        | .ok r, .ok r' => r.serialNumber = some (-1) ∧ r.notAfter.year < r.notBefore.year ∧ r.extensions.length = 2 + 1 ∧ r.rawSubject = [0x30, 0] ∧
            r'.rawIssuer = [0x30, 0] ∧ tbs.raw ≠ tbs'.raw
        | _, _ => false
      | _ => false
    | _ => false) = true := by decide +kernel

end Verif.Props
