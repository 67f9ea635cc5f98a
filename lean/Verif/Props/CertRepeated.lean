import Verif.Cert.IssueLemmas
import Verif.Props.CertUnhandled
/-!
# Property C139: an extension that occurs more than once

RFC 5280, 4.2: "A certificate MUST NOT include more than one instance of a particular extension." The code does not look. What an
extension says is said by a certificate whose fields come from this extension alone.
-/
namespace Verif.Props
open Verif Verif.Der Verif.Cert Verif.Spec.DER Verif.Spec.Cert

variable {U : Type}

/-- `a` has the fields that a certificate gets from the extension `e` alone. -/
def Alone (env : Env U) (e : Extension) (a : X509Cert U) : Prop := parseExtensions env [e] {} = .ok a

/-- The fields that take the place of earlier ones, for an identifier. -/
def Replaced (id : OID) (a b : X509Cert U) : Prop :=
  (id = [2, 5, 29, 15] → a.keyUsage = b.keyUsage) ∧
  (id = [2, 5, 29, 19] → a.basicConstraintsValid = b.basicConstraintsValid ∧ a.isCA = b.isCA ∧ a.maxPathLen = b.maxPathLen ∧
    a.maxPathLenZero = b.maxPathLenZero) ∧
  (id = [2, 5, 29, 17] → a.dnsNames = b.dnsNames ∧ a.emailAddresses = b.emailAddresses ∧ a.ipAddresses = b.ipAddresses ∧ a.uris = b.uris) ∧
  (id = [2, 5, 29, 30] → a.permittedDNSDomainsCritical = b.permittedDNSDomainsCritical ∧
    a.permittedDNSDomains = b.permittedDNSDomains ∧ a.excludedDNSDomains = b.excludedDNSDomains ∧
    a.permittedIPRanges = b.permittedIPRanges ∧ a.excludedIPRanges = b.excludedIPRanges ∧
    a.permittedEmailAddresses = b.permittedEmailAddresses ∧ a.excludedEmailAddresses = b.excludedEmailAddresses ∧
    a.permittedURIDomains = b.permittedURIDomains ∧ a.excludedURIDomains = b.excludedURIDomains) ∧
  (id = [2, 5, 29, 35] → a.authorityKeyId = b.authorityKeyId) ∧
  (id = [2, 5, 29, 14] → a.subjectKeyId = b.subjectKeyId) ∧
  (id = [2, 5, 29, 32] → a.policyIdentifiers = b.policyIdentifiers)

/-- `b` has the collected fields of `a` and then those of `d`. -/
def Collects (a d b : X509Cert U) : Prop :=
  b.extKeyUsage = a.extKeyUsage ++ d.extKeyUsage ∧ b.unknownExtKeyUsage = a.unknownExtKeyUsage ++ d.unknownExtKeyUsage ∧
  b.crlDistributionPoints = a.crlDistributionPoints ++ d.crlDistributionPoints ∧ b.ocspServer = a.ocspServer ++ d.ocspServer ∧
  b.issuingCertificateURL = a.issuingCertificateURL ++ d.issuingCertificateURL

/-- What the code for one extension does to the certificate. -/
def Acts (id : OID) (f : X509Cert U → X509Cert U) : Prop :=
  (∀ a b, Replaced id (f a) (f b)) ∧ (∀ a, Collects a (f {}) (f a)) ∧
    (∀ a, (f a).unhandledCriticalExtensions = a.unhandledCriticalExtensions)

theorem replaced_of {id k : OID} {a b : X509Cert U} (h : id = k) (hk : Replaced k a b) : Replaced id a b := h ▸ hk

macro "replaced_tac" : tactic => `(tactic|
  (refine ⟨?_, ?_, ?_, ?_, ?_, ?_, ?_⟩ <;> intro h' <;>
    first
    | exact absurd h' (by decide)
    | rfl
    | exact ⟨rfl, rfl, rfl, rfl⟩
    | exact ⟨rfl, rfl, rfl, rfl, rfl, rfl, rfl, rfl, rfl⟩))

macro "collects_tac" : tactic => `(tactic|
  (refine ⟨?_, ?_, ?_, ?_, ?_⟩ <;>
    first
    | exact (List.append_nil _).symm
    | rfl))

/-- Whether an extension is accepted, and what it does, does not depend on the certificate so far. -/
theorem parseExtension_act (env : Env U) (e : Extension) : ∃ g : Res ((X509Cert U → X509Cert U) × Bool),
    (∀ out, parseExtension env out e = (g >>= fun p => .ok (p.1 out, p.2))) ∧ ∀ f u, g = .ok (f, u) → Acts e.id f := by
  by_cases h0 : e.id = oidExtensionKeyUsage
  · refine ⟨parseKeyUsage e.value >>= fun w => .ok (fun out => { out with keyUsage := w }, false), fun out => ?_, fun f u h => ?_⟩
    · unfold parseExtension
      rw [if_pos h0, bind_assoc]
      rfl
    · rw [Res.bind_eq_ok] at h
      obtain ⟨w, _, h⟩ := h
      cases h
      exact ⟨fun a b => replaced_of h0 (by replaced_tac), fun a => by collects_tac, fun _ => rfl⟩
  by_cases h1 : e.id = oidExtensionBasicConstraints
  · refine ⟨unmarshalAll tyBasicConstraints e.value >>= fun c => .ok (fun out => { out with basicConstraintsValid := true, isCA := c.isCA, maxPathLen := c.maxPathLen, maxPathLenZero := c.maxPathLen = 0 }, false), fun out => ?_, fun f u h => ?_⟩
    · unfold parseExtension
      rw [if_neg h0, if_pos h1, bind_assoc]
      rfl
    · rw [Res.bind_eq_ok] at h
      obtain ⟨c, _, h⟩ := h
      cases h
      exact ⟨fun a b => replaced_of h1 (by replaced_tac), fun a => by collects_tac, fun _ => rfl⟩
  by_cases h2 : e.id = oidExtensionSubjectAltName
  · refine ⟨parseSANExtension env e.value >>= fun s => .ok (fun out => { out with dnsNames := s.dnsNames, emailAddresses := s.emailAddresses, ipAddresses := s.ipAddresses, uris := s.uris }, !hasSans s.dnsNames s.emailAddresses s.ipAddresses s.uris), fun out => ?_, fun f u h => ?_⟩
    · unfold parseExtension
      rw [if_neg h0, if_neg h1, if_pos h2, bind_assoc]
      rfl
    · rw [Res.bind_eq_ok] at h
      obtain ⟨s, _, h⟩ := h
      cases h
      exact ⟨fun a b => replaced_of h2 (by replaced_tac), fun a => by collects_tac, fun _ => rfl⟩
  by_cases h3 : e.id = oidExtensionNameConstraints
  · refine ⟨parseNameConstraints env e.value >>= fun s => .ok (fun out => { out with
      permittedDNSDomains := s.1.dnsNames, permittedIPRanges := s.1.ips
      permittedEmailAddresses := s.1.emails, permittedURIDomains := s.1.uriDomains
      excludedDNSDomains := s.2.dnsNames, excludedIPRanges := s.2.ips
      excludedEmailAddresses := s.2.emails, excludedURIDomains := s.2.uriDomains
      permittedDNSDomainsCritical := e.critical }, s.1.unhandled || s.2.unhandled), fun out => ?_, fun f u h => ?_⟩
    · unfold parseExtension
      rw [if_neg h0, if_neg h1, if_neg h2, if_pos h3, bind_assoc]
      rfl
    · rw [Res.bind_eq_ok] at h
      obtain ⟨s, _, h⟩ := h
      cases h
      exact ⟨fun a b => replaced_of h3 (by replaced_tac), fun a => by collects_tac, fun _ => rfl⟩
  by_cases h4 : e.id = oidExtensionCRLDistributionPoints
  · refine ⟨unmarshalAll (tySlice false tyDP) e.value >>= fun cdp => .ok (fun out => { out with crlDistributionPoints := out.crlDistributionPoints ++ crlNames cdp }, false), fun out => ?_, fun f u h => ?_⟩
    · unfold parseExtension
      rw [if_neg h0, if_neg h1, if_neg h2, if_neg h3, if_pos h4, bind_assoc]
      rfl
    · rw [Res.bind_eq_ok] at h
      obtain ⟨cdp, _, h⟩ := h
      cases h
      exact ⟨fun a b => replaced_of h4 (by replaced_tac), fun a => by collects_tac, fun _ => rfl⟩
  by_cases h5 : e.id = oidExtensionAuthorityKeyId
  · refine ⟨unmarshalAll tyAuthKeyId e.value >>= fun a => .ok (fun out => { out with authorityKeyId := a.getD [] }, false), fun out => ?_, fun f u h => ?_⟩
    · unfold parseExtension
      rw [if_neg h0, if_neg h1, if_neg h2, if_neg h3, if_neg h4, if_pos h5, bind_assoc]
      rfl
    · rw [Res.bind_eq_ok] at h
      obtain ⟨a, _, h⟩ := h
      cases h
      exact ⟨fun a b => replaced_of h5 (by replaced_tac), fun a => by collects_tac, fun _ => rfl⟩
  by_cases h6 : e.id = oidExtensionExtendedKeyUsage
  · refine ⟨unmarshalAll (tySlice false tyOID) e.value >>= fun k => .ok (fun out => { out with
      extKeyUsage := out.extKeyUsage ++ (splitExtKeyUsage k).1
      unknownExtKeyUsage := out.unknownExtKeyUsage ++ (splitExtKeyUsage k).2 }, false), fun out => ?_, fun f u h => ?_⟩
    · unfold parseExtension
      rw [if_neg h0, if_neg h1, if_neg h2, if_neg h3, if_neg h4, if_neg h5, if_pos h6, bind_assoc]
      rfl
    · rw [Res.bind_eq_ok] at h
      obtain ⟨k, _, h⟩ := h
      cases h
      exact ⟨fun a b => replaced_of h6 (by replaced_tac), fun a => by collects_tac, fun _ => rfl⟩
  by_cases h7 : e.id = oidExtensionSubjectKeyId
  · refine ⟨unmarshalAll tyBytes e.value >>= fun k => .ok (fun out => { out with subjectKeyId := k }, false), fun out => ?_, fun f u h => ?_⟩
    · unfold parseExtension
      rw [if_neg h0, if_neg h1, if_neg h2, if_neg h3, if_neg h4, if_neg h5, if_neg h6, if_pos h7, bind_assoc]
      rfl
    · rw [Res.bind_eq_ok] at h
      obtain ⟨k, _, h⟩ := h
      cases h
      exact ⟨fun a b => replaced_of h7 (by replaced_tac), fun a => by collects_tac, fun _ => rfl⟩
  by_cases h8 : e.id = oidExtensionCertificatePolicies
  · refine ⟨unmarshalAll (tySlice false tyPolicyInformation) e.value >>= fun k => .ok (fun out => { out with policyIdentifiers := k }, false), fun out => ?_, fun f u h => ?_⟩
    · unfold parseExtension
      rw [if_neg h0, if_neg h1, if_neg h2, if_neg h3, if_neg h4, if_neg h5, if_neg h6, if_neg h7, if_pos h8, bind_assoc]
      rfl
    · rw [Res.bind_eq_ok] at h
      obtain ⟨k, _, h⟩ := h
      cases h
      exact ⟨fun a b => replaced_of h8 (by replaced_tac), fun a => by collects_tac, fun _ => rfl⟩
  by_cases h9 : e.id = oidExtensionAuthorityInfoAccess
  · refine ⟨unmarshalAll (tySlice false tyAIA) e.value >>= fun aia => .ok (fun out => { out with
      ocspServer := out.ocspServer ++ aiaLocations oidAuthorityInfoAccessOcsp aia
      issuingCertificateURL := out.issuingCertificateURL ++ aiaLocations oidAuthorityInfoAccessIssuers aia }, false), fun out => ?_, fun f u h => ?_⟩
    · unfold parseExtension
      rw [if_neg h0, if_neg h1, if_neg h2, if_neg h3, if_neg h4, if_neg h5, if_neg h6, if_neg h7, if_neg h8, if_pos h9, bind_assoc]
      rfl
    · rw [Res.bind_eq_ok] at h
      obtain ⟨aia, _, h⟩ := h
      cases h
      exact ⟨fun a b => replaced_of h9 (by replaced_tac), fun a => by collects_tac, fun _ => rfl⟩
  refine ⟨.ok (fun out => out, true), fun out => ?_, fun f u h => ?_⟩
  · unfold parseExtension
    rw [if_neg h0, if_neg h1, if_neg h2, if_neg h3, if_neg h4, if_neg h5, if_neg h6, if_neg h7, if_neg h8, if_neg h9]
    rfl
  · cases h
    refine ⟨fun a b => ⟨?_, ?_, ?_, ?_, ?_, ?_, ?_⟩, fun a => by collects_tac, fun _ => rfl⟩
    · exact fun h => absurd h h0
    · exact fun h => absurd h h1
    · exact fun h => absurd h h2
    · exact fun h => absurd h h3
    · exact fun h => absurd h h5
    · exact fun h => absurd h h7
    · exact fun h => absurd h h8

/-! ## The list -/

theorem Replaced.symm {id : OID} {a b : X509Cert U} (h : Replaced id a b) : Replaced id b a := by
  obtain ⟨h1, h2, h3, h4, h5, h6, h7⟩ := h
  refine ⟨fun h => (h1 h).symm, fun h => ?_, fun h => ?_, fun h => ?_, fun h => (h5 h).symm, fun h => (h6 h).symm, fun h => (h7 h).symm⟩
  · obtain ⟨a1, a2, a3, a4⟩ := h2 h; exact ⟨a1.symm, a2.symm, a3.symm, a4.symm⟩
  · obtain ⟨a1, a2, a3, a4⟩ := h3 h; exact ⟨a1.symm, a2.symm, a3.symm, a4.symm⟩
  · obtain ⟨a1, a2, a3, a4, a5, a6, a7, a8, a9⟩ := h4 h
    exact ⟨a1.symm, a2.symm, a3.symm, a4.symm, a5.symm, a6.symm, a7.symm, a8.symm, a9.symm⟩

theorem Replaced.trans {id : OID} {a b c : X509Cert U} (h : Replaced id a b) (g : Replaced id b c) : Replaced id a c := by
  obtain ⟨h1, h2, h3, h4, h5, h6, h7⟩ := h
  obtain ⟨g1, g2, g3, g4, g5, g6, g7⟩ := g
  refine ⟨fun h => (h1 h).trans (g1 h), fun h => ?_, fun h => ?_, fun h => ?_, fun h => (h5 h).trans (g5 h), fun h => (h6 h).trans (g6 h),
    fun h => (h7 h).trans (g7 h)⟩
  · obtain ⟨a1, a2, a3, a4⟩ := h2 h; obtain ⟨b1, b2, b3, b4⟩ := g2 h
    exact ⟨a1.trans b1, a2.trans b2, a3.trans b3, a4.trans b4⟩
  · obtain ⟨a1, a2, a3, a4⟩ := h3 h; obtain ⟨b1, b2, b3, b4⟩ := g3 h
    exact ⟨a1.trans b1, a2.trans b2, a3.trans b3, a4.trans b4⟩
  · obtain ⟨a1, a2, a3, a4, a5, a6, a7, a8, a9⟩ := h4 h; obtain ⟨b1, b2, b3, b4, b5, b6, b7, b8, b9⟩ := g4 h
    exact ⟨a1.trans b1, a2.trans b2, a3.trans b3, a4.trans b4, a5.trans b5, a6.trans b6, a7.trans b7, a8.trans b8, a9.trans b9⟩

theorem replaced_tail (id : OID) (c : Prop) [Decidable c] (l : List OID) (o : X509Cert U) :
    Replaced id (if c then { o with unhandledCriticalExtensions := l } else o) o := by
  split <;> exact ⟨fun _ => rfl, fun _ => ⟨rfl, rfl, rfl, rfl⟩, fun _ => ⟨rfl, rfl, rfl, rfl⟩, fun _ => ⟨rfl, rfl, rfl, rfl, rfl, rfl, rfl, rfl, rfl⟩,
    fun _ => rfl, fun _ => rfl, fun _ => rfl⟩

/-- Other extensions leave the fields alone. -/
theorem replaced_keeps {env : Env U} {id : OID} {es : List Extension} {out o : X509Cert U} (h : parseExtensions env es out = .ok o)
    (hne : ∀ e ∈ es, e.id ≠ id) : Replaced id o out := by
  refine ⟨?_, ?_, ?_, ?_, ?_, ?_, ?_⟩ <;> rintro rfl
  · exact (owns_keyUsage env).keeps es out o h hne
  · have := (owns_basic env).keeps es out o h hne; simpa only [Prod.mk.injEq] using this
  · have := (owns_san env).keeps es out o h hne; simpa only [Prod.mk.injEq] using this
  · have := (owns_constraints env).keeps es out o h hne
    simp only [X509Cert.constraints, Prod.mk.injEq] at this
    obtain ⟨⟨a1, a2, a3, a4, a5⟩, a6, a7, a8, a9⟩ := this
    refine ⟨a1, a2, a3, a4, a5, ?_, ?_, ?_, ?_⟩ <;> assumption
  · exact (owns_akid env).keeps es out o h hne
  · exact (owns_skid env).keeps es out o h hne
  · exact (owns_policies env).keeps es out o h hne

theorem alone_iff {env : Env U} {e : Extension} {a : X509Cert U} {g : Res ((X509Cert U → X509Cert U) × Bool)}
    (hg : ∀ out, parseExtension env out e = (g >>= fun p => .ok (p.1 out, p.2))) : Alone env e a ↔ ∃ f u, g = .ok (f, u) ∧
      a = (if e.critical = true ∧ u = true then
        { f { extensions := [e] } with unhandledCriticalExtensions := (f { extensions := [e] }).unhandledCriticalExtensions ++ [e.id] }
        else f { extensions := [e] }) := by
  unfold Alone
  rw [parseExtensions, hg, Res.bind_eq_ok]
  constructor
  · rintro ⟨⟨o, u⟩, h1, h2⟩
    rw [Res.bind_eq_ok] at h1
    obtain ⟨⟨f, u'⟩, h1, h3⟩ := h1
    cases h3
    simp only [parseExtensions, Res.ok.injEq] at h2
    exact ⟨f, u', h1, h2.symm⟩
  · rintro ⟨f, u, rfl, rfl⟩
    exact ⟨_, rfl, rfl⟩

theorem parseExtensions_each {env : Env U} : ∀ {es : List Extension} {out r : X509Cert U}, parseExtensions env es out = .ok r →
    ∀ e ∈ es, ∃ a, Alone env e a := by
  intro es
  induction es with
  | nil => intro out r _ e he; cases he
  | cons x es ih =>
    intro out r h e he
    rw [parseExtensions, Res.bind_eq_ok] at h
    obtain ⟨⟨o, u⟩, h1, h2⟩ := h
    rcases List.mem_cons.1 he with rfl | he
    · obtain ⟨g, hg, _⟩ := parseExtension_act env e
      rw [hg, Res.bind_eq_ok] at h1
      obtain ⟨⟨f, u'⟩, h1, h3⟩ := h1
      exact ⟨_, (alone_iff hg).2 ⟨f, u', h1, rfl⟩⟩
    · exact ih h2 e he

theorem parseExtensions_of_each {env : Env U} (es : List Extension) (out : X509Cert U) (h : ∀ e ∈ es, ∃ a, Alone env e a) :
    ∃ r, parseExtensions env es out = .ok r := by
  refine parseExtensions_ok env es out fun e he out => ?_
  obtain ⟨a, ha⟩ := h e he
  obtain ⟨g, hg, _⟩ := parseExtension_act env e
  obtain ⟨f, u, rfl, _⟩ := (alone_iff hg).1 ha
  exact ⟨_, by rw [hg]; rfl⟩

theorem parseExtensions_last {env : Env U} {e : Extension} {a : X509Cert U} {l2 : List Extension} (ha : Alone env e a) (hne : ∀ x ∈ l2, x.id ≠ e.id) :
    ∀ {l1 : List Extension} {out r : X509Cert U}, parseExtensions env (l1 ++ e :: l2) out = .ok r → Replaced e.id r a := by
  intro l1
  induction l1 with
  | nil =>
    intro out r h
    obtain ⟨g, hg, hact⟩ := parseExtension_act env e
    obtain ⟨f, u, rfl, rfl⟩ := (alone_iff hg).1 ha
    have hf := hact f u rfl
    rw [List.nil_append, parseExtensions, hg] at h
    simp only [Res.ok_bind] at h
    refine (replaced_keeps h hne).trans ((replaced_tail _ _ _ _).trans ((hf.1 _ _).trans (replaced_tail _ _ _ _).symm))
  | cons x l1 ih =>
    intro out r h
    rw [List.cons_append, parseExtensions, Res.bind_eq_ok] at h
    obtain ⟨_, _, h⟩ := h
    exact ih h

theorem parseExtensions_all {env : Env U} : ∀ {es : List Extension} {as : List (X509Cert U)} {out r : X509Cert U}, List.Forall₂ (Alone env) es as →
    parseExtensions env es out = .ok r →
    r.extKeyUsage = out.extKeyUsage ++ as.flatMap X509Cert.extKeyUsage ∧
    r.unknownExtKeyUsage = out.unknownExtKeyUsage ++ as.flatMap X509Cert.unknownExtKeyUsage ∧
    r.crlDistributionPoints = out.crlDistributionPoints ++ as.flatMap X509Cert.crlDistributionPoints ∧
    r.ocspServer = out.ocspServer ++ as.flatMap X509Cert.ocspServer ∧
    r.issuingCertificateURL = out.issuingCertificateURL ++ as.flatMap X509Cert.issuingCertificateURL ∧
    r.unhandledCriticalExtensions = out.unhandledCriticalExtensions ++ as.flatMap X509Cert.unhandledCriticalExtensions := by
  intro es as out r has
  induction has generalizing out with
  | nil => intro h; simp only [parseExtensions, Res.ok.injEq] at h; subst h; simp
  | @cons e a es as ha _ ih =>
    intro h
    obtain ⟨g, hg, hact⟩ := parseExtension_act env e
    obtain ⟨f, u, rfl, rfl⟩ := (alone_iff hg).1 ha
    obtain ⟨_, hc, hu⟩ := hact f u rfl
    rw [parseExtensions, hg] at h
    simp only [Res.ok_bind] at h
    obtain ⟨i1, i2, i3, i4, i5, i6⟩ := ih h
    obtain ⟨c1, c2, c3, c4, c5⟩ := hc { out with extensions := out.extensions ++ [e] }
    obtain ⟨d1, d2, d3, d4, d5⟩ := hc { extensions := [e] }
    have u1 := hu { out with extensions := out.extensions ++ [e] }
    have u2 := hu { extensions := [e] }
    simp only [List.nil_append] at d1 d2 d3 d4 d5
    simp only [List.flatMap_cons]
    rw [i1, i2, i3, i4, i5, i6]
    by_cases hcr : e.critical = true ∧ u = true
    · simp only [hcr, and_self, if_true]
      rw [c1, c2, c3, c4, c5, d1, d2, d3, d4, d5, u1, u2]
      simp
    · simp only [hcr, if_false]
      rw [c1, c2, c3, c4, c5, d1, d2, d3, d4, d5, u1, u2]
      simp

/-- A parsed certificate comes from its list of extensions. -/
theorem parseCertificate_extensions {env : Env U} {data : Bytes} {r : X509Cert U} (h : parseCertificate env data = .ok r) :
    ∃ out : X509Cert U, parseExtensions env r.extensions out = .ok r ∧ out.extKeyUsage = [] ∧ out.unknownExtKeyUsage = [] ∧
      out.crlDistributionPoints = [] ∧ out.ocspServer = [] ∧ out.issuingCertificateURL = [] ∧ out.unhandledCriticalExtensions = [] := by
  unfold parseCertificate at h
  rw [Res.bind_eq_ok] at h
  obtain ⟨c, _, h⟩ := h
  split at h
  · cases h
  unfold parseCert at h
  split at h
  · cases h
  split at h
  · cases h
  rw [Res.bind_eq_ok] at h
  obtain ⟨pub, _, h⟩ := h
  rw [Res.bind_eq_ok] at h
  obtain ⟨subject, _, h⟩ := h
  rw [Res.bind_eq_ok] at h
  obtain ⟨issuer, _, h⟩ := h
  have he := (parseExtensions_core env _ _ _ h).2
  simp only [List.nil_append] at he
  rw [he]
  exact ⟨_, h, rfl, rfl, rfl, rfl, rfl, rfl⟩

/-! ## C139 -/

/-- **C139** (what holds) Every extension of an accepted certificate would be accepted alone, and of several extensions with the same
identifier the last one counts: key usage, basic constraints, names, name constraints, key identifiers and policies are what it says
alone. -/
theorem C139_last_partial (env : Env U) (data : Bytes) (r : X509Cert U) (h : parseCertificate env data = .ok r) (l1 l2 : List Extension) (e : Extension)
    (hx : r.extensions = l1 ++ e :: l2) (hne : ∀ x ∈ l2, x.id ≠ e.id) : ∃ a, Alone env e a ∧ Replaced e.id r a := by
  obtain ⟨out, hp, _⟩ := parseCertificate_extensions h
  obtain ⟨a, ha⟩ := parseExtensions_each hp e (by rw [hx]; simp)
  rw [hx] at hp
  exact ⟨a, ha, parseExtensions_last ha hne hp⟩

/-- **C139** (what holds) Extended key usages, CRL distribution points, OCSP servers, issuers' URLs and the critical extensions that are
not understood are collected from all extensions in their order, repeated ones included. -/
theorem C139_all_partial (env : Env U) (data : Bytes) (r : X509Cert U) (h : parseCertificate env data = .ok r) :
    ∃ as : List (X509Cert U), List.Forall₂ (Alone env) r.extensions as ∧
      r.extKeyUsage = as.flatMap X509Cert.extKeyUsage ∧ r.unknownExtKeyUsage = as.flatMap X509Cert.unknownExtKeyUsage ∧
      r.crlDistributionPoints = as.flatMap X509Cert.crlDistributionPoints ∧ r.ocspServer = as.flatMap X509Cert.ocspServer ∧
      r.issuingCertificateURL = as.flatMap X509Cert.issuingCertificateURL ∧
      r.unhandledCriticalExtensions = as.flatMap X509Cert.unhandledCriticalExtensions := by
  obtain ⟨out, hp, o1, o2, o3, o4, o5, o6⟩ := parseCertificate_extensions h
  have hall : ∃ as, List.Forall₂ (Alone env) r.extensions as := by
    have := parseExtensions_each hp
    generalize r.extensions = es at this
    clear hp
    induction es with
    | nil => exact ⟨[], .nil⟩
    | cons e es ih =>
      obtain ⟨a, ha⟩ := this e (by simp)
      obtain ⟨as, has⟩ := ih fun x hx => this x (by simp [hx])
      exact ⟨a :: as, .cons ha has⟩
  obtain ⟨as, has⟩ := hall
  have := parseExtensions_all has hp
  rw [o1, o2, o3, o4, o5, o6] at this
  exact ⟨as, has, by simpa only [List.nil_append] using this⟩

/-- **C139** (negation) Repeating an extension, any number of times and anywhere, is never a reason to refuse. -/
theorem C139_repeated_violated (env : Env U) (es es' : List Extension) (out out' : X509Cert U) (h : ∃ r, parseExtensions env es out = .ok r)
    (hsub : ∀ e ∈ es', e ∈ es) : ∃ r, parseExtensions env es' out' = .ok r := by
  obtain ⟨r, h⟩ := h
  exact parseExtensions_of_each es' out' fun e he => parseExtensions_each h e (hsub e he)

/-- Basic constraints: not a CA. -/
def exNotCA : Bytes := exExtension [0x55, 0x1d, 0x13] true (elem 0x30 [])
/-- Basic constraints: a CA. -/
def exIsCA : Bytes := exExtension [0x55, 0x1d, 0x13] true (elem 0x30 (elem 0x01 [0xff]))

/-- **C139** (negation) A certificate that says first that it is not a CA's and then that it is one is accepted as a CA's. -/
theorem C139_ca_violated : ∃ (q : X509Cert Bytes) (e1 e2 : Extension) (a1 a2 : X509Cert Bytes),
    parseCertificate exEnv (exCertAfter (elem 0xa3 (elem 0x30 ([exNotCA, exUsage, exIsCA].flatten)))) = .ok q ∧
    q.extensions.filter (fun e => e.id = [2, 5, 29, 19]) = [e1, e2] ∧ Alone exEnv e1 a1 ∧ Alone exEnv e2 a2 ∧
    a1.isCA = false ∧ a2.isCA = true ∧ q.isCA = true ∧ q.unhandledCriticalExtensions = [] := by
  have h : (match parseCertificate exEnv (exCertAfter (elem 0xa3 (elem 0x30 ([exNotCA, exUsage, exIsCA].flatten)))) with
    | .ok q => decide (q.extensions.filter (fun e => e.id = [2, 5, 29, 19]) = [⟨[2, 5, 29, 19], true, elem 0x30 []⟩, ⟨[2, 5, 29, 19], true, elem 0x30 (elem 0x01 [0xff])⟩] ∧
        q.isCA = true ∧ q.unhandledCriticalExtensions = [])
    | _ => false) = true := by decide +kernel
  have h1 : (match parseExtensions exEnv [⟨[2, 5, 29, 19], true, elem 0x30 []⟩] {} with
    | .ok a => decide (a.isCA = false)
    | _ => false) = true := by decide +kernel
  have h2 : (match parseExtensions exEnv [⟨[2, 5, 29, 19], true, elem 0x30 (elem 0x01 [0xff])⟩] {} with
    | .ok a => decide (a.isCA = true)
    | _ => false) = true := by decide +kernel
  split at h
  · rename_i q hq
    split at h1
    · rename_i a1 ha1
      split at h2
      · rename_i a2 ha2
        obtain ⟨g1, g2, g3⟩ := of_decide_eq_true h
        exact ⟨q, _, _, a1, a2, hq, g1, ha1, ha2, of_decide_eq_true h1, of_decide_eq_true h2, g2, g3⟩
      · simp at h2
    · simp at h1
  · simp at h

end Verif.Props
