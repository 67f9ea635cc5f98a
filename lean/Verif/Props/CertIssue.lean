import Verif.Cert.IssueLemmas
import Verif.Props.CertExtensions
import Verif.Props.CertRequest
import Verif.Props.CertTimes
/-!
# An issued certificate can be read and is what the template asks for (C84)
-/
namespace Verif.Props
open Verif Verif.Der Verif.Cert Verif.Spec.DER Verif.Spec.Cert

variable {U : Type}

/-- A time with calendar fields that exist, a year from 1 to 9998 and a zone less than a day from UTC. -/
def WritableTime (t : Time) : Prop :=
  (1 ≤ t.year ∧ t.year ≤ 9998) ∧ ValidCal t.year.toNat t.month t.day t.hour t.min t.sec ∧ -1440 < t.offset ∧ t.offset < 1440

/-- `u` is in UTC and the same instant as `t`. -/
def SameInstant (t u : Time) : Prop :=
  u.offset = 0 ∧ u.sec = t.sec ∧
    minuteNumber u.year.toNat u.month u.day u.hour u.min 0 = minuteNumber t.year.toNat t.month t.day t.hour t.min t.offset

/-- A subject that can be read: the raw bytes are a name, the extra attributes have values that survive. -/
def GoodSubject (raw : Bytes) (n : Name) : Prop := (raw ≠ [] → ∃ rdns, parseName raw = .ok rdns) ∧ ∀ a ∈ n.extraNames, ATVOk a

/-- A template all of whose parts can be read one by one. -/
structure GoodTemplate (env : Env U) (t : X509Cert U) : Prop where
  subject : GoodSubject t.rawSubject t.subject
  notBefore : WritableTime t.notBefore
  notAfter : WritableTime t.notAfter
  /-- `x509.KeyUsage` has nine bits. -/
  keyUsage : 0 ≤ t.keyUsage ∧ t.keyUsage < 512
  /-- The unknown usages are unknown, and are object identifiers with components that fit. -/
  unknownUsages : ∀ o ∈ t.unknownExtKeyUsage, OIDFits o ∧ ∀ n, (n, o) ∉ ekuTable
  /-- An `int`. -/
  maxPathLen : Int64Range t.maxPathLen
  ips : ∀ ip ∈ t.ipAddresses, ip.length = 4 ∨ ip.length = 16
  uris : ∀ u ∈ t.uris, GoodURI env u
  policies : ∀ o ∈ t.policyIdentifiers, OIDFits o
  permittedMasks : ∀ n ∈ t.permittedIPRanges, n.mask.length = 4 ∨ n.mask.length = 16
  excludedMasks : ∀ n ∈ t.excludedIPRanges, n.mask.length = 4 ∨ n.mask.length = 16
  permitted : ValidConstraints env.isIP t.permittedDNSDomains t.permittedIPRanges t.permittedEmailAddresses t.permittedURIDomains
  excluded : ValidConstraints env.isIP t.excludedDNSDomains t.excludedIPRanges t.excludedEmailAddresses t.excludedURIDomains
  /-- The extensions that the template brings along are readable. -/
  extra : ∀ e ∈ t.extraExtensions, OIDFits e.id ∧ ∀ out, ∃ r, parseExtension env out e = .ok r

/-! ## The extensions one by one -/

theorem hasConstraints_some {t : X509Cert U} (h : hasConstraints t = true) : SomeConstraint t := by
  rintro ⟨h1, h2, h3, h4, h5, h6, h7, h8⟩
  unfold hasConstraints at h
  rw [h1, h2, h3, h4, h5, h6, h7, h8] at h
  simp at h

/-- The path length in the extension: -1 stands for none. -/
def wirePathLen (t : X509Cert U) : Int := if t.maxPathLen = 0 ∧ t.maxPathLenZero = false then -1 else t.maxPathLen

theorem made_ku {env : Env U} {t : X509Cert U} (ht : GoodTemplate env t) {e : Extension} (hid : e.id = oidExtensionKeyUsage)
    (hv : keyUsageValue t.keyUsage = .ok e.value) (out : X509Cert U) :
    parseExtension env out e = .ok ({ out with keyUsage := t.keyUsage }, false) := by
  obtain ⟨h1, h2⟩ := ht.keyUsage
  obtain ⟨k, hk⟩ := Int.eq_ofNat_of_zero_le h1
  obtain ⟨v, g1, g2⟩ := C53_roundtrip k (by omega)
  rw [hk] at hv
  rw [hv] at g1
  simp only [Res.ok.injEq] at g1
  unfold parseExtension
  rw [if_pos hid, g1, g2, hk]
  rfl

theorem made_bc {env : Env U} {t : X509Cert U} (ht : GoodTemplate env t) {e : Extension} (hid : e.id = oidExtensionBasicConstraints)
    (hl : e.value.length < 2 ^ 31) (hv : basicConstraintsValue t.isCA t.maxPathLen t.maxPathLenZero = .ok e.value) (out : X509Cert U) :
    parseExtension env out e = .ok ({ out with basicConstraintsValid := true, isCA := t.isCA, maxPathLen := wirePathLen t, maxPathLenZero := wirePathLen t = 0 }, false) := by
  have hr : Int64Range (if t.maxPathLen = 0 ∧ t.maxPathLenZero = false then -1 else t.maxPathLen) := by
    split
    · unfold Int64Range; omega
    · exact ht.maxPathLen
  unfold parseExtension
  rw [if_neg (by rw [hid]; decide), if_pos hid, unmarshalAll_of (basicConstraints_rt hr) hv hl]
  rfl

theorem made_san {env : Env U} {t : X509Cert U} (ht : GoodTemplate env t) {e : Extension} (hid : e.id = oidExtensionSubjectAltName)
    (hl : e.value.length < 2 ^ 31) (hv : marshalSANs env t.dnsNames t.emailAddresses t.ipAddresses t.uris = .ok e.value) :
    ∃ ips, List.Forall₂ IsWireIP t.ipAddresses ips ∧ ∀ out, ∃ u, parseExtension env out e =
      .ok ({ out with dnsNames := t.dnsNames, emailAddresses := t.emailAddresses, ipAddresses := ips, uris := t.uris }, u) := by
  obtain ⟨s, g1, g2, g3, g4, g5⟩ := C55_roundtrip env _ _ _ _ _ hv hl ht.ips ht.uris
  refine ⟨s.ipAddresses, g4, fun out => ⟨!hasSans s.dnsNames s.emailAddresses s.ipAddresses s.uris, ?_⟩⟩
  unfold parseExtension
  rw [if_neg (by rw [hid]; decide), if_neg (by rw [hid]; decide), if_pos hid, g1, ← g2, ← g3, ← g5]
  rfl

theorem made_nc {env : Env U} {t : X509Cert U} (ht : GoodTemplate env t) (hs : SomeConstraint t) {e : Extension} (hid : e.id = oidExtensionNameConstraints)
    (hl : e.value.length < 2 ^ 31) (hv : nameConstraintsValue env t = .ok e.value) :
    ∃ pn xn, List.Forall₂ NetOf t.permittedIPRanges pn ∧ List.Forall₂ NetOf t.excludedIPRanges xn ∧
      ∀ out, parseExtension env out e = .ok ({ out with
        permittedDNSDomains := t.permittedDNSDomains, permittedIPRanges := pn
        permittedEmailAddresses := t.permittedEmailAddresses, permittedURIDomains := t.permittedURIDomains
        excludedDNSDomains := t.excludedDNSDomains, excludedIPRanges := xn
        excludedEmailAddresses := t.excludedEmailAddresses, excludedURIDomains := t.excludedURIDomains
        permittedDNSDomainsCritical := e.critical }, false) := by
  obtain ⟨pn, xn, g1, g2, g3⟩ := C56_roundtrip env t hs _ hv (by omega) ht.permittedMasks ht.excludedMasks ht.permitted ht.excluded
  refine ⟨pn, xn, g1, g2, fun out => ?_⟩
  unfold parseExtension
  rw [if_neg (by rw [hid]; decide), if_neg (by rw [hid]; decide), if_neg (by rw [hid]; decide), if_pos hid, g3]
  rfl

theorem made_crl {env : Env U} {t : X509Cert U} {e : Extension} (hid : e.id = oidExtensionCRLDistributionPoints)
    (hl : e.value.length < 2 ^ 31) (hv : crlValue t.crlDistributionPoints = .ok e.value) (out : X509Cert U) :
    parseExtension env out e = .ok ({ out with crlDistributionPoints := out.crlDistributionPoints ++ t.crlDistributionPoints }, false) := by
  have hrt : ElemRT (tySlice false tyDP) (t.crlDistributionPoints.map fun name => ({ name := { fullName := some [{ tag := 6, cls := 2, bytes := name }] } } : DP))
      (t.crlDistributionPoints.map fun b => ({ name := { fullName := some [RawValue.filled { tag := 6, cls := 2, bytes := b }] } } : DP)) := by
    refine slice_rt ?_
    rw [List.forall₂_map_left_iff, List.forall₂_map_right_iff]
    exact forall₂_self fun b _ => dp_rt b
  unfold parseExtension
  rw [if_neg (by rw [hid]; decide), if_neg (by rw [hid]; decide), if_neg (by rw [hid]; decide), if_neg (by rw [hid]; decide), if_pos hid,
    unmarshalAll_of hrt hv hl, Res.ok_bind]
  have : ∀ l : List Bytes, crlNames (l.map fun b => ({ name := { fullName := some [RawValue.filled { tag := 6, cls := 2, bytes := b }] } } : DP)) = l := by
    intro l
    induction l with
    | nil => rfl
    | cons b l ih =>
      unfold crlNames at *
      rw [List.map_cons, List.flatMap_cons, ih]
      rfl
  rw [this]

theorem made_akid {env : Env U} {akid : Bytes} {e : Extension} (hid : e.id = oidExtensionAuthorityKeyId)
    (hl : e.value.length < 2 ^ 31) (hv : marshal tyAuthKeyId (some akid) = .ok e.value) (out : X509Cert U) :
    parseExtension env out e = .ok ({ out with authorityKeyId := akid }, false) := by
  unfold parseExtension
  rw [if_neg (by rw [hid]; decide), if_neg (by rw [hid]; decide), if_neg (by rw [hid]; decide), if_neg (by rw [hid]; decide),
    if_neg (by rw [hid]; decide), if_pos hid, unmarshalAll_of (authKeyId_rt akid) hv hl]
  rfl

theorem made_eku {env : Env U} {t : X509Cert U} (ht : GoodTemplate env t) {e : Extension} (hid : e.id = oidExtensionExtendedKeyUsage)
    (hl : e.value.length < 2 ^ 31) (hv : extKeyUsageValue t.extKeyUsage t.unknownExtKeyUsage = .ok e.value) (out : X509Cert U) :
    parseExtension env out e = .ok ({ out with extKeyUsage := out.extKeyUsage ++ t.extKeyUsage, unknownExtKeyUsage := out.unknownExtKeyUsage ++ t.unknownExtKeyUsage }, false) := by
  obtain ⟨oids, g1, g2⟩ := C54_roundtrip _ _ _ hv hl (fun o ho => (ht.unknownUsages o ho).1) (fun o ho => (ht.unknownUsages o ho).2)
  unfold parseExtension
  rw [if_neg (by rw [hid]; decide), if_neg (by rw [hid]; decide), if_neg (by rw [hid]; decide), if_neg (by rw [hid]; decide),
    if_neg (by rw [hid]; decide), if_neg (by rw [hid]; decide), if_pos hid, g1, Res.ok_bind, g2]

theorem made_skid {env : Env U} {t : X509Cert U} {e : Extension} (hid : e.id = oidExtensionSubjectKeyId)
    (hl : e.value.length < 2 ^ 31) (hv : marshal tyBytes t.subjectKeyId = .ok e.value) (out : X509Cert U) :
    parseExtension env out e = .ok ({ out with subjectKeyId := t.subjectKeyId }, false) := by
  have hrt : ElemRT tyBytes t.subjectKeyId t.subjectKeyId :=
    elemRT_of (z := false) (d := fun _ => false) (body := .ok t.subjectKeyId) rfl (by decide) (by decide) (fieldRT_bytes rfl rfl (by decide))
  unfold parseExtension
  rw [if_neg (by rw [hid]; decide), if_neg (by rw [hid]; decide), if_neg (by rw [hid]; decide), if_neg (by rw [hid]; decide),
    if_neg (by rw [hid]; decide), if_neg (by rw [hid]; decide), if_neg (by rw [hid]; decide), if_pos hid, unmarshalAll_of hrt hv hl]
  rfl

theorem made_policies {env : Env U} {t : X509Cert U} (ht : GoodTemplate env t) {e : Extension} (hid : e.id = oidExtensionCertificatePolicies)
    (hl : e.value.length < 2 ^ 31) (hv : marshal (tySlice false tyPolicyInformation) t.policyIdentifiers = .ok e.value) (out : X509Cert U) :
    parseExtension env out e = .ok ({ out with policyIdentifiers := t.policyIdentifiers }, false) := by
  unfold parseExtension
  rw [if_neg (by rw [hid]; decide), if_neg (by rw [hid]; decide), if_neg (by rw [hid]; decide), if_neg (by rw [hid]; decide),
    if_neg (by rw [hid]; decide), if_neg (by rw [hid]; decide), if_neg (by rw [hid]; decide), if_neg (by rw [hid]; decide), if_pos hid,
    unmarshalAll_of (slice_rt (forall₂_self fun o ho => policy_rt (ht.policies o ho))) hv hl]
  rfl

theorem made_aia {env : Env U} {t : X509Cert U} {e : Extension} (hid : e.id = oidExtensionAuthorityInfoAccess)
    (hl : e.value.length < 2 ^ 31) (hv : aiaValue t.ocspServer t.issuingCertificateURL = .ok e.value) (out : X509Cert U) :
    parseExtension env out e = .ok ({ out with ocspServer := out.ocspServer ++ t.ocspServer, issuingCertificateURL := out.issuingCertificateURL ++ t.issuingCertificateURL }, false) := by
  have f1 : OIDFits oidAuthorityInfoAccessOcsp := by unfold OIDFits; decide
  have f2 : OIDFits oidAuthorityInfoAccessIssuers := by unfold OIDFits; decide
  have hrt : ElemRT (tySlice false tyAIA)
      (t.ocspServer.map (fun name => (⟨oidAuthorityInfoAccessOcsp, { tag := 6, cls := 2, bytes := name }⟩ : AIA)) ++
        t.issuingCertificateURL.map (fun name => (⟨oidAuthorityInfoAccessIssuers, { tag := 6, cls := 2, bytes := name }⟩ : AIA)))
      (t.ocspServer.map (fun name => (⟨oidAuthorityInfoAccessOcsp, RawValue.filled { tag := 6, cls := 2, bytes := name }⟩ : AIA)) ++
        t.issuingCertificateURL.map (fun name => (⟨oidAuthorityInfoAccessIssuers, RawValue.filled { tag := 6, cls := 2, bytes := name }⟩ : AIA))) := by
    refine slice_rt (List.rel_append ?_ ?_)
    · rw [List.forall₂_map_left_iff, List.forall₂_map_right_iff]
      exact forall₂_self fun b _ => aia_rt (v := ⟨oidAuthorityInfoAccessOcsp, { tag := 6, cls := 2, bytes := b }⟩) f1 rfl (show 2 < 4 by decide) (show 6 < 31 by decide)
    · rw [List.forall₂_map_left_iff, List.forall₂_map_right_iff]
      exact forall₂_self fun b _ => aia_rt (v := ⟨oidAuthorityInfoAccessIssuers, { tag := 6, cls := 2, bytes := b }⟩) f2 rfl (show 2 < 4 by decide) (show 6 < 31 by decide)
  have same : ∀ (m : OID) (l : List Bytes), aiaLocations m (l.map fun name => (⟨m, RawValue.filled { tag := 6, cls := 2, bytes := name }⟩ : AIA)) = l := by
    intro m l
    unfold aiaLocations
    rw [List.filter_eq_self.2 (by intro a ha; obtain ⟨b, _, rfl⟩ := List.mem_map.1 ha; simp [RawValue.filled]), List.map_map]
    exact List.map_id' l
  have other : ∀ (m m' : OID) (l : List Bytes), m ≠ m' → aiaLocations m (l.map fun name => (⟨m', RawValue.filled { tag := 6, cls := 2, bytes := name }⟩ : AIA)) = [] := by
    intro m m' l hm
    unfold aiaLocations
    rw [List.filter_eq_nil_iff.2 (by intro a ha; obtain ⟨b, _, rfl⟩ := List.mem_map.1 ha; simp [Ne.symm hm])]
    rfl
  have app : ∀ (m : OID) (l l' : List AIA), aiaLocations m (l ++ l') = aiaLocations m l ++ aiaLocations m l' := by
    intro m l l'; unfold aiaLocations; rw [List.filter_append, List.map_append]
  unfold parseExtension
  rw [if_neg (by rw [hid]; decide), if_neg (by rw [hid]; decide), if_neg (by rw [hid]; decide), if_neg (by rw [hid]; decide),
    if_neg (by rw [hid]; decide), if_neg (by rw [hid]; decide), if_neg (by rw [hid]; decide), if_neg (by rw [hid]; decide), if_neg (by rw [hid]; decide),
    if_pos hid, unmarshalAll_of hrt hv hl, Res.ok_bind, app, app, same, same, other _ _ _ (by decide), other _ _ _ (by decide)]
  simp

/-- Every extension that was generated can be read. -/
theorem made_ok {env : Env U} {t : X509Cert U} (ht : GoodTemplate env t) {se : Bool} {akid : Bytes} {s : Cert.Section} (hs : s ∈ sectionsOf env t se akid)
    (hc : s.cond = true) {e : Extension} (hm : s.Makes e) (hl : e.value.length < 2 ^ 31) (out : X509Cert U) : ∃ r, parseExtension env out e = .ok r := by
  obtain ⟨h1, _, h3⟩ := hm
  simp only [sectionsOf, List.mem_cons, List.not_mem_nil, or_false] at hs
  rcases hs with rfl | rfl | rfl | rfl | rfl | rfl | rfl | rfl | rfl | rfl
  · exact ⟨_, made_ku ht h1 h3 out⟩
  · exact ⟨_, made_eku ht h1 hl h3 out⟩
  · exact ⟨_, made_bc ht h1 hl h3 out⟩
  · exact ⟨_, made_skid h1 hl h3 out⟩
  · exact ⟨_, made_akid h1 hl h3 out⟩
  · exact ⟨_, made_aia h1 hl h3 out⟩
  · obtain ⟨_, _, h⟩ := made_san ht h1 hl h3
    obtain ⟨_, h⟩ := h out
    exact ⟨_, h⟩
  · exact ⟨_, made_policies ht h1 hl h3 out⟩
  · obtain ⟨_, _, _, _, h⟩ := made_nc ht (hasConstraints_some hc) h1 hl h3
    exact ⟨_, h out⟩
  · exact ⟨_, made_crl h1 hl h3 out⟩

/-! ## The whole certificate -/

theorem subjectBytes_parses {raw : Bytes} {n : Name} {b : Bytes} (hg : GoodSubject raw n) (h : subjectBytes raw n = .ok b) (hl : b.length < 2 ^ 31) :
    ∃ rdns, parseName b = .ok rdns ∧ (raw = [] → rdns = n.toRDNSequence) ∧ RawOk b := by
  have : ∃ rdns, parseName b = .ok rdns ∧ (raw = [] → rdns = n.toRDNSequence) := by
    unfold subjectBytes at h
    split at h
    · rename_i hr
      simp only [Res.ok.injEq] at h
      subst h
      have hne : raw ≠ [] := by rintro e; rw [e] at hr; simp at hr
      obtain ⟨rdns, hr⟩ := hg.1 hne
      exact ⟨rdns, hr, fun e => absurd e hne⟩
    · exact ⟨_, subject_parses hg.2 h hl, fun _ => rfl⟩
  obtain ⟨rdns, h1, h2⟩ := this
  refine ⟨rdns, h1, h2, ?_⟩
  obtain ⟨c, hc, rfl⟩ := parseName_ok h1
  exact ⟨0, 16, true, c, by decide, by decide, hc, rfl⟩

/-- The key info of a parsed request can be read again. -/
theorem csr_key {env : Env U} {der : Bytes} {csr : CertReq U} (h : parseCertificateRequest env der = .ok csr) :
    ∃ k pub, unmarshal tyPublicKeyInfo csr.rawSPKI = .ok (k, []) ∧ k.algorithm.algorithm = oidPublicKeyECDSA ∧
      parsePublicKey k = .ok pub ∧ csr.publicKey = some pub := by
  unfold parseCertificateRequest at h
  rw [Res.bind_eq_ok] at h
  obtain ⟨⟨inp, rest⟩, h1, h2⟩ := h
  rcases ite_ok h2 with ⟨_, h2⟩ | ⟨hr, h2⟩
  · simp at h2
  obtain ⟨c, _, _, h3⟩ := parseField_struct h1
  simp only [Res.bind_eq_ok] at h3
  obtain ⟨⟨tbs, r1⟩, g1, ⟨_, r2⟩, _, ⟨_, r3⟩, _, h3⟩ := h3
  simp only [Res.ok.injEq] at h3
  obtain ⟨c2, _, _, h4⟩ := parseField_struct g1
  simp only [Res.bind_eq_ok] at h4
  obtain ⟨⟨_, q1⟩, _, ⟨_, q2⟩, _, ⟨k, q3⟩, g2, ⟨_, q4⟩, _, h4⟩ := h4
  simp only [Res.ok.injEq] at h4
  have hk : inp.tbs.publicKey = k := by rw [← h3, ← h4]
  obtain ⟨c3, h5, h6, h7⟩ := parseField_struct g2
  have hraw : k.raw = elem 0x30 c3 := by
    simp only [Res.bind_eq_ok] at h7
    obtain ⟨_, _, _, _, h7⟩ := h7
    simp only [Res.ok.injEq] at h7
    rw [← h7]
  have hum : unmarshal tyPublicKeyInfo (elem 0x30 c3) = .ok (k, []) :=
    (parseField_iff (ty := tyPublicKeyInfo) (p := {}) (bs := elem 0x30 c3) (rest := []) (v := k) rfl rfl rfl rfl (by show (16 : Nat) < 31; decide)).2
      ⟨c3, h5, by simp; rfl, h7⟩
  unfold parseCSR at h2
  rw [Res.bind_eq_ok] at h2
  obtain ⟨as, _, h2⟩ := h2
  rcases ite_ok h2 with ⟨_, h2⟩ | ⟨_, h2⟩
  · simp at h2
  rcases ite_ok h2 with ⟨_, h2⟩ | ⟨halg, h2⟩
  · simp at h2
  simp only [Res.bind_eq_ok, Res.ok.injEq] at h2
  obtain ⟨pub, p1, _, _, _, _, _, _, h2⟩ := h2
  rw [hk] at p1 halg
  refine ⟨k, pub, ?_, not_not.1 halg, p1, by rw [← h2]⟩
  rw [← h2]
  dsimp only
  rw [hk, hraw]
  exact hum

/-- How an issued certificate is read. -/
theorem issued_parse {env : Env U} {t p : X509Cert U} {csr : CertReq U} {der : Bytes} {tbs : TbsCert} {d : ℕ} {id : Option Bytes} {tape : Sm2.Tape}
    {cert : Bytes} (ht : GoodTemplate env t) (hp : GoodSubject p.rawSubject p.subject) (hcsr : parseCertificateRequest env der = .ok csr)
    (h : createCertificateInfo env t p csr = .ok tbs) (hi : issueCertificateBySoftCAKey tbs ⟨d⟩ id tape = .ok cert) (hl : cert.length < 2 ^ 31) :
    ∃ (out r : X509Cert U) (gen : List Extension),
      parseCertificate env cert = .ok r ∧ parseExtensions env (gen ++ t.extraExtensions) out = .ok r ∧
      tbs.extensions = some (gen ++ t.extraExtensions) ∧
      List.Forall₂ Section.Makes ((sectionsOf env t (tbs.subject.fullBytes = emptyASN1Subject)
        (akidOf tbs.issuer.fullBytes tbs.subject.fullBytes t p)).filter (Section.used t.extraExtensions)) gen ∧
      (∀ e ∈ gen ++ t.extraExtensions, e.value.length < 2 ^ 31) ∧
      subjectBytes p.rawSubject p.subject = .ok tbs.issuer.fullBytes ∧ subjectBytes t.rawSubject t.subject = .ok tbs.subject.fullBytes ∧
      (∃ sig irdns srdns u1 u2, Sm2.sign ⟨d⟩ id tbs.raw tape = .ok sig ∧ SameInstant t.notBefore u1 ∧ SameInstant t.notAfter u2 ∧
        (p.rawSubject = [] → irdns = p.subject.toRDNSequence) ∧ (t.rawSubject = [] → srdns = t.subject.toRDNSequence) ∧
        out = {
          raw := cert
          rawTBS := tbs.raw
          rawSPKI := csr.rawSPKI
          rawSubject := tbs.subject.fullBytes
          rawIssuer := tbs.issuer.fullBytes
          signature := sig
          publicKey := csr.publicKey
          version := 3
          serialNumber := t.serialNumber
          issuer := Name.fillFromRDNSequence {} irdns
          subject := Name.fillFromRDNSequence {} srdns
          notBefore := u1
          notAfter := u2 }) := by
  obtain ⟨serial, exts, spki, issuer, subject, raw, h1, h2, h3, h4, h5, h6, rfl⟩ := createCertificateInfo_ok h
  obtain ⟨gen, h7, rfl⟩ := (buildExtensions_iff _ _ _ _ _).1 h4
  unfold issueCertificateBySoftCAKey at hi
  rw [Res.bind_eq_ok] at hi
  obtain ⟨sig, h8, h9⟩ := hi
  dsimp only at h8 ⊢
  have hraw : raw.length < 2 ^ 31 := cert_tbs_small h6 h9 hl
  obtain ⟨k, pub, k1, k2, k3, k4⟩ := csr_key hcsr
  rw [h5] at k1
  simp only [Res.ok.injEq, Prod.mk.injEq, and_true] at k1
  subst k1
  obtain ⟨p1, p2, p3, _⟩ := pki_reparse h5
  -- lengths
  have hlen : issuer.length < 2 ^ 31 ∧ subject.length < 2 ^ 31 := by
    obtain ⟨c, m1, m2, _⟩ := struct_rt' h6 hraw
    unfold withRaw at m1
    rw [if_neg (by simp)] at m1
    simp only [Res.bind_eq_ok, Res.ok.injEq] at m1
    obtain ⟨x1, g1, x2, g2, x3, g3, x4, g4, x5, g5, x6, g6, x7, g7, x8, g8, x9, g9, x10, g10, rfl⟩ := m1
    simp only [List.length_append] at m2
    constructor
    · by_cases hs : issuer = []
      · subst hs; simp
      · rw [raw_make (v := { fullBytes := issuer }) hs] at g4
        simp only [Res.ok.injEq] at g4
        subst g4
        omega
    · by_cases hs : subject = []
      · subst hs; simp
      · rw [raw_make (v := { fullBytes := subject }) hs] at g6
        simp only [Res.ok.injEq] at g6
        subst g6
        omega
  obtain ⟨irdns, i1, i2, i3⟩ := subjectBytes_parses hp h2 hlen.1
  obtain ⟨srdns, s1, s2, s3⟩ := subjectBytes_parses ht.subject h3 hlen.2
  obtain ⟨w1, u1, a1, a2, a3, a4, a5⟩ := C75_roundtrip t.notBefore ht.notBefore.1 ht.notBefore.2.1 ht.notBefore.2.2
  obtain ⟨w2, u2, b1, b2, b3, b4, b5⟩ := C75_roundtrip t.notAfter ht.notAfter.1 ht.notAfter.2.1 ht.notAfter.2.2
  have hfits : ∀ e ∈ gen ++ t.extraExtensions, OIDFits e.id := by
    intro e he
    rcases List.mem_append.1 he with he | he
    · obtain ⟨s, hs, hm⟩ := makes_mem h7 e he
      have hs' : s.id ∈ (sectionsOf env t (subject = emptyASN1Subject) (akidOf issuer subject t p)).map Section.id :=
        List.mem_map.2 ⟨s, (List.mem_filter.1 hs).1, rfl⟩
      rw [hm.1]
      have : ∀ i ∈ ([oidExtensionKeyUsage, oidExtensionExtendedKeyUsage, oidExtensionBasicConstraints, oidExtensionSubjectKeyId, oidExtensionAuthorityKeyId,
          oidExtensionAuthorityInfoAccess, oidExtensionSubjectAltName, oidExtensionCertificatePolicies, oidExtensionNameConstraints,
          oidExtensionCRLDistributionPoints] : List OID), OIDFits i := by
        unfold OIDFits; decide
      exact this _ hs'
    · exact (ht.extra e he).1
  have hu1 : FieldRT tyTime {} (toUTC t.notBefore) u1 := fun e he _ rest => by
    rw [a1] at he; simp only [Res.ok.injEq] at he; subst he; exact a2 rest
  have hu2 : FieldRT tyTime {} (toUTC t.notAfter) u2 := fun e he _ rest => by
    rw [b1] at he; simp only [Res.ok.injEq] at he; subst he; exact b2 rest
  obtain ⟨c, i, s, q1, q2, q3, q4, ⟨x, q5, q6⟩, q7⟩ := tbsCert_rt (val := ⟨toUTC t.notBefore, toUTC t.notAfter⟩) i3 s3 hu1 hu2 p2 p3 hfits h6 hraw
  have hsmall : ∀ e ∈ gen ++ t.extraExtensions, e.value.length < 2 ^ 31 := by
    obtain ⟨es, rfl, hes⟩ := makeElems_ok q5
    intro e he
    clear h6 h4 h7 h9 hfits q7 q5
    generalize gen ++ t.extraExtensions = l at hes he
    induction hes with
    | nil => simp at he
    | @cons a b l1 l2 r1 r2 ih =>
      rw [List.flatten_cons, List.length_append] at q6
      rcases List.mem_cons.1 he with rfl | he
      · exact extension_small r1 (by omega)
      · exact ih (by omega) he
  have hread := cert_rt (w := ⟨raw, 2, serial, sigAlgSM3WithSM2, i, ⟨u1, u2⟩, s, spki, none, none, some (gen ++ t.extraExtensions)⟩) q2 q1 (by rw [← q2]; exact q7) h9 hl
  obtain ⟨r, hr⟩ := parseExtensions_ok env (gen ++ t.extraExtensions) {
          raw := cert
          rawTBS := raw
          rawSPKI := csr.rawSPKI
          rawSubject := subject
          rawIssuer := issuer
          signature := sig
          publicKey := csr.publicKey
          version := 3
          serialNumber := t.serialNumber
          issuer := Name.fillFromRDNSequence {} irdns
          subject := Name.fillFromRDNSequence {} srdns
          notBefore := u1
          notAfter := u2 } (by
    intro e he out
    rcases List.mem_append.1 he with he' | he'
    · obtain ⟨s, hs, hm⟩ := makes_mem h7 e he'
      obtain ⟨hs1, hs2⟩ := List.mem_filter.1 hs
      refine made_ok ht hs1 ?_ hm (hsmall e he) out
      unfold Section.used at hs2
      rw [Bool.and_eq_true] at hs2
      exact hs2.1
    · exact (ht.extra e he').2 out)
  refine ⟨_, r, gen, ?_, hr, rfl, h7, hsmall, h2, h3, sig, irdns, srdns, u1, u2, h8, ⟨a3, a4, a5⟩, ⟨b3, b4, b5⟩, i2, s2, rfl⟩
  unfold parseCertificate
  rw [hread, Res.ok_bind]
  rw [if_neg (by simp)]
  unfold parseCert
  dsimp only
  rw [if_neg (by simp), if_neg (by rw [k2]; simp), k3, Res.ok_bind, q4, s1, Res.ok_bind, q3, i1, Res.ok_bind, p1, rightAlign_bytes, ← k4, ← h1]
  exact hr

/-- **C84** What `CreateCertificateInfo` and `IssueCertificateBySoftCAKey` make is accepted by `ParseCertificate`, for every CA
key, user id and nonces, every parsed request and every template whose parts can be read one by one. The certificate has
version 3, the serial number, the names, the instants and the extensions that were asked for, and the key of the request. The
signature verifies with the key of the CA. -/
theorem C84_issued (env : Env U) (t p : X509Cert U) (der : Bytes) (csr : CertReq U) (tbs : TbsCert) (d : ℕ) (id : Option Bytes)
    (tape : Sm2.Tape) (cert : Bytes) (ht : GoodTemplate env t) (hp : GoodSubject p.rawSubject p.subject)
    (hcsr : parseCertificateRequest env der = .ok csr)
    (h : createCertificateInfo env t p csr = .ok tbs) (hi : issueCertificateBySoftCAKey tbs ⟨d⟩ id tape = .ok cert) (hl : cert.length < 2 ^ 31) :
    ∃ r, parseCertificate env cert = .ok r ∧ r.raw = cert ∧ r.rawTBS = tbs.raw ∧ r.version = 3 ∧ r.serialNumber = t.serialNumber ∧
      subjectBytes p.rawSubject p.subject = .ok r.rawIssuer ∧ subjectBytes t.rawSubject t.subject = .ok r.rawSubject ∧
      (p.rawSubject = [] → r.issuer = Name.fillFromRDNSequence {} p.subject.toRDNSequence) ∧
      (t.rawSubject = [] → r.subject = Name.fillFromRDNSequence {} t.subject.toRDNSequence) ∧
      SameInstant t.notBefore r.notBefore ∧ SameInstant t.notAfter r.notAfter ∧
      r.rawSPKI = csr.rawSPKI ∧ r.publicKey = csr.publicKey ∧ tbs.extensions = some r.extensions ∧
      ∀ pub, Sm2.calculatePubKey ⟨d⟩ = .ok pub → Sm2.verify pub id r.rawTBS r.signature = .ok true := by
  obtain ⟨out, r, gen, h1, h2, h3, _, _, h6, h7, sig, irdns, srdns, u1, u2, h8, h9, h10, h11, h12, rfl⟩ := issued_parse ht hp hcsr h hi hl
  obtain ⟨hc, he⟩ := parseExtensions_core env _ _ _ h2
  obtain ⟨raw, rawTBS, rawSPKI, rawSubject, rawIssuer, signature, publicKey, version, serialNumber, iss, sub, nb, na⟩ := r
  simp only [X509Cert.core, Prod.mk.injEq] at hc
  obtain ⟨rfl, rfl, rfl, rfl, rfl, rfl, rfl, rfl, rfl, rfl, rfl, rfl, rfl, rfl⟩ := hc
  simp only [List.nil_append] at he
  refine ⟨_, h1, rfl, rfl, rfl, rfl, h6, h7, fun e => by rw [h11 e], fun e => by rw [h12 e], h9, h10, rfl, rfl, by rw [h3, he], fun pub hpub => ?_⟩
  exact C35_der_verifies d pub hpub id _ tape _ h8

/-- The extension is not among those that the template brings along. -/
def NotExtra (t : X509Cert U) (k : List Nat) : Prop := ∀ e ∈ t.extraExtensions, e.id ≠ k

/-- **C84** The fields of the certificate that come from extensions are those of the template, each one unless the template
brings along that extension itself. A path length of 0 needs `MaxPathLenZero`; without basic constraints nothing of them
is kept. The authority key identifier is that of `akidOf`. Addresses are in the form of the standard, address ranges have
their host bits cleared. -/
theorem C84_fields (env : Env U) (t p : X509Cert U) (der : Bytes) (csr : CertReq U) (tbs : TbsCert) (d : ℕ) (id : Option Bytes)
    (tape : Sm2.Tape) (cert : Bytes) (ht : GoodTemplate env t) (hp : GoodSubject p.rawSubject p.subject)
    (hcsr : parseCertificateRequest env der = .ok csr)
    (h : createCertificateInfo env t p csr = .ok tbs) (hi : issueCertificateBySoftCAKey tbs ⟨d⟩ id tape = .ok cert) (hl : cert.length < 2 ^ 31) :
    ∃ r, parseCertificate env cert = .ok r ∧
      (NotExtra t [2, 5, 29, 15] → r.keyUsage = t.keyUsage) ∧
      (NotExtra t [2, 5, 29, 37] → r.extKeyUsage = t.extKeyUsage ∧ r.unknownExtKeyUsage = t.unknownExtKeyUsage) ∧
      (NotExtra t [2, 5, 29, 19] → r.basicConstraintsValid = t.basicConstraintsValid ∧
        (t.basicConstraintsValid = true → r.isCA = t.isCA ∧
          r.maxPathLen = (if t.maxPathLen = 0 ∧ t.maxPathLenZero = false then -1 else t.maxPathLen) ∧
          (r.maxPathLenZero = true ↔ r.maxPathLen = 0)) ∧
        (t.basicConstraintsValid = false → r.isCA = false ∧ r.maxPathLen = 0 ∧ r.maxPathLenZero = false)) ∧
      (NotExtra t [2, 5, 29, 14] → r.subjectKeyId = t.subjectKeyId) ∧
      (NotExtra t [2, 5, 29, 35] → r.authorityKeyId = akidOf r.rawIssuer r.rawSubject t p) ∧
      (NotExtra t [1, 3, 6, 1, 5, 5, 7, 1, 1] → r.ocspServer = t.ocspServer ∧ r.issuingCertificateURL = t.issuingCertificateURL) ∧
      (NotExtra t [2, 5, 29, 17] → r.dnsNames = t.dnsNames ∧ r.emailAddresses = t.emailAddresses ∧
        List.Forall₂ IsWireIP t.ipAddresses r.ipAddresses ∧ r.uris = t.uris) ∧
      (NotExtra t [2, 5, 29, 32] → r.policyIdentifiers = t.policyIdentifiers) ∧
      (NotExtra t [2, 5, 29, 30] → r.permittedDNSDomains = t.permittedDNSDomains ∧ r.excludedDNSDomains = t.excludedDNSDomains ∧
        List.Forall₂ NetOf t.permittedIPRanges r.permittedIPRanges ∧ List.Forall₂ NetOf t.excludedIPRanges r.excludedIPRanges ∧
        r.permittedEmailAddresses = t.permittedEmailAddresses ∧ r.excludedEmailAddresses = t.excludedEmailAddresses ∧
        r.permittedURIDomains = t.permittedURIDomains ∧ r.excludedURIDomains = t.excludedURIDomains ∧
        (SomeConstraint t → r.permittedDNSDomainsCritical = t.permittedDNSDomainsCritical)) ∧
      (NotExtra t [2, 5, 29, 31] → r.crlDistributionPoints = t.crlDistributionPoints) := by
  obtain ⟨out, r, gen, h1, h2, h3, h4, h5, h6, h7, sig, irdns, srdns, u1, u2, h8, h9, h10, h11, h12, rfl⟩ := issued_parse ht hp hcsr h hi hl
  obtain ⟨hc, he⟩ := parseExtensions_core env _ _ _ h2
  have hri : r.rawIssuer = tbs.issuer.fullBytes := congrArg (fun x => x.2.2.2.2.1) hc
  have hrs : r.rawSubject = tbs.subject.fullBytes := congrArg (fun x => x.2.2.2.1) hc
  have hn := sections_nodup env t (tbs.subject.fullBytes = emptyASN1Subject) (akidOf tbs.issuer.fullBytes tbs.subject.fullBytes t p)
  refine ⟨r, h1, ?_, ?_, ?_, ?_, ?_, ?_, ?_, ?_, ?_, ?_⟩
  · intro hx
    obtain ⟨g1, g2⟩ := section_field (s := ⟨t.keyUsage ≠ 0, oidExtensionKeyUsage, true, keyUsageValue t.keyUsage⟩) h4 hn (by simp [sectionsOf])
      (owns_keyUsage env) h2 hx
    by_cases hk : t.keyUsage = 0
    · rw [g1 (by simp [hk]), hk]
    · obtain ⟨e, o1, o2, u, k1, k2, k3, k4, k5⟩ := g2 (by simp [hk])
      rw [made_ku ht k2.1 k2.2.2 o1] at k4
      simp only [Res.ok.injEq, Prod.mk.injEq] at k4
      rw [k5, ← k4.1]
  · intro hx
    obtain ⟨g1, g2⟩ := section_field (s := ⟨t.extKeyUsage.length > 0 ∨ t.unknownExtKeyUsage.length > 0, oidExtensionExtendedKeyUsage, false,
      extKeyUsageValue t.extKeyUsage t.unknownExtKeyUsage⟩) h4 hn (by simp [sectionsOf]) (owns_eku env) h2 hx
    simp only [Prod.mk.injEq, decide_eq_false_iff_not, decide_eq_true_eq] at g1 g2
    by_cases hk : t.extKeyUsage.length > 0 ∨ t.unknownExtKeyUsage.length > 0
    · obtain ⟨e, o1, o2, u, k1, k2, ⟨k3, k3'⟩, k4, k5⟩ := g2 hk
      rw [made_eku ht k2.1 (h5 e k1) k2.2.2 o1] at k4
      simp only [Res.ok.injEq, Prod.mk.injEq] at k4
      rw [k5.1, k5.2, ← k4.1]
      exact ⟨by dsimp only; rw [k3]; rfl, by dsimp only; rw [k3']; rfl⟩
    · obtain ⟨k1, k2⟩ := g1 hk
      push Not at hk
      rw [k1, k2, List.length_eq_zero_iff.1 (Nat.le_zero.1 hk.1), List.length_eq_zero_iff.1 (Nat.le_zero.1 hk.2)]
      exact ⟨rfl, rfl⟩
  · intro hx
    obtain ⟨g1, g2⟩ := section_field (s := ⟨t.basicConstraintsValid, oidExtensionBasicConstraints, true,
      basicConstraintsValue t.isCA t.maxPathLen t.maxPathLenZero⟩) h4 hn (by simp [sectionsOf]) (owns_basic env) h2 hx
    simp only [Prod.mk.injEq] at g1 g2
    cases hk : t.basicConstraintsValid with
    | true =>
      obtain ⟨e, o1, o2, u, k1, k2, k3, k4, k5⟩ := g2 hk
      rw [made_bc ht k2.1 (h5 e k1) k2.2.2 o1] at k4
      simp only [Res.ok.injEq, Prod.mk.injEq] at k4
      obtain ⟨a1, a2, a3, a4⟩ := k5
      rw [← k4.1] at a1 a2 a3 a4
      refine ⟨a1, fun _ => ⟨a2, a3, ?_⟩, fun h => by simp at h⟩
      rw [a3, a4]
      simp
    | false =>
      obtain ⟨a1, a2, a3, a4⟩ := g1 hk
      exact ⟨a1, fun h => by simp at h, fun _ => ⟨a2, a3, a4⟩⟩
  · intro hx
    obtain ⟨g1, g2⟩ := section_field (s := ⟨t.subjectKeyId.length > 0, oidExtensionSubjectKeyId, false, marshal tyBytes t.subjectKeyId⟩) h4 hn
      (by simp [sectionsOf]) (owns_skid env) h2 hx
    simp only [decide_eq_false_iff_not, decide_eq_true_eq] at g1 g2
    by_cases hk : t.subjectKeyId.length > 0
    · obtain ⟨e, o1, o2, u, k1, k2, k3, k4, k5⟩ := g2 hk
      rw [made_skid k2.1 (h5 e k1) k2.2.2 o1] at k4
      simp only [Res.ok.injEq, Prod.mk.injEq] at k4
      rw [k5, ← k4.1]
    · rw [g1 hk, List.length_eq_zero_iff.1 (Nat.le_zero.1 (not_lt.1 hk))]
  · intro hx
    obtain ⟨g1, g2⟩ := section_field (s := ⟨(akidOf tbs.issuer.fullBytes tbs.subject.fullBytes t p).length > 0, oidExtensionAuthorityKeyId, false,
      marshal tyAuthKeyId (some (akidOf tbs.issuer.fullBytes tbs.subject.fullBytes t p))⟩) h4 hn
      (by simp [sectionsOf]) (owns_akid env) h2 hx
    simp only [decide_eq_false_iff_not, decide_eq_true_eq] at g1 g2
    rw [hri, hrs]
    by_cases hk : (akidOf tbs.issuer.fullBytes tbs.subject.fullBytes t p).length > 0
    · obtain ⟨e, o1, o2, u, k1, k2, k3, k4, k5⟩ := g2 hk
      rw [made_akid k2.1 (h5 e k1) k2.2.2 o1] at k4
      simp only [Res.ok.injEq, Prod.mk.injEq] at k4
      rw [k5, ← k4.1]
    · rw [g1 hk, List.length_eq_zero_iff.1 (Nat.le_zero.1 (not_lt.1 hk))]
  · intro hx
    obtain ⟨g1, g2⟩ := section_field (s := ⟨t.ocspServer.length > 0 ∨ t.issuingCertificateURL.length > 0, oidExtensionAuthorityInfoAccess, false,
      aiaValue t.ocspServer t.issuingCertificateURL⟩) h4 hn (by simp [sectionsOf]) (owns_aia env) h2 hx
    simp only [Prod.mk.injEq, decide_eq_false_iff_not, decide_eq_true_eq] at g1 g2
    by_cases hk : t.ocspServer.length > 0 ∨ t.issuingCertificateURL.length > 0
    · obtain ⟨e, o1, o2, u, k1, k2, ⟨k3, k3'⟩, k4, k5⟩ := g2 hk
      rw [made_aia k2.1 (h5 e k1) k2.2.2 o1] at k4
      simp only [Res.ok.injEq, Prod.mk.injEq] at k4
      rw [k5.1, k5.2, ← k4.1]
      exact ⟨by dsimp only; rw [k3]; rfl, by dsimp only; rw [k3']; rfl⟩
    · obtain ⟨k1, k2⟩ := g1 hk
      push Not at hk
      rw [k1, k2, List.length_eq_zero_iff.1 (Nat.le_zero.1 hk.1), List.length_eq_zero_iff.1 (Nat.le_zero.1 hk.2)]
      exact ⟨rfl, rfl⟩
  · intro hx
    obtain ⟨g1, g2⟩ := section_field (s := ⟨hasSans t.dnsNames t.emailAddresses t.ipAddresses t.uris, oidExtensionSubjectAltName,
      tbs.subject.fullBytes = emptyASN1Subject, marshalSANs env t.dnsNames t.emailAddresses t.ipAddresses t.uris⟩) h4 hn
      (by simp [sectionsOf]) (owns_san env) h2 hx
    simp only [Prod.mk.injEq] at g1 g2
    cases hk : hasSans t.dnsNames t.emailAddresses t.ipAddresses t.uris with
    | true =>
      obtain ⟨e, o1, o2, u, k1, k2, k3, k4, a1, a2, a3, a4⟩ := g2 hk
      obtain ⟨ips, m1, m2⟩ := made_san ht k2.1 (h5 e k1) k2.2.2
      obtain ⟨u', m2⟩ := m2 o1
      rw [m2] at k4
      simp only [Res.ok.injEq, Prod.mk.injEq] at k4
      rw [← k4.1] at a1 a2 a3 a4
      rw [a1, a2, a3, a4]
      exact ⟨rfl, rfl, m1, rfl⟩
    | false =>
      obtain ⟨a1, a2, a3, a4⟩ := g1 hk
      rw [a1, a2, a3, a4]
      simp only [hasSans, Bool.or_eq_false_iff, decide_eq_false_iff_not, not_lt, Nat.le_zero, List.length_eq_zero_iff] at hk
      obtain ⟨⟨⟨e1, e2⟩, e3⟩, e4⟩ := hk
      rw [e1, e2, e3, e4]
      exact ⟨rfl, rfl, .nil, rfl⟩
  · intro hx
    obtain ⟨g1, g2⟩ := section_field (s := ⟨t.policyIdentifiers.length > 0, oidExtensionCertificatePolicies, false,
      marshal (tySlice false tyPolicyInformation) t.policyIdentifiers⟩) h4 hn
      (by simp [sectionsOf]) (owns_policies env) h2 hx
    simp only [decide_eq_false_iff_not, decide_eq_true_eq] at g1 g2
    by_cases hk : t.policyIdentifiers.length > 0
    · obtain ⟨e, o1, o2, u, k1, k2, k3, k4, k5⟩ := g2 hk
      rw [made_policies ht k2.1 (h5 e k1) k2.2.2 o1] at k4
      simp only [Res.ok.injEq, Prod.mk.injEq] at k4
      rw [k5, ← k4.1]
    · rw [g1 hk, List.length_eq_zero_iff.1 (Nat.le_zero.1 (not_lt.1 hk))]
  · intro hx
    obtain ⟨g1, g2⟩ := section_field (s := ⟨hasConstraints t, oidExtensionNameConstraints, t.permittedDNSDomainsCritical, nameConstraintsValue env t⟩)
      h4 hn (by simp [sectionsOf]) (owns_constraints env) h2 hx
    simp only [X509Cert.constraints, Prod.mk.injEq] at g1 g2
    cases hk : hasConstraints t with
    | true =>
      obtain ⟨e, o1, o2, u, k1, k2, k3, k4, ⟨a1, a2, a3, a4, a5⟩, a6, a7, a8, a9⟩ := g2 hk
      obtain ⟨pn, xn, m1, m2, m3⟩ := made_nc ht (hasConstraints_some hk) k2.1 (h5 e k1) k2.2.2
      rw [m3 o1] at k4
      simp only [Res.ok.injEq, Prod.mk.injEq] at k4
      rw [← k4.1] at a1 a2 a3 a4 a5 a6 a7 a8 a9
      rw [a1, a2, a3, a4, a5, a6, a7, a8, a9]
      exact ⟨rfl, rfl, m1, m2, rfl, rfl, rfl, rfl, fun _ => k2.2.1⟩
    | false =>
      obtain ⟨⟨a1, a2, a3, a4, a5⟩, a6, a7, a8, a9⟩ := g1 hk
      rw [a1, a2, a3, a4, a5, a6, a7, a8, a9]
      simp only [hasConstraints, Bool.or_eq_false_iff, decide_eq_false_iff_not, not_lt, Nat.le_zero, List.length_eq_zero_iff] at hk
      obtain ⟨⟨⟨⟨⟨⟨⟨e1, e2⟩, e3⟩, e4⟩, e5⟩, e6⟩, e7⟩, e8⟩ := hk
      simp only [e1, e2, e3, e4, e5, e6, e7, e8]
      exact ⟨trivial, trivial, .nil, .nil, trivial, trivial, trivial, trivial, fun hs => absurd ⟨by assumption, by assumption, by assumption, by assumption, by assumption, by assumption, by assumption, by assumption⟩ hs⟩
  · intro hx
    obtain ⟨g1, g2⟩ := section_field (s := ⟨t.crlDistributionPoints.length > 0, oidExtensionCRLDistributionPoints, false, crlValue t.crlDistributionPoints⟩)
      h4 hn (by simp [sectionsOf]) (owns_crl env) h2 hx
    simp only [decide_eq_false_iff_not, decide_eq_true_eq] at g1 g2
    by_cases hk : t.crlDistributionPoints.length > 0
    · obtain ⟨e, o1, o2, u, k1, k2, k3, k4, k5⟩ := g2 hk
      rw [made_crl k2.1 (h5 e k1) k2.2.2 o1] at k4
      simp only [Res.ok.injEq, Prod.mk.injEq] at k4
      rw [k5, ← k4.1]
      dsimp only
      rw [k3]
      rfl
    · rw [g1 hk, List.length_eq_zero_iff.1 (Nat.le_zero.1 (not_lt.1 hk))]

/-! ## Concrete cases -/

/-- Issue a certificate for a request of `exCreate` with the CA key 5 and the nonce 7 and look at what comes of it. -/
def exIssue (q : CertReq Bytes) (t : CertReq Bytes → X509Cert Bytes) (f : CertReq Bytes → TbsCert → Bytes → Bool) : Bool :=
  exCreate q fun r =>
    match parseCertificateRequest exEnv r.1 with
    | .ok csr =>
      match createCertificateInfo exEnv (t csr) exParent csr with
      | .ok tbs =>
        match issueCertificateBySoftCAKey tbs ⟨5⟩ none [some (toBE 32 7)] with
        | .ok cert => f csr tbs cert
        | _ => false
      | _ => false
    | _ => false

/-- A template that uses every group of fields, 23:30 at UTC-1 on 31 December 2049 being the end. -/
def exIssueTemplate : X509Cert Bytes := {
  serialNumber := some 5, subject := { commonName := [0x63] }, notBefore := ⟨2019, 1, 1, 0, 0, 0, 0⟩, notAfter := ⟨2049, 12, 31, 23, 30, 0, -60⟩
  keyUsage := 3, extKeyUsage := [1], unknownExtKeyUsage := [[1, 2, 4]], basicConstraintsValid := true, isCA := true, subjectKeyId := [1, 2]
  authorityKeyId := [8], ocspServer := [[0x64]], issuingCertificateURL := [[0x65]], dnsNames := [[0x61]], ipAddresses := [[1, 2, 3, 4]]
  policyIdentifiers := [[1, 2, 5]], permittedDNSDomainsCritical := true, permittedDNSDomains := [[0x61]], crlDistributionPoints := [[0x62]]
  extraExtensions := [⟨[1, 2, 3], true, []⟩] }

theorem exIssueTemplate_good : GoodTemplate exEnv exIssueTemplate where
  subject := ⟨fun h => absurd rfl h, by simp [exIssueTemplate]⟩
  notBefore := by unfold WritableTime ValidCal; decide
  notAfter := by unfold WritableTime ValidCal; decide
  keyUsage := by decide
  unknownUsages := by
    intro o ho
    simp only [exIssueTemplate, List.mem_singleton] at ho
    subst ho
    exact ⟨by unfold OIDFits; decide, fun n hn => absurd (List.mem_map_of_mem (f := Prod.snd) hn) (show [1, 2, 4] ∉ ekuTable.map Prod.snd by decide)⟩
  maxPathLen := by unfold Int64Range; decide
  ips := by decide
  uris := by simp [exIssueTemplate]
  policies := by unfold OIDFits; decide
  permittedMasks := by simp [exIssueTemplate]
  excludedMasks := by simp [exIssueTemplate]
  permitted := by
    refine ⟨by unfold IA5; decide, ?_, by simp [exIssueTemplate], by simp [exIssueTemplate], by simp [exIssueTemplate]⟩
    intro s hs
    simp only [exIssueTemplate, List.mem_singleton] at hs
    subst hs
    exact .inl ⟨[[0x61]], by unfold Verif.Spec.Names.Label; decide, .inl rfl⟩
  excluded := by
    constructor <;> simp [exIssueTemplate]
  extra := by
    intro e he
    simp only [exIssueTemplate, List.mem_singleton] at he
    subst he
    exact ⟨by unfold OIDFits; decide, fun out => ⟨_, rfl⟩⟩

set_option maxRecDepth 100000 in
/-- C84 has instances: the certificate is made and read. -/
example : exIssue exCsrTemplate (fun _ => exIssueTemplate) (fun csr tbs cert =>
    match parseCertificate exEnv cert with
    | .ok r => r.publicKey = csr.publicKey ∧ r.rawTBS = tbs.raw ∧ r.notAfter = ⟨2050, 1, 1, 0, 30, 0, 0⟩ ∧ r.keyUsage = 3 ∧ r.maxPathLen = -1 ∧
        r.authorityKeyId = [7] ∧ r.permittedDNSDomainsCritical = true ∧ r.unhandledCriticalExtensions = [[1, 2, 3]]
    | _ => false) = true := by decide +kernel

end Verif.Props
