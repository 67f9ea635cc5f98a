import Verif.Props.CertIssue
import Verif.Props.CertSubject
/-!
# From the request to the certificate (C85 to C88)
-/
namespace Verif.Props
open Verif Verif.Der Verif.Cert Verif.Spec.DER Verif.Spec.Cert

variable {U : Type}

/-! ## What a parsed request holds -/

/-- Names as parsing returns them: addresses of 4 or 16 bytes, URIs with an accepted host. -/
def ReadSans (env : Env U) (s : Sans U) : Prop :=
  (∀ ip ∈ s.ipAddresses, ip.length = 4 ∨ ip.length = 16) ∧ ∀ u ∈ s.uris, env.urlHost u = [] ∨ AcceptedDomain (env.urlHost u)

theorem sanCallback_read {env : Env U} {s s' : Sans U} {t : Nat} {c : Bytes} (hs : ReadSans env s) (h : sanCallback env s t c = .ok s') :
    ReadSans env s' := by
  by_cases h6 : t = 6
  · subst h6
    obtain ⟨u, hu, rfl⟩ := (sanCallback_uri _ _ _ _).1 h
    refine ⟨hs.1, fun w hw => ?_⟩
    rcases List.mem_append.1 hw with hw | hw
    · exact hs.2 w hw
    · rw [List.mem_singleton.1 hw]; exact ((acceptURI_iff _ _ _).1 hu).2
  · unfold sanCallback at h
    rw [if_neg h6] at h
    rcases ite_ok h with ⟨_, h⟩ | ⟨_, h⟩
    · simp only [Res.ok.injEq] at h; subst h; exact hs
    rcases ite_ok h with ⟨_, h⟩ | ⟨_, h⟩
    · simp only [Res.ok.injEq] at h; subst h; exact hs
    rcases ite_ok h with ⟨_, h⟩ | ⟨_, h⟩
    · rcases ite_ok h with ⟨hl, h⟩ | ⟨_, h⟩
      · simp only [Res.ok.injEq] at h
        subst h
        refine ⟨fun w hw => ?_, hs.2⟩
        rcases List.mem_append.1 hw with hw | hw
        · exact hs.1 w hw
        · rw [List.mem_singleton.1 hw]; exact hl
      · simp at h
    · simp only [Res.ok.injEq] at h; subst h; exact hs

theorem runItems_read {env : Env U} : ∀ {items : List (Nat × Bytes)} {s s' : Sans U}, ReadSans env s →
    runItems (sanCallback env) items s = .ok s' → ReadSans env s' := by
  intro items
  induction items with
  | nil => intro s s' hs h; simp only [runItems, Res.ok.injEq] at h; subst h; exact hs
  | cons x items ih =>
    intro s s' hs h
    obtain ⟨t, c⟩ := x
    rw [runItems, Res.bind_eq_ok] at h
    obtain ⟨s1, h1, h2⟩ := h
    exact ih (sanCallback_read hs h1) h2

theorem readSans_nil (env : Env U) : ReadSans env {} := by
  constructor <;> simp

theorem parseSAN_read {env : Env U} {value : Bytes} {s : Sans U} (h : parseSANExtension env value = .ok s) : ReadSans env s := by
  unfold parseSANExtension forEachSAN at h
  rw [Res.bind_eq_ok] at h
  obtain ⟨⟨v, rest⟩, h1, h⟩ := h
  rcases ite_ok h with ⟨_, h⟩ | ⟨hr, h⟩
  · simp at h
  rcases ite_ok h with ⟨_, h⟩ | ⟨hv, h⟩
  · simp at h
  obtain ⟨items, _, _, g⟩ := sanLoop_sound h
  exact runItems_read (readSans_nil env) g

theorem csrSans_read {env : Env U} : ∀ {exts : List Extension} {s s' : Sans U}, ReadSans env s → csrSans env exts s = .ok s' → ReadSans env s' := by
  intro exts
  induction exts with
  | nil => intro s s' hs h; simp only [csrSans, Res.ok.injEq] at h; subst h; exact hs
  | cons e exts ih =>
    intro s s' hs h
    rw [csrSans] at h
    rcases ite_ok h with ⟨_, h⟩ | ⟨_, h⟩
    · rw [Res.bind_eq_ok] at h
      obtain ⟨s1, h1, h2⟩ := h
      exact ih (parseSAN_read h1) h2
    · rw [Res.ok_bind] at h
      exact ih hs h

theorem csr_read {env : Env U} {der : Bytes} {csr : CertReq U} (h : parseCertificateRequest env der = .ok csr) :
    csr.extraExtensions = [] ∧ csr.subject.extraNames = [] ∧ (∀ ip ∈ csr.ipAddresses, ip.length = 4 ∨ ip.length = 16) ∧
      ∀ u ∈ csr.uris, env.urlHost u = [] ∨ AcceptedDomain (env.urlHost u) := by
  unfold parseCertificateRequest at h
  rw [Res.bind_eq_ok] at h
  obtain ⟨⟨inp, rest⟩, _, h2⟩ := h
  rcases ite_ok h2 with ⟨_, h2⟩ | ⟨hr, h2⟩
  · simp at h2
  unfold parseCSR at h2
  rw [Res.bind_eq_ok] at h2
  obtain ⟨as, _, h2⟩ := h2
  rcases ite_ok h2 with ⟨_, h2⟩ | ⟨_, h2⟩
  · simp at h2
  rcases ite_ok h2 with ⟨_, h2⟩ | ⟨_, h2⟩
  · simp at h2
  simp only [Res.bind_eq_ok, Res.ok.injEq] at h2
  obtain ⟨pub, _, rdns, _, exts, _, sans, hs, h2⟩ := h2
  have := csrSans_read (readSans_nil env) hs
  rw [← h2]
  exact ⟨rfl, (C80_read rdns).2.2.2.2.2.2.2.2.2.2, this.1, this.2⟩

/-- A good template stays good when it is filled in from a request, if net/url reads what it writes for the URIs of the
request. -/
theorem filled_good {env : Env U} {t : X509Cert U} {der : Bytes} {csr : CertReq U} (ht : GoodTemplate env t)
    (hcsr : parseCertificateRequest env der = .ok csr) (huri : ∀ u ∈ csr.uris, env.parseURL (env.urlString u) = some u) :
    GoodTemplate env (fillCertificateTemplateByCSR t csr) := by
  obtain ⟨h1, h2, h3, h4⟩ := csr_read hcsr
  exact {
    subject := ⟨ht.subject.1, by show ∀ a ∈ csr.subject.extraNames, ATVOk a; rw [h2]; simp⟩
    notBefore := ht.notBefore
    notAfter := ht.notAfter
    keyUsage := ht.keyUsage
    unknownUsages := ht.unknownUsages
    maxPathLen := ht.maxPathLen
    ips := h3
    uris := fun u hu => ⟨huri u hu, h4 u hu⟩
    policies := ht.policies
    permittedMasks := ht.permittedMasks
    excludedMasks := ht.excludedMasks
    permitted := ht.permitted
    excluded := ht.excluded
    extra := by show ∀ e ∈ csr.extraExtensions, _; rw [h1]; simp }

/-! ## C86: the requester in the certificate -/

/-- **C86**, the template: filling it in takes the subject, the key, the extensions and the names of the request, and nothing else of
the template changes. -/
theorem C86_template (t : X509Cert U) (csr : CertReq U) : let f := fillCertificateTemplateByCSR t csr
    (f.subject = csr.subject ∧ f.publicKey = csr.publicKey ∧ f.extensions = csr.extensions ∧ f.extraExtensions = csr.extraExtensions) ∧
    (f.dnsNames = csr.dnsNames ∧ f.emailAddresses = csr.emailAddresses ∧ f.ipAddresses = csr.ipAddresses ∧ f.uris = csr.uris) ∧
    { f with subject := t.subject, publicKey := t.publicKey, extensions := t.extensions, extraExtensions := t.extraExtensions,
             dnsNames := t.dnsNames, emailAddresses := t.emailAddresses, ipAddresses := t.ipAddresses, uris := t.uris } = t :=
  ⟨⟨rfl, rfl, rfl, rfl⟩, ⟨rfl, rfl, rfl, rfl⟩, rfl⟩

/-- **C86**, what holds: if the template has no `RawSubject`, a certificate for a filled template has the key of the
request, each field of its subject, and the names of its SAN extension. Missing: attributes of the subject that are not among
the nine fields, and templates with a `RawSubject`. -/
theorem C86_requester_partial (env : Env U) (t p : X509Cert U) (der : Bytes) (csr : CertReq U) (tbs : TbsCert) (d : ℕ) (id : Option Bytes)
    (tape : Sm2.Tape) (cert : Bytes) (ht : GoodTemplate env t) (hraw : t.rawSubject = []) (hp : GoodSubject p.rawSubject p.subject)
    (hcsr : parseCertificateRequest env der = .ok csr) (huri : ∀ u ∈ csr.uris, env.parseURL (env.urlString u) = some u)
    (h : createCertificateInfo env (fillCertificateTemplateByCSR t csr) p csr = .ok tbs)
    (hi : issueCertificateBySoftCAKey tbs ⟨d⟩ id tape = .ok cert) (hl : cert.length < 2 ^ 31) :
    ∃ r, parseCertificate env cert = .ok r ∧ r.publicKey = csr.publicKey ∧ r.rawSPKI = csr.rawSPKI ∧
      r.subject = { csr.subject with names := csr.subject.toRDNSequence.flatten } ∧
      r.dnsNames = csr.dnsNames ∧ r.emailAddresses = csr.emailAddresses ∧ List.Forall₂ IsWireIP csr.ipAddresses r.ipAddresses ∧ r.uris = csr.uris := by
  have hg := filled_good ht hcsr huri
  obtain ⟨k1, k2, _, _⟩ := csr_read hcsr
  obtain ⟨r, h1, _, _, _, _, _, _, _, h8, _, _, h9, h10, _⟩ := C84_issued env _ p der csr tbs d id tape cert hg hp hcsr h hi hl
  obtain ⟨r', g1, _, _, _, _, _, _, g7, _⟩ := C84_fields env _ p der csr tbs d id tape cert hg hp hcsr h hi hl
  rw [h1] at g1
  simp only [Res.ok.injEq] at g1
  subst g1
  obtain ⟨a1, a2, a3, a4⟩ := g7 (by show ∀ e ∈ csr.extraExtensions, _; rw [k1]; simp)
  refine ⟨r, h1, h10, h9, ?_, a1, a2, a3, a4⟩
  rw [h8 hraw]
  show Name.fillFromRDNSequence {} csr.subject.toRDNSequence = _
  have := C80_roundtrip csr.subject
  simp only [fieldOr, k2, List.not_mem_nil, false_and, exists_false, if_false, List.getLast?_singleton, Option.getD_some] at this
  obtain ⟨a1, a2, a3, a4, a5, a6, a7, a8, a9, a10, a11⟩ := this
  generalize Name.fillFromRDNSequence {} csr.subject.toRDNSequence = m at *
  obtain ⟨m1, m2, m3, m4, m5, m6, m7, m8, m9, m10, m11⟩ := m
  dsimp only at *
  subst a1 a2 a3 a4 a5 a6 a7 a8 a9 a10 a11
  rw [← k2]

/-- **C86** is violated: a `RawSubject` in the template wins over the subject of the request, which is not looked at. -/
theorem C86_rawSubject_violated (env : Env U) (t p : X509Cert U) (csr : CertReq U) (tbs : TbsCert) (hraw : t.rawSubject ≠ [])
    (h : createCertificateInfo env (fillCertificateTemplateByCSR t csr) p csr = .ok tbs) : tbs.subject.fullBytes = t.rawSubject := by
  obtain ⟨serial, exts, spki, issuer, subject, raw, h1, h2, h3, h4, h5, h6, rfl⟩ := createCertificateInfo_ok h
  change subjectBytes t.rawSubject csr.subject = .ok subject at h3
  unfold subjectBytes at h3
  rw [if_pos (List.length_pos_iff.2 hraw)] at h3
  simp only [Res.ok.injEq] at h3
  exact h3.symm

/-- The identifiers of the nine fields of `pkix.Name`. -/
def fieldOIDs : List (List Nat) :=
  [[2, 5, 4, 6], [2, 5, 4, 10], [2, 5, 4, 11], [2, 5, 4, 7], [2, 5, 4, 8], [2, 5, 4, 9], [2, 5, 4, 17], [2, 5, 4, 3], [2, 5, 4, 5]]

theorem written_type {n : Name} {o : OID} {vs : List Bytes} {a : ATV} (h : a ∈ written n o vs) : a.type = o := by
  unfold written at h
  split at h
  · simp at h
  · obtain ⟨v, _, rfl⟩ := List.mem_map.1 h; rfl

/-- **C86** is violated for every request with another attribute in its subject, such as a mail address: no attribute outside
the nine fields gets into the certificate. -/
theorem C86_attributes_violated (env : Env U) (t p : X509Cert U) (der : Bytes) (csr : CertReq U) (tbs : TbsCert) (d : ℕ) (id : Option Bytes)
    (tape : Sm2.Tape) (cert : Bytes) (ht : GoodTemplate env t) (hraw : t.rawSubject = []) (hp : GoodSubject p.rawSubject p.subject)
    (hcsr : parseCertificateRequest env der = .ok csr) (huri : ∀ u ∈ csr.uris, env.parseURL (env.urlString u) = some u)
    (h : createCertificateInfo env (fillCertificateTemplateByCSR t csr) p csr = .ok tbs)
    (hi : issueCertificateBySoftCAKey tbs ⟨d⟩ id tape = .ok cert) (hl : cert.length < 2 ^ 31) :
    ∃ r, parseCertificate env cert = .ok r ∧ ∀ a ∈ r.subject.names, a.type ∈ fieldOIDs := by
  obtain ⟨r, h1, _, _, h2, _⟩ := C86_requester_partial env t p der csr tbs d id tape cert ht hraw hp hcsr huri h hi hl
  refine ⟨r, h1, fun a ha => ?_⟩
  rw [h2] at ha
  dsimp only at ha
  rw [toRDN_flatten, (csr_read hcsr).2.1, List.append_nil] at ha
  simp only [List.mem_append] at ha
  unfold fieldOIDs
  rcases ha with (((((((ha | ha) | ha) | ha) | ha) | ha) | ha) | ha) | ha <;> rw [written_type ha] <;> decide

/-! ## C87: the extensions asked for -/

/-- **C87** is violated: whatever extensions a request asks for, the certificate has none but those that the fields of the
template stand for. -/
theorem C87_dropped_violated (env : Env U) (t p : X509Cert U) (der : Bytes) (csr : CertReq U) (tbs : TbsCert)
    (hcsr : parseCertificateRequest env der = .ok csr)
    (h : createCertificateInfo env (fillCertificateTemplateByCSR t csr) p csr = .ok tbs) :
    ∃ exts, tbs.extensions = some exts ∧ ∀ e ∈ exts, e.id ∈ ([[2, 5, 29, 15], [2, 5, 29, 37], [2, 5, 29, 19], [2, 5, 29, 14], [2, 5, 29, 35],
      [1, 3, 6, 1, 5, 5, 7, 1, 1], [2, 5, 29, 17], [2, 5, 29, 32], [2, 5, 29, 30], [2, 5, 29, 31]] : List (List Nat)) := by
  obtain ⟨gen, h1, h2⟩ := C58_extensions env _ p csr tbs h
  change tbs.extensions = some (gen ++ csr.extraExtensions) at h1
  rw [(csr_read hcsr).1, List.append_nil] at h1
  refine ⟨gen, h1, fun e he => ?_⟩
  have h3 : (e.id, e.critical) ∈ gen.map fun e => (e.id, e.critical) := List.mem_map_of_mem he
  rw [h2] at h3
  obtain ⟨x, hx, hx'⟩ := List.mem_map.1 h3
  have hx := (List.mem_filter.1 hx).1
  simp only [Prod.mk.injEq] at hx'
  rw [← hx'.1]
  simp only [planOf, List.mem_cons, List.not_mem_nil, or_false] at hx
  rcases hx with rfl | rfl | rfl | rfl | rfl | rfl | rfl | rfl | rfl | rfl <;> simp

/-! ## C88: what issuing looks at -/

/-- **C88** Of the request only the key goes into a certificate, of the parent only the subject and the subject key
identifier: neither the signature of the request nor whether the parent is a CA plays a part. -/
theorem C88_depends_partial (env : Env U) (t p p' : X509Cert U) (csr csr' : CertReq U) (hk : csr.rawSPKI = csr'.rawSPKI)
    (h1 : p.rawSubject = p'.rawSubject) (h2 : p.subject = p'.subject) (h3 : p.subjectKeyId = p'.subjectKeyId) :
    createCertificateInfo env t p csr = createCertificateInfo env t p' csr' := by
  unfold createCertificateInfo
  rw [hk, h1, h2, h3]

/-- The template for the cases below. -/
def exFlowTemplate : X509Cert Bytes := {
  serialNumber := some 5, notBefore := ⟨2019, 1, 1, 0, 0, 0, 0⟩, notAfter := ⟨2020, 1, 1, 0, 0, 0, 0⟩ }

/-- **C88** is violated: a request whose signature is not valid is parsed, and a certificate is made for it. -/
theorem C88_possession_violated : ∃ (der : Bytes) (csr : CertReq Bytes) (tbs : TbsCert), parseCertificateRequest exEnv der = .ok csr ∧
    verifyCSRSign csr none = .ok false ∧
    createCertificateInfo exEnv (fillCertificateTemplateByCSR exFlowTemplate csr) exParent csr = .ok tbs := by
  have h : (match parseCertificateRequest exEnv (exSigned exOidSig (exRequestInfo exGoodKey) []) with
      | .ok csr => (match createCertificateInfo exEnv (fillCertificateTemplateByCSR exFlowTemplate csr) exParent csr with
        | .ok _ => decide (verifyCSRSign csr none = .ok false)
        | _ => false)
      | _ => false) = true := by set_option maxRecDepth 100000 in decide +kernel
  split at h
  · rename_i csr h1
    split at h
    · rename_i tbs h2
      exact ⟨_, csr, tbs, h1, of_decide_eq_true h, h2⟩
    · cases h
  · cases h

/-! ## C85: certificates that cannot be read -/

/-- **C85**, what holds: see C84. -/
theorem C85_readable_partial (env : Env U) (t p : X509Cert U) (der : Bytes) (csr : CertReq U) (tbs : TbsCert) (d : ℕ) (id : Option Bytes)
    (tape : Sm2.Tape) (cert : Bytes) (ht : GoodTemplate env t) (hp : GoodSubject p.rawSubject p.subject)
    (hcsr : parseCertificateRequest env der = .ok csr)
    (h : createCertificateInfo env t p csr = .ok tbs) (hi : issueCertificateBySoftCAKey tbs ⟨d⟩ id tape = .ok cert) (hl : cert.length < 2 ^ 31) :
    ∃ r, parseCertificate env cert = .ok r :=
  have ⟨r, h, _⟩ := C84_issued env t p der csr tbs d id tape cert ht hp hcsr h hi hl
  ⟨r, h⟩

/-- Issue a certificate for the request of `exSigned` with the CA key 5 and the nonce 7. -/
def exUnread (t : X509Cert Bytes) : Bool :=
  match parseCertificateRequest exEnv (exSigned exOidSig (exRequestInfo exGoodKey) []) with
  | .ok csr =>
    match createCertificateInfo exEnv t exParent csr with
    | .ok tbs =>
      match issueCertificateBySoftCAKey tbs ⟨5⟩ none [some (toBE 32 7)] with
      | .ok cert => isErr (parseCertificate exEnv cert)
      | _ => false
    | _ => false
  | _ => false

theorem exUnread_true {t : X509Cert Bytes} (h : exUnread t = true) : ∃ (der : Bytes) (csr : CertReq Bytes) (tbs : TbsCert) (cert : Bytes),
    parseCertificateRequest exEnv der = .ok csr ∧ createCertificateInfo exEnv t exParent csr = .ok tbs ∧
    issueCertificateBySoftCAKey tbs ⟨5⟩ none [some (toBE 32 7)] = .ok cert ∧ ∃ m, parseCertificate exEnv cert = .err m := by
  unfold exUnread at h
  split at h
  · rename_i csr h1
    split at h
    · rename_i tbs h2
      split at h
      · rename_i cert h3
        exact ⟨_, csr, tbs, cert, h1, h2, h3, err_of_isErr h⟩
      · cases h
    · cases h
  · cases h

/-- **C85** is violated: a certificate with an address range whose mask is not contiguous is made, but cannot be read. -/
theorem C85_mask_violated : ∃ (t : X509Cert Bytes) (der : Bytes) (csr : CertReq Bytes) (tbs : TbsCert) (cert : Bytes),
    t.rawSubject = [] ∧ t.extraExtensions = [] ∧ t.uris = [] ∧ t.ipAddresses = [] ∧
    parseCertificateRequest exEnv der = .ok csr ∧ createCertificateInfo exEnv t exParent csr = .ok tbs ∧
    issueCertificateBySoftCAKey tbs ⟨5⟩ none [some (toBE 32 7)] = .ok cert ∧ ∃ m, parseCertificate exEnv cert = .err m := by
  obtain ⟨der, csr, tbs, cert, h⟩ := exUnread_true (t := { exFlowTemplate with permittedIPRanges := [⟨[10, 0, 0, 0], [0xff, 0, 0xff, 0]⟩] })
    (by set_option maxRecDepth 100000 in decide +kernel)
  exact ⟨_, der, csr, tbs, cert, rfl, rfl, rfl, rfl, h⟩

/-- **C85** is violated: a certificate with an address of five bytes. -/
theorem C85_address_violated : ∃ (t : X509Cert Bytes) (der : Bytes) (csr : CertReq Bytes) (tbs : TbsCert) (cert : Bytes),
    t.rawSubject = [] ∧ t.extraExtensions = [] ∧ t.uris = [] ∧ t.permittedIPRanges = [] ∧
    parseCertificateRequest exEnv der = .ok csr ∧ createCertificateInfo exEnv t exParent csr = .ok tbs ∧
    issueCertificateBySoftCAKey tbs ⟨5⟩ none [some (toBE 32 7)] = .ok cert ∧ ∃ m, parseCertificate exEnv cert = .err m := by
  obtain ⟨der, csr, tbs, cert, h⟩ := exUnread_true (t := { exFlowTemplate with ipAddresses := [[1, 2, 3, 4, 5]] })
    (by set_option maxRecDepth 100000 in decide +kernel)
  exact ⟨_, der, csr, tbs, cert, rfl, rfl, rfl, rfl, h⟩

/-! ## Concrete cases -/

/-- A request for CN=a with a mail address, the DNS name "b", and a key usage. -/
def exFlowRequest : CertReq Bytes :=
  { subject := { commonName := [0x61], extraNames := [⟨[1, 2, 840, 113549, 1, 9, 1], .str [0x78]⟩] }, dnsNames := [[0x62]]
    extraExtensions := [⟨[2, 5, 29, 15], true, [3, 2, 5, 0xa0]⟩] }

set_option maxRecDepth 100000 in
/-- C86 and C87 have instances: the mail address and the key usage of the request are not in the certificate. -/
example : exIssue exFlowRequest (fillCertificateTemplateByCSR exFlowTemplate) (fun csr _ cert =>
    match parseCertificate exEnv cert with
    | .ok r => csr.subject.names.map ATV.type = [[2, 5, 4, 3], [1, 2, 840, 113549, 1, 9, 1]] ∧ r.subject.names.map ATV.type = [[2, 5, 4, 3]] ∧
        csr.extensions.map Extension.id = [[2, 5, 29, 17], [2, 5, 29, 15]] ∧ r.extensions.map Extension.id = [[2, 5, 29, 17]] ∧
        r.dnsNames = [[0x62]] ∧ r.publicKey = csr.publicKey
    | _ => false) = true := by decide +kernel

end Verif.Props
