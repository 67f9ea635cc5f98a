import Verif.Props.CertWire
import Verif.Props.CertRepeated
import Verif.Props.CertRenew
import Verif.Props.CertFlow
/-!
# C85: which issued certificates can be read

`CertFlow` shows that templates whose parts are good give readable certificates, and that some templates do not. Here: exactly which.
-/
namespace Verif.Props
open Verif Verif.Der Verif.Cert Verif.Spec.DER Verif.Spec.Cert Verif.Spec.Wire

variable {U : Type}

/-! ## What an accepted certificate looks like -/

/-- The layout of an accepted certificate with its names; the identifiers of the extensions fit. -/
theorem certificate_layout {env : Env U} {data : Bytes} {r : X509Cert U} (h : parseCertificate env data = .ok r) :
    (∀ e ∈ r.extensions, OIDFits e.id) ∧
    ∃ version serial alg issuer validity subject key after,
      (version = [] ∨ ∃ n c, 0 < n ∧ n < 2 ^ 31 ∧ version = 0xa0 :: (lenOctets n ++ elem 0x02 c)) ∧
      r.rawIssuer = elem 0x30 issuer ∧ r.rawSubject = elem 0x30 subject ∧
      r.rawTBS = elem 0x30 (version ++ (elem 0x02 serial ++ (elem 0x30 alg ++ (elem 0x30 issuer ++ (elem 0x30 validity ++
        (elem 0x30 subject ++ (elem 0x30 key ++ after))))))) := by
  unfold parseCertificate at h
  rw [Res.bind_eq_ok] at h
  obtain ⟨⟨inp, rest⟩, h1, h2⟩ := h
  rcases ite_ok h2 with ⟨_, h2⟩ | ⟨hr, h2⟩
  · simp at h2
  obtain ⟨c, _, rfl, h3⟩ := parseField_struct h1
  simp only [Res.bind_eq_ok] at h3
  obtain ⟨⟨t, r1⟩, g1, ⟨a, r2⟩, g2, ⟨s, r3⟩, g3, g4⟩ := h3
  simp only [Res.ok.injEq] at g4
  subst g4
  dsimp only at g2 g3 h2
  unfold parseCert at h2
  rcases ite_ok h2 with ⟨_, h2⟩ | ⟨_, h2⟩
  · simp at h2
  rcases ite_ok h2 with ⟨_, h2⟩ | ⟨hkey, h2⟩
  · simp at h2
  simp only [ne_eq, not_not] at hkey
  simp only [Res.bind_eq_ok] at h2
  obtain ⟨pub, k1, rdns, k2, rdns2, k3, k4⟩ := h2
  have hext := (parseExtensions_core env _ _ _ k4).2
  have hcore := (parseExtensions_core env _ _ _ k4).1
  simp only [X509Cert.core, Prod.mk.injEq] at hcore
  obtain ⟨_, c2, c3, c4, c5, _⟩ := hcore
  rw [c2, c4, c5, hext]
  obtain ⟨tc, _, e5, e6⟩ := parseField_struct g1
  simp only [Res.bind_eq_ok] at e6
  obtain ⟨⟨ver, q1⟩, f1, ⟨ser, q2⟩, f2, ⟨alg, q3⟩, f3, ⟨iss, q4⟩, f4, ⟨val, q5⟩, f5, ⟨sub, q6⟩, f6, ⟨key, q7⟩, f7,
    ⟨u8, q8⟩, f8, ⟨u9, q9⟩, f9, ⟨ex, q10⟩, f10, f11⟩ := e6
  simp only [Res.ok.injEq] at f11
  subst f11
  dsimp only at k1 k2 k3 hkey f2 f3 f4 f5 f6 f7 f8 f9 f10 ⊢
  obtain ⟨serc, _, rfl, _⟩ := parseField_big f2
  obtain ⟨algc, algp, rfl, _, _⟩ := parseField_algId f3
  obtain ⟨subc, _, hsub⟩ := parseName_ok k2
  obtain ⟨issc, _, hiss⟩ := parseName_ok k3
  have hne4 : q3 ≠ [] := by rintro rfl; simp [parseField] at f4
  have hne6 : q5 ≠ [] := by rintro rfl; simp [parseField] at f6
  obtain ⟨v4, _⟩ := parseField_raw_split rfl rfl hne4 f4
  obtain ⟨v6, _⟩ := parseField_raw_split rfl rfl hne6 f6
  obtain ⟨valc, _, v5, _⟩ := parseField_struct f5
  constructor
  · rcases parseField_optional_explicit (ty := tyOptSlice tyExtension) (k := 3) rfl rfl rfl rfl rfl (by decide) rfl (by decide) f10 with
      ⟨n, vc, full, hn0, hn, _, hv, hbody⟩ | ⟨hex, hv, habs⟩
    · have hbody' : (do
        let l ← parseSequenceOf tyExtension vc
        Res.ok (some l)) = .ok ex := hbody
      rw [Res.bind_eq_ok] at hbody'
      obtain ⟨l, hl, hex⟩ := hbody'
      simp only [Res.ok.injEq] at hex
      subst hex
      unfold parseSequenceOf at hl
      rw [Res.bind_eq_ok] at hl
      obtain ⟨m, _, hl⟩ := hl
      simp only [List.nil_append, Option.getD_some]
      refine parseElems_forall (P := fun e : Extension => OIDFits e.id) ?_ m _ _ hl
      intro bs e rest he
      obtain ⟨ec, _, _, he⟩ := parseField_struct he
      simp only [Res.bind_eq_ok] at he
      obtain ⟨⟨o, _⟩, ho, _, _, _, _, he⟩ := he
      simp only [Res.ok.injEq] at he
      subst he
      exact parsed_oid_fits ho
    · have : ex = none := hex
      rw [this]
      simp
  · obtain ⟨kc, _, hk1, _⟩ := parseField_struct f7
    rcases parseField_optional_explicit (ty := tyInt) (k := 0) rfl rfl rfl rfl rfl (by decide) rfl (by decide) f1 with
      ⟨n, vc, _, hn0, hn, _, hv, _⟩ | ⟨_, hv, _⟩
    · refine ⟨0xa0 :: (lenOctets n ++ elem 0x02 vc), serc, elem 0x06 algc ++ algp, issc, valc, subc, kc, q7, .inr ⟨n, vc, hn0, hn, rfl⟩, hiss, hsub, ?_⟩
      congr 1
      rw [hv, v4, v5, v6, hsub, hiss, hk1]
      have i1 : idOctet 2 0 true = 0xa0 := by decide
      have i2 : idOctet 0 tyInt.tag tyInt.compound = 0x02 := by decide
      rw [i1, i2]
      simp only [List.append_assoc, List.cons_append]
    · refine ⟨[], serc, elem 0x06 algc ++ algp, issc, valc, subc, kc, q7, .inl rfl, hiss, hsub, ?_⟩
      congr 1
      rw [← hv, v4, v5, v6, hsub, hiss, hk1]
      simp only [List.nil_append]

/-- A subject to be written: computed from the name, or one element given as it is. -/
def OneElement (raw : Bytes) : Prop := raw = [] ∨ ∃ k c, raw = elem k c

theorem subjectBytes_elem {raw : Bytes} {n : Name} {b : Bytes} (hr : OneElement raw) (h : subjectBytes raw n = .ok b) (hl : b.length < 2 ^ 31) :
    ∃ k c, b = elem k c := by
  unfold subjectBytes at h
  split at h
  · rename_i hp
    simp only [Res.ok.injEq] at h
    subst h
    rcases hr with rfl | hr
    · simp at hp
    · exact hr
  · obtain ⟨es, _, _, h3⟩ := slice_wire h hl
    exact ⟨_, _, h3⟩

/-- Issuer and subject of an accepted certificate that is laid out like an issued one. -/
theorem layout_names {version serial alg issuer validity subject key after s nb kc : Bytes} {ki ks : Byte} {ic sc : Bytes} {after' : Bytes}
    (hv : version = [] ∨ ∃ n c, 0 < n ∧ n < 2 ^ 31 ∧ version = 0xa0 :: (lenOctets n ++ elem 0x02 c))
    (e : elem 0x30 (version ++ (elem 0x02 serial ++ (elem 0x30 alg ++ (elem 0x30 issuer ++ (elem 0x30 validity ++
        (elem 0x30 subject ++ (elem 0x30 key ++ after))))))) =
      elem 0x30 (elem 0xa0 [0x02, 0x01, 0x02] ++ elem 0x02 s ++ sm2WithSm3 ++ elem ki ic ++ elem 0x30 nb ++ elem ks sc ++ elem 0x30 kc ++ after'))
    (hl : (elem 0x30 (elem 0xa0 [0x02, 0x01, 0x02] ++ elem 0x02 s ++ sm2WithSm3 ++ elem ki ic ++ elem 0x30 nb ++ elem ks sc ++ elem 0x30 kc ++ after')).length < 2 ^ 31) :
    elem ki ic = elem 0x30 issuer ∧ elem ks sc = elem 0x30 subject := by
  have hl' := hl
  rw [← e] at hl'
  have hl0 := length_le_elem 0x30 (version ++ (elem 0x02 serial ++ (elem 0x30 alg ++ (elem 0x30 issuer ++ (elem 0x30 validity ++
        (elem 0x30 subject ++ (elem 0x30 key ++ after)))))))
  have e := (elem_whole (by omega) e).2
  simp only [List.append_assoc] at e
  have hl1 := congrArg List.length e
  simp only [List.length_append] at hl0 hl1
  have e' : elem 0x02 serial ++ (elem 0x30 alg ++ (elem 0x30 issuer ++ (elem 0x30 validity ++ (elem 0x30 subject ++ (elem 0x30 key ++ after))))) =
      elem 0x02 s ++ (sm2WithSm3 ++ (elem ki ic ++ (elem 0x30 nb ++ (elem ks sc ++ (elem 0x30 kc ++ after'))))) := by
    rcases hv with rfl | ⟨n, c, hn0, hn, rfl⟩
    · simp [elem] at e
    · have ea : elem 0xa0 [0x02, 0x01, 0x02] = 0xa0 :: (lenOctets 3 ++ elem 0x02 [0x02]) := by decide
      rw [ea, List.cons_append, List.cons_append, List.append_assoc, List.append_assoc] at e
      have e := (List.cons.inj e).2
      simp only [List.length_append, List.length_cons] at hl0 hl1
      obtain ⟨rfl, w1⟩ := CB.lenOctets_append_inj (CB.byteLen_lt_127 (by omega)) (CB.byteLen_lt_127 (by omega)) e
      have pl := elem_peel w1
      exact (pl (by simp only [List.length_append]; omega)).2.2
  have pl := elem_peel e'
  obtain ⟨_, rfl, w2⟩ := pl (by simp only [List.length_append]; omega)
  unfold sm2WithSm3 at w2
  have pl := elem_peel w2
  obtain ⟨_, rfl, w3⟩ := pl (by simp only [List.length_append]; omega)
  have pl := elem_peel w3
  obtain ⟨rfl, rfl, w4⟩ := pl (by simp only [List.length_append]; omega)
  have pl := elem_peel w4
  obtain ⟨_, rfl, w5⟩ := pl (by simp only [List.length_append]; omega)
  have pl := elem_peel w5
  obtain ⟨rfl, rfl, w6⟩ := pl (by simp only [List.length_append]; omega)
  exact ⟨rfl, rfl⟩

theorem isOid_names {o : List ℕ} {c : Bytes} (h : IsOID o c) : NamesOID o c := by
  obtain ⟨_, gs, rfl, h⟩ := h
  exact ⟨gs, rfl, h.imp fun _ _ h => ⟨h.1, h.2.2⟩⟩

theorem extension_is {x : Extension} {w : Bytes} (h : ∃ o, IsOidElem x.id o ∧ w = extension o x.critical x.value) : IsExtension x.id x.critical x.value w := by
  obtain ⟨o, ⟨c, hc, rfl⟩, rfl⟩ := h
  refine ⟨c, if x.critical then [0x01, 0x01, 0xff] else [], [], hc.1, isOid_names hc, ?_, ?_⟩
  · cases x.critical
    · exact .inl ⟨rfl, rfl⟩
    · exact .inr (by decide)
  · unfold extension
    simp only [List.append_assoc, List.append_nil]

/-- If an issued certificate is read, then its names are, its extensions are those of the template, with identifiers that fit, and each
of them can be read. -/
theorem issued_read {env : Env U} {t p : X509Cert U} {csr : CertReq U} {der : Bytes} {tbs : TbsCert} {d : ℕ} {id : Option Bytes} {tape : Sm2.Tape}
    {cert : Bytes} (hnb : WritableTime t.notBefore) (hna : WritableTime t.notAfter) (hx : ∀ e ∈ t.extraExtensions, OidInt e.id)
    (ht : OneElement t.rawSubject) (hp : OneElement p.rawSubject) (hcsr : parseCertificateRequest env der = .ok csr)
    (h : createCertificateInfo env t p csr = .ok tbs) (hi : issueCertificateBySoftCAKey tbs ⟨d⟩ id tape = .ok cert) (hl : cert.length < 2 ^ 31)
    {r : X509Cert U} (hr : parseCertificate env cert = .ok r) :
    (∃ b rdns, subjectBytes p.rawSubject p.subject = .ok b ∧ parseName b = .ok rdns) ∧
    (∃ b rdns, subjectBytes t.rawSubject t.subject = .ok b ∧ parseName b = .ok rdns) ∧
    ∃ exts, tbs.extensions = some exts ∧ ∀ e ∈ exts, OIDFits e.id ∧ ∃ a, Alone env e a := by
  obtain ⟨serial, s, issuer, subject, nb, na, exts, es, sig, _, _, hs1, hs2, _, _, hexts, hes, _, hcert⟩ :=
    C128_certificate env t p csr tbs d id tape cert hnb hna hx h hi hl
  obtain ⟨hfit, version, serial', alg, issuer', validity, subject', key, after, hv, hri, hrs, hrt⟩ := certificate_layout hr
  -- the same to-be-signed part
  have hl1 := hl
  rw [hcert] at hl1
  unfold signed at hl1
  have hl2 := (length_le_elem 0x30 (tbsCertificate s issuer nb na subject csr.rawSPKI es ++ sm2WithSm3 ++ bitString sig)).trans_lt hl1
  simp only [List.length_append] at hl2
  have hraw : r.rawTBS = tbsCertificate s issuer nb na subject csr.rawSPKI es := by
    obtain ⟨_, _, _, _, sg, _, _, _, ⟨alg2, params, extra, _, h4⟩, _⟩ := C60_certificate env cert r hr
    rw [hcert] at h4
    unfold signed at h4
    have h5 := (elem_whole (by omega) h4).2
    rw [hrt] at h5 ⊢
    unfold tbsCertificate at h5 ⊢
    simp only [List.append_assoc] at h5
    have pl := elem_peel h5
    have := (pl (by
      unfold tbsCertificate at hl2
      simp only [List.append_assoc, List.length_append] at hl2 ⊢
      omega)).2.1
    rw [← this]
    simp only [List.append_assoc]
  have hl3 : (tbsCertificate s issuer nb na subject csr.rawSPKI es).length < 2 ^ 31 := by omega
  have hl4 := hl3
  unfold tbsCertificate at hl4
  have hl5 := (length_le_elem 0x30 (elem 0xa0 [0x02, 0x01, 0x02] ++ elem 0x02 s ++ sm2WithSm3 ++ issuer ++ elem 0x30 (nb ++ na) ++ subject ++ csr.rawSPKI ++
    elem 0xa3 (elem 0x30 es.flatten))).trans_lt hl4
  simp only [List.length_append] at hl5
  obtain ⟨ki, ic, rfl⟩ := subjectBytes_elem hp hs1 (by omega)
  obtain ⟨ks, sc, rfl⟩ := subjectBytes_elem ht hs2 (by omega)
  obtain ⟨kc, hkc⟩ : ∃ kc, csr.rawSPKI = elem 0x30 kc := by
    obtain ⟨k, pub, hk, _⟩ := csr_key hcsr
    obtain ⟨kc, _, hk1, _⟩ := parseField_struct hk
    exact ⟨kc, by rw [hk1, List.append_nil]⟩
  rw [hrt] at hraw
  have hnames : elem ki ic = elem 0x30 issuer' ∧ elem ks sc = elem 0x30 subject' := by
    unfold tbsCertificate at hraw
    rw [hkc] at hraw hl4
    exact layout_names hv hraw hl4
  obtain ⟨_, _, _, _, ⟨srdns, hsr, _⟩, irdns, hir, _⟩ := cert_read hr
  refine ⟨⟨_, irdns, hs1, ?_⟩, ⟨_, srdns, hs2, ?_⟩, exts, hexts, ?_⟩
  · rw [hnames.1, ← hri]; exact hir
  · rw [hnames.2, ← hrs]; exact hsr
  · have hre : r.extensions = exts := by
      refine C61_complete env cert r hr (elem 0x30 kc) none none es exts [] ?_ (hes.imp fun _ _ h => extension_is h)
      refine ⟨elem 0xa0 [0x02, 0x01, 0x02], s, elem 0x06 [0x2a, 0x81, 0x1c, 0xcf, 0x55, 0x01, 0x83, 0x75], issuer', nb ++ na, subject',
        .inr ⟨3, [0x02], by decide, by decide, by decide⟩, ⟨kc, rfl⟩, ?_⟩
      · rw [hrt, hraw, hnames.1, hnames.2, hkc]
        unfold tbsCertificate sm2WithSm3 optField
        simp only [List.append_assoc, List.append_nil, List.nil_append]
    rw [← hre]
    obtain ⟨out, ho, _⟩ := parseCertificate_extensions hr
    exact fun e he => ⟨hfit e he, parseExtensions_each ho e he⟩

/-! ## The converse -/

/-- If the names can be read, the identifiers of the extensions fit and each extension can be read, then an issued certificate is read. -/
theorem read_issued {env : Env U} {t p : X509Cert U} {csr : CertReq U} {der : Bytes} {tbs : TbsCert} {d : ℕ} {id : Option Bytes} {tape : Sm2.Tape}
    {cert : Bytes} (hnb : WritableTime t.notBefore) (hna : WritableTime t.notAfter) (hcsr : parseCertificateRequest env der = .ok csr)
    (h : createCertificateInfo env t p csr = .ok tbs) (hi : issueCertificateBySoftCAKey tbs ⟨d⟩ id tape = .ok cert) (hl : cert.length < 2 ^ 31)
    (hpn : ∃ b rdns, subjectBytes p.rawSubject p.subject = .ok b ∧ parseName b = .ok rdns)
    (htn : ∃ b rdns, subjectBytes t.rawSubject t.subject = .ok b ∧ parseName b = .ok rdns)
    (hex : ∃ exts, tbs.extensions = some exts ∧ ∀ e ∈ exts, OIDFits e.id ∧ ∃ a, Alone env e a) :
    ∃ r, parseCertificate env cert = .ok r := by
  obtain ⟨serial, exts, spki, issuer, subject, raw, h1, h2, h3, h4, h5, h6, rfl⟩ := createCertificateInfo_ok h
  obtain ⟨exts', hex, hall⟩ := hex
  simp only [Option.some.injEq] at hex
  subst hex
  unfold issueCertificateBySoftCAKey at hi
  rw [Res.bind_eq_ok] at hi
  obtain ⟨sig, h8, h9⟩ := hi
  have hraw : raw.length < 2 ^ 31 := cert_tbs_small h6 h9 hl
  obtain ⟨k, pub, k1, k2, k3, k4⟩ := csr_key hcsr
  rw [h5] at k1
  simp only [Res.ok.injEq, Prod.mk.injEq, and_true] at k1
  subst k1
  obtain ⟨p1, p2, p3, _⟩ := pki_reparse h5
  obtain ⟨b, irdns, hb, i1⟩ := hpn
  rw [h2] at hb
  simp only [Res.ok.injEq] at hb
  subst hb
  obtain ⟨b, srdns, hb, s1⟩ := htn
  rw [h3] at hb
  simp only [Res.ok.injEq] at hb
  subst hb
  have i3 : RawOk issuer := by
    obtain ⟨c, hc, rfl⟩ := parseName_ok i1
    exact ⟨0, 16, true, c, by decide, by decide, hc, rfl⟩
  have s3 : RawOk subject := by
    obtain ⟨c, hc, rfl⟩ := parseName_ok s1
    exact ⟨0, 16, true, c, by decide, by decide, hc, rfl⟩
  obtain ⟨w1, u1, a1, a2, a3, a4, a5⟩ := C75_roundtrip t.notBefore hnb.1 hnb.2.1 hnb.2.2
  obtain ⟨w2, u2, b1, b2, b3, b4, b5⟩ := C75_roundtrip t.notAfter hna.1 hna.2.1 hna.2.2
  have hu1 : FieldRT tyTime {} (toUTC t.notBefore) u1 := fun e he _ rest => by
    rw [a1] at he; simp only [Res.ok.injEq] at he; subst he; exact a2 rest
  have hu2 : FieldRT tyTime {} (toUTC t.notAfter) u2 := fun e he _ rest => by
    rw [b1] at he; simp only [Res.ok.injEq] at he; subst he; exact b2 rest
  obtain ⟨c, i, s, q1, q2, q3, q4, ⟨x, q5, q6⟩, q7⟩ := tbsCert_rt (val := ⟨toUTC t.notBefore, toUTC t.notAfter⟩) i3 s3 hu1 hu2 p2 p3
    (fun e he => (hall e he).1) h6 hraw
  have hread := cert_rt (w := ⟨raw, 2, serial, sigAlgSM3WithSM2, i, ⟨u1, u2⟩, s, spki, none, none, some exts⟩) q2 q1 (by rw [← q2]; exact q7) h9 hl
  unfold parseCertificate
  rw [hread, Res.ok_bind]
  rw [if_neg (by simp)]
  unfold parseCert
  dsimp only
  rw [if_neg (by simp), if_neg (by rw [k2]; simp), k3, Res.ok_bind, q4, s1, Res.ok_bind, q3, i1, Res.ok_bind]
  exact parseExtensions_of_each _ _ fun e he => (hall e he).2

/-! ## The generated extensions -/

theorem alone_ok {env : Env U} {e : Extension} : (∃ a, Alone env e a) ↔ ∃ out r, parseExtension env out e = .ok r := by
  obtain ⟨g, hg, _⟩ := parseExtension_act env e
  constructor
  · rintro ⟨a, ha⟩
    obtain ⟨f, u, hf, _⟩ := (alone_iff hg).1 ha
    exact ⟨{}, _, by rw [hg, hf]; rfl⟩
  · rintro ⟨out, r, hr⟩
    rw [hg, Res.bind_eq_ok] at hr
    obtain ⟨⟨f, u⟩, hf, _⟩ := hr
    exact ⟨_, (alone_iff hg).2 ⟨f, u, hf, rfl⟩⟩

/-- What must hold of the template for the extension with this identifier to be readable. -/
def SectionOk (env : Env U) (t : X509Cert U) (id : OID) : Prop :=
  (id = [2, 5, 29, 17] → (∀ ip ∈ t.ipAddresses, ip.length = 4 ∨ ip.length = 16) ∧
    ∀ u ∈ t.uris, ∃ u', env.parseURL (env.urlString u) = some u' ∧ (env.urlHost u' = [] ∨ AcceptedDomain (env.urlHost u'))) ∧
  (id = [2, 5, 29, 30] →
    ValidConstraints env.isIP t.permittedDNSDomains t.permittedIPRanges t.permittedEmailAddresses t.permittedURIDomains ∧
    ValidConstraints env.isIP t.excludedDNSDomains t.excludedIPRanges t.excludedEmailAddresses t.excludedURIDomains) ∧
  (id = [2, 5, 29, 37] → ∀ o ∈ t.unknownExtKeyUsage, OIDFits o) ∧
  (id = [2, 5, 29, 32] → ∀ o ∈ t.policyIdentifiers, OIDFits o)

theorem oids_unique {os os' : List OID} {ws ws' : List Bytes} (h : List.Forall₂ IsOidElem os ws)
    (h' : List.Forall₂ (fun o w => ∃ c, w = elem 0x06 c ∧ ValidOID o ∧ NamesOID o c) os' ws') (e : ws.flatten = ws'.flatten) (hl : ws.flatten.length < 2 ^ 31) :
    os = os' := by
  induction h generalizing os' ws' with
  | nil =>
    cases h' with
    | nil => rfl
    | cons h1 _ =>
      obtain ⟨c, rfl, _⟩ := h1
      simp [elem] at e
  | cons h1 _ ih =>
    obtain ⟨c, hc, rfl⟩ := h1
    cases h' with
    | nil => simp [elem] at e
    | cons h1' h2' =>
      obtain ⟨c', rfl, hv, hn⟩ := h1'
      rw [List.flatten_cons, List.flatten_cons] at e
      rw [List.flatten_cons] at hl
      obtain ⟨_, rfl, e'⟩ := elem_peel e (by omega)
      rw [List.length_append] at hl
      rw [namesOID_unique hc.1 hv (isOid_names hc) hn, ih h2' e' (by omega)]

theorem unmarshal_oids {os : List OID} {v : Bytes} (hi : ∀ o ∈ os, OidInt o) (h : marshal (tySlice false tyOID) os = .ok v) (hl : v.length < 2 ^ 31) :
    (∃ l, unmarshalAll (tySlice false tyOID) v = .ok l) ↔ ∀ o ∈ os, OIDFits o := by
  constructor
  · rintro ⟨l, hu⟩
    have hfit := unmarshalAll_slice (P := OIDFits) (fun _ _ _ h => parsed_oid_fits h) hu
    obtain ⟨ws, h1, rfl⟩ := oids_wire hi h hl
    obtain ⟨c, h2, h3, h4⟩ := parseField_slice (unmarshalAll_ok hu)
    simp only [Bool.false_eq_true, if_false, List.append_nil] at h3
    obtain ⟨ws', h5, h6⟩ := parseSequenceOf_sound rfl rfl (by decide) h4
    have hl' := (length_le_elem 0x30 ws.flatten).trans_lt hl
    have := oids_unique h1 (h6.imp (by
      rintro o w ⟨c, rfl, hb⟩
      have hb := (parseObjectIdentifier_iff c o).1 hb
      exact ⟨c, rfl, hb.1, namesOID hb⟩)) (by rw [(elem_whole (by omega) h3).2, h5]) (by omega)
    rw [this]
    exact hfit
  · intro hf
    exact ⟨_, unmarshalAll_of (oids_rt hf) h hl⟩

theorem policies_unique {os os' : List OID} {ws ws' : List Bytes} (h : List.Forall₂ IsOidElem os ws)
    (h' : List.Forall₂ (fun o w => ∃ c more, w = elem 0x30 (elem 0x06 c ++ more) ∧ ValidOID o ∧ NamesOID o c) os' ws')
    (e : (ws.flatMap (elem 0x30)) = ws'.flatten) (hl : (ws.flatMap (elem 0x30)).length < 2 ^ 31) : os = os' := by
  induction h generalizing os' ws' with
  | nil =>
    cases h' with
    | nil => rfl
    | cons h1 _ =>
      obtain ⟨c, _, rfl, _⟩ := h1
      simp [elem] at e
  | cons h1 _ ih =>
    obtain ⟨c, hc, rfl⟩ := h1
    cases h' with
    | nil => simp [elem] at e
    | cons h1' h2' =>
      obtain ⟨c', more, rfl, hv, hn⟩ := h1'
      rw [List.flatMap_cons, List.flatten_cons] at e
      rw [List.flatMap_cons] at hl
      obtain ⟨_, e1, e'⟩ := elem_peel e (by omega)
      rw [List.length_append] at hl
      have hl1 := length_le_elem 0x30 (elem 0x06 c)
      have e2 : elem 0x06 c ++ [] = elem 0x06 c' ++ more := by rw [List.append_nil, e1]
      obtain ⟨_, rfl, _⟩ := elem_peel e2 (by rw [List.append_nil]; omega)
      rw [namesOID_unique hc.1 hv (isOid_names hc) hn, ih h2' e' (by omega)]

theorem unmarshal_policies {os : List OID} {v : Bytes} (hi : ∀ o ∈ os, OidInt o) (h : marshal (tySlice false tyPolicyInformation) os = .ok v)
    (hl : v.length < 2 ^ 31) : (∃ l, unmarshalAll (tySlice false tyPolicyInformation) v = .ok l) ↔ ∀ o ∈ os, OIDFits o := by
  constructor
  · rintro ⟨l, hu⟩
    have hfit := unmarshalAll_slice (P := OIDFits) (fun _ _ _ h => parsed_policy_fits h) hu
    obtain ⟨ws, h1, rfl⟩ := policies_wire hi h hl
    unfold certificatePolicies at hl hu
    obtain ⟨c, h2, h3, h4⟩ := parseField_slice (unmarshalAll_ok hu)
    simp only [Bool.false_eq_true, if_false, List.append_nil] at h3
    obtain ⟨ws', h5, h6⟩ := parseSequenceOf_sound rfl rfl (by decide) h4
    have hl' := (length_le_elem 0x30 (ws.flatMap (elem 0x30))).trans_lt hl
    have := policies_unique h1 (h6.imp (by
      rintro o w ⟨c, rfl, hb⟩
      change (do let a ← parseField tyOID {} c; Res.ok a.1) = .ok o at hb
      rw [Res.bind_eq_ok] at hb
      obtain ⟨⟨o', more⟩, hb1, hb2⟩ := hb
      simp only [Res.ok.injEq] at hb2
      subst hb2
      obtain ⟨oc, _, rfl, ho⟩ := parseField_oid hb1
      exact ⟨oc, more, rfl, ho.1, namesOID ho⟩)) (by rw [(elem_whole (by omega) h3).2, h5]) (by omega)
    rw [this]
    exact hfit
  · intro hf
    exact ⟨_, unmarshalAll_of (slice_rt (forall₂_self fun o ho => policy_rt (hf o ho))) h hl⟩

theorem bind_ok_iff {α β : Type} {x : Res α} {f : α → β} : (∃ r, (x >>= fun v => Res.ok (f v)) = .ok r) ↔ ∃ v, x = .ok v := by
  constructor
  · rintro ⟨r, hr⟩
    rw [Res.bind_eq_ok] at hr
    obtain ⟨v, hv, _⟩ := hr
    exact ⟨v, hv⟩
  · rintro ⟨v, rfl⟩
    exact ⟨_, rfl⟩

/-- The template fields that have a range in Go. -/
structure TypedTemplate (t : X509Cert U) : Prop where
  notBefore : WritableTime t.notBefore
  notAfter : WritableTime t.notAfter
  /-- `x509.KeyUsage` has nine bits. -/
  keyUsage : 0 ≤ t.keyUsage ∧ t.keyUsage < 512
  maxPathLen : Int64Range t.maxPathLen
  unknownUsages : ∀ o ∈ t.unknownExtKeyUsage, OidInt o
  policies : ∀ o ∈ t.policyIdentifiers, OidInt o
  extra : ∀ e ∈ t.extraExtensions, OidInt e.id
  permittedMasks : ∀ n ∈ t.permittedIPRanges, n.mask.length = 4 ∨ n.mask.length = 16
  excludedMasks : ∀ n ∈ t.excludedIPRanges, n.mask.length = 4 ∨ n.mask.length = 16

/-- A template with nothing but a key usage and basic constraints. -/
def plainOf (t : X509Cert U) : X509Cert U := {
  keyUsage := t.keyUsage
  maxPathLen := t.maxPathLen
  isCA := t.isCA
  maxPathLenZero := t.maxPathLenZero
  notBefore := t.notBefore
  notAfter := t.notAfter }

theorem plain_good {env : Env U} {t : X509Cert U} (ht : TypedTemplate t) : GoodTemplate env (plainOf t) where
  subject := ⟨by simp [plainOf], by simp [plainOf]⟩
  notBefore := ht.notBefore
  notAfter := ht.notAfter
  keyUsage := ht.keyUsage
  unknownUsages := by simp [plainOf]
  maxPathLen := ht.maxPathLen
  ips := by simp [plainOf]
  uris := by simp [plainOf]
  policies := by simp [plainOf]
  permittedMasks := by simp [plainOf]
  excludedMasks := by simp [plainOf]
  permitted := ⟨by simp [plainOf], by simp [plainOf], by simp [plainOf], by simp [plainOf], by simp [plainOf]⟩
  excluded := ⟨by simp [plainOf], by simp [plainOf], by simp [plainOf], by simp [plainOf], by simp [plainOf]⟩
  extra := by simp [plainOf]

/-- A generated extension can be read exactly if `SectionOk`. -/
theorem made_iff {env : Env U} {t : X509Cert U} (ht : TypedTemplate t) {se : Bool} {akid : Bytes} {s : Cert.Section} (hs : s ∈ sectionsOf env t se akid)
    (hc : s.cond = true) {e : Extension} (hm : s.Makes e) (hl : e.value.length < 2 ^ 31) : (∃ a, Alone env e a) ↔ SectionOk env t e.id := by
  rw [alone_ok]
  have good := plain_good (env := env) ht
  obtain ⟨h1, _, h3⟩ := hm
  simp only [sectionsOf, List.mem_cons, List.not_mem_nil, or_false] at hs
  rcases hs with rfl | rfl | rfl | rfl | rfl | rfl | rfl | rfl | rfl | rfl <;> dsimp only at h1 h3 hc
  · refine iff_of_true ⟨{}, _, made_ku good h1 h3 {}⟩ ?_
    rw [h1]; exact ⟨fun h => absurd h (by decide), fun h => absurd h (by decide), fun h => absurd h (by decide), fun h => absurd h (by decide)⟩
  · have : SectionOk env t e.id ↔ ∀ o ∈ t.unknownExtKeyUsage, OIDFits o := by
      rw [h1]
      exact ⟨fun h => h.2.2.1 rfl, fun h => ⟨fun h => absurd h (by decide), fun h => absurd h (by decide), fun _ => h, fun h => absurd h (by decide)⟩⟩
    rw [this]
    unfold extKeyUsageValue at h3
    rw [Res.bind_eq_ok] at h3
    obtain ⟨oids, g1, g2⟩ := h3
    rw [extKeyUsageOidsOf_ok] at g1
    have hk : ∀ o ∈ oids, OIDFits o := by
      intro o ho
      clear g2 hc this
      generalize t.extKeyUsage = us at g1
      induction g1 with
      | nil => simp at ho
      | cons k _ ih =>
        rcases List.mem_cons.1 ho with rfl | ho
        · obtain ⟨n, _, hn⟩ := find_map_fst.1 k
          exact ekuTable_fits _ hn
        · exact ih ho
    have := unmarshal_oids (fun o ho => (List.mem_append.1 ho).elim (fun h n hn => (hk o h n hn).trans (by decide)) (ht.unknownUsages o)) g2 hl
    rw [List.forall_mem_append] at this
    rw [show (∀ o ∈ t.unknownExtKeyUsage, OIDFits o) ↔ ∃ l, unmarshalAll (tySlice false tyOID) e.value = .ok l from
      ⟨fun h => this.2 ⟨hk, h⟩, fun h => (this.1 h).2⟩]
    have hp : ∀ out, parseExtension env out e = (unmarshalAll (tySlice false tyOID) e.value >>= fun keyUsage => .ok ({ out with
      extKeyUsage := out.extKeyUsage ++ (splitExtKeyUsage keyUsage).1
      unknownExtKeyUsage := out.unknownExtKeyUsage ++ (splitExtKeyUsage keyUsage).2 }, false)) := by
      intro out
      unfold parseExtension
      rw [if_neg (by rw [h1]; decide), if_neg (by rw [h1]; decide), if_neg (by rw [h1]; decide), if_neg (by rw [h1]; decide),
        if_neg (by rw [h1]; decide), if_neg (by rw [h1]; decide), if_pos h1]
    simp only [hp, bind_ok_iff]
    exact ⟨fun ⟨_, h⟩ => h, fun h => ⟨{}, h⟩⟩
  · refine iff_of_true ⟨{}, _, made_bc good h1 hl h3 {}⟩ ?_
    rw [h1]; exact ⟨fun h => absurd h (by decide), fun h => absurd h (by decide), fun h => absurd h (by decide), fun h => absurd h (by decide)⟩
  · refine iff_of_true ⟨{}, _, made_skid h1 hl h3 {}⟩ ?_
    rw [h1]; exact ⟨fun h => absurd h (by decide), fun h => absurd h (by decide), fun h => absurd h (by decide), fun h => absurd h (by decide)⟩
  · refine iff_of_true ⟨{}, _, made_akid h1 hl h3 {}⟩ ?_
    rw [h1]; exact ⟨fun h => absurd h (by decide), fun h => absurd h (by decide), fun h => absurd h (by decide), fun h => absurd h (by decide)⟩
  · refine iff_of_true ⟨{}, _, made_aia h1 hl h3 {}⟩ ?_
    rw [h1]; exact ⟨fun h => absurd h (by decide), fun h => absurd h (by decide), fun h => absurd h (by decide), fun h => absurd h (by decide)⟩
  · have : SectionOk env t e.id ↔ (∀ ip ∈ t.ipAddresses, ip.length = 4 ∨ ip.length = 16) ∧
        ∀ u ∈ t.uris, ∃ u', env.parseURL (env.urlString u) = some u' ∧ (env.urlHost u' = [] ∨ AcceptedDomain (env.urlHost u')) := by
      rw [h1]
      exact ⟨fun h => h.1 rfl, fun h => ⟨fun _ => h, fun h => absurd h (by decide), fun h => absurd h (by decide), fun h => absurd h (by decide)⟩⟩
    rw [this, ← C55_exact env _ _ _ _ _ h3 hl]
    have hp : ∀ out, parseExtension env out e = (parseSANExtension env e.value >>= fun s =>
      .ok ({ out with dnsNames := s.dnsNames, emailAddresses := s.emailAddresses, ipAddresses := s.ipAddresses, uris := s.uris },
      !hasSans s.dnsNames s.emailAddresses s.ipAddresses s.uris)) := by
      intro out
      unfold parseExtension
      rw [if_neg (by rw [h1]; decide), if_neg (by rw [h1]; decide), if_pos h1]
    simp only [hp, bind_ok_iff]
    exact ⟨fun ⟨_, h⟩ => h, fun h => ⟨{}, h⟩⟩
  · have : SectionOk env t e.id ↔ ∀ o ∈ t.policyIdentifiers, OIDFits o := by
      rw [h1]
      exact ⟨fun h => h.2.2.2 rfl, fun h => ⟨fun h => absurd h (by decide), fun h => absurd h (by decide), fun h => absurd h (by decide), fun _ => h⟩⟩
    rw [this, ← unmarshal_policies ht.policies h3 hl]
    have hp : ∀ out, parseExtension env out e = (unmarshalAll (tySlice false tyPolicyInformation) e.value >>= fun policies =>
      .ok ({ out with policyIdentifiers := policies }, false)) := by
      intro out
      unfold parseExtension
      rw [if_neg (by rw [h1]; decide), if_neg (by rw [h1]; decide), if_neg (by rw [h1]; decide), if_neg (by rw [h1]; decide),
        if_neg (by rw [h1]; decide), if_neg (by rw [h1]; decide), if_neg (by rw [h1]; decide), if_neg (by rw [h1]; decide), if_pos h1]
    simp only [hp, bind_ok_iff]
    exact ⟨fun ⟨_, h⟩ => h, fun h => ⟨{}, h⟩⟩
  · have : SectionOk env t e.id ↔
        ValidConstraints env.isIP t.permittedDNSDomains t.permittedIPRanges t.permittedEmailAddresses t.permittedURIDomains ∧
        ValidConstraints env.isIP t.excludedDNSDomains t.excludedIPRanges t.excludedEmailAddresses t.excludedURIDomains := by
      rw [h1]
      exact ⟨fun h => h.2.1 rfl, fun h => ⟨fun h => absurd h (by decide), fun _ => h, fun h => absurd h (by decide), fun h => absurd h (by decide)⟩⟩
    rw [this]
    obtain ⟨i1, i2, _⟩ := (ncValue_iff env t e.value).1 h3
    rw [← validBases_iff env.isIP _ _ _ _ i1 ht.permittedMasks, ← validBases_iff env.isIP _ _ _ _ i2 ht.excludedMasks]
    have hpc := parse_created env t (hasConstraints_some hc) e.value h3 (by omega)
    have hp : ∀ out, parseExtension env out e = (parseNameConstraints env e.value >>= fun q => .ok ({ out with
      permittedDNSDomains := q.1.dnsNames, permittedIPRanges := q.1.ips
      permittedEmailAddresses := q.1.emails, permittedURIDomains := q.1.uriDomains
      excludedDNSDomains := q.2.dnsNames, excludedIPRanges := q.2.ips
      excludedEmailAddresses := q.2.emails, excludedURIDomains := q.2.uriDomains
      permittedDNSDomainsCritical := e.critical }, q.1.unhandled || q.2.unhandled)) := by
      intro out
      unfold parseExtension
      rw [if_neg (by rw [h1]; decide), if_neg (by rw [h1]; decide), if_neg (by rw [h1]; decide), if_pos h1]
    simp only [hp, bind_ok_iff]
    constructor
    · rintro ⟨_, ⟨ps, xs⟩, h⟩
      have := (hpc ps xs).1 h
      exact ⟨this.1, this.2.1⟩
    · rintro ⟨h5, h6⟩
      exact ⟨{}, ⟨_, _⟩, (hpc _ _).2 ⟨h5, h6, rfl, rfl⟩⟩
  · refine iff_of_true ⟨{}, _, made_crl h1 hl h3 {}⟩ ?_
    rw [h1]; exact ⟨fun h => absurd h (by decide), fun h => absurd h (by decide), fun h => absurd h (by decide), fun h => absurd h (by decide)⟩

theorem forall₂_mem_left {α β : Type} {R : α → β → Prop} {l : List α} {l' : List β} (h : List.Forall₂ R l l') : ∀ a ∈ l, ∃ b ∈ l', R a b := by
  induction h with
  | nil => simp
  | cons h1 _ ih =>
    intro a ha
    rcases List.mem_cons.1 ha with rfl | ha
    · exact ⟨_, by simp, h1⟩
    · obtain ⟨b, hb, h⟩ := ih a ha
      exact ⟨b, by simp [hb], h⟩

theorem used_notExtra {t : X509Cert U} {s : Cert.Section} : s.used t.extraExtensions = true ↔ s.cond = true ∧ NotExtra t s.id := by
  unfold Section.used oidInExtensions NotExtra
  rw [Bool.and_eq_true, Bool.not_eq_true', List.any_eq_false]
  simp

/-- All generated extensions are readable exactly if this holds of the template for each extension that it does not bring along. -/
theorem generated_iff {env : Env U} {t : X509Cert U} (ht : TypedTemplate t) {se : Bool} {akid : Bytes} {gen : List Extension}
    (h : List.Forall₂ Section.Makes ((sectionsOf env t se akid).filter (Section.used t.extraExtensions)) gen) (hl : ∀ e ∈ gen, e.value.length < 2 ^ 31) :
    (∀ e ∈ gen, ∃ a, Alone env e a) ↔ ∀ id, NotExtra t id → SectionOk env t id := by
  constructor
  · intro hall
    have key : ∀ s ∈ sectionsOf env t se akid, s.cond = true → NotExtra t s.id → SectionOk env t s.id := by
      intro s hs hc hn
      obtain ⟨e, he, hm⟩ := forall₂_mem_left h s (List.mem_filter.2 ⟨hs, used_notExtra.2 ⟨hc, hn⟩⟩)
      have := (made_iff ht hs hc hm (hl e he)).1 (hall e he)
      rwa [hm.1] at this
    intro id hn
    refine ⟨?_, ?_, ?_, ?_⟩
    · rintro rfl
      by_cases hc : hasSans t.dnsNames t.emailAddresses t.ipAddresses t.uris = true
      · exact (key ⟨hasSans t.dnsNames t.emailAddresses t.ipAddresses t.uris, oidExtensionSubjectAltName, se,
          marshalSANs env t.dnsNames t.emailAddresses t.ipAddresses t.uris⟩ (by simp [sectionsOf]) hc hn).1 rfl
      · unfold hasSans at hc
        simp only [Bool.or_eq_true, decide_eq_true_eq, not_or, not_lt, Nat.le_zero, List.length_eq_zero_iff, gt_iff_lt] at hc
        rw [hc.1.2, hc.2]
        simp
    · rintro rfl
      by_cases hc : hasConstraints t = true
      · exact (key ⟨hasConstraints t, oidExtensionNameConstraints, t.permittedDNSDomainsCritical, nameConstraintsValue env t⟩ (by simp [sectionsOf]) hc hn).2.1 rfl
      · unfold hasConstraints at hc
        simp only [Bool.or_eq_true, decide_eq_true_eq, not_or, not_lt, Nat.le_zero, List.length_eq_zero_iff, gt_iff_lt] at hc
        obtain ⟨⟨⟨⟨⟨⟨⟨h1, h2⟩, h3⟩, h4⟩, h5⟩, h6⟩, h7⟩, h8⟩ := hc
        rw [h1, h2, h3, h4, h5, h6, h7, h8]
        exact ⟨⟨by simp, by simp, by simp, by simp, by simp⟩, ⟨by simp, by simp, by simp, by simp, by simp⟩⟩
    · rintro rfl
      by_cases hc : t.extKeyUsage.length > 0 ∨ t.unknownExtKeyUsage.length > 0
      · exact (key ⟨t.extKeyUsage.length > 0 ∨ t.unknownExtKeyUsage.length > 0, oidExtensionExtendedKeyUsage, false,
          extKeyUsageValue t.extKeyUsage t.unknownExtKeyUsage⟩ (by simp [sectionsOf]) (by simpa using hc) hn).2.2.1 rfl
      · simp only [not_or, not_lt, Nat.le_zero, List.length_eq_zero_iff, gt_iff_lt] at hc
        rw [hc.2]
        simp
    · rintro rfl
      by_cases hc : t.policyIdentifiers.length > 0
      · exact (key ⟨t.policyIdentifiers.length > 0, oidExtensionCertificatePolicies, false,
          marshal (tySlice false tyPolicyInformation) t.policyIdentifiers⟩ (by simp [sectionsOf]) (by simpa using hc) hn).2.2.2 rfl
      · simp only [not_lt, Nat.le_zero, List.length_eq_zero_iff, gt_iff_lt] at hc
        rw [hc]
        simp
  · intro hall e he
    obtain ⟨s, hs, hm⟩ := makes_mem h e he
    obtain ⟨hs1, hs2⟩ := List.mem_filter.1 hs
    obtain ⟨hc, hn⟩ := used_notExtra.1 hs2
    refine (made_iff ht hs1 hc hm (hl e he)).2 (hall _ ?_)
    rw [hm.1]
    exact hn

/-- The values of the extensions of an issued certificate are not longer than it. -/
theorem issued_small {env : Env U} {t p : X509Cert U} {csr : CertReq U} {tbs : TbsCert} {d : ℕ} {id : Option Bytes} {tape : Sm2.Tape}
    {cert : Bytes} (hnb : WritableTime t.notBefore) (hna : WritableTime t.notAfter) (hx : ∀ e ∈ t.extraExtensions, OidInt e.id)
    (h : createCertificateInfo env t p csr = .ok tbs) (hi : issueCertificateBySoftCAKey tbs ⟨d⟩ id tape = .ok cert) (hl : cert.length < 2 ^ 31)
    {exts : List Extension} (he : tbs.extensions = some exts) : ∀ e ∈ exts, e.value.length < 2 ^ 31 := by
  obtain ⟨_, s, issuer, subject, nb, na, exts', es, sig, _, _, _, _, _, _, he', hes, _, hcert⟩ :=
    C128_certificate env t p csr tbs d id tape cert hnb hna hx h hi hl
  rw [he] at he'
  simp only [Option.some.injEq] at he'
  subst he'
  have h1 : es.flatten.length < 2 ^ 31 := by
    rw [hcert] at hl
    unfold signed tbsCertificate at hl
    have l1 := length_le_elem 0x30 (elem 0x30 (elem 0xa0 [0x02, 0x01, 0x02] ++ elem 0x02 s ++ sm2WithSm3 ++ issuer ++ elem 0x30 (nb ++ na) ++ subject ++ csr.rawSPKI ++
      elem 0xa3 (elem 0x30 es.flatten)) ++ sm2WithSm3 ++ bitString sig)
    have l2 := length_le_elem 0x30 (elem 0xa0 [0x02, 0x01, 0x02] ++ elem 0x02 s ++ sm2WithSm3 ++ issuer ++ elem 0x30 (nb ++ na) ++ subject ++ csr.rawSPKI ++
      elem 0xa3 (elem 0x30 es.flatten))
    have l3 := length_le_elem 0xa3 (elem 0x30 es.flatten)
    have l4 := length_le_elem 0x30 es.flatten
    simp only [List.length_append] at l1 l2
    omega
  intro e hmem
  obtain ⟨w, hw, o, _, rfl⟩ := forall₂_mem_left hes e hmem
  have l1 := length_le_flatten hw
  unfold extension at l1
  have l2 := length_le_elem 0x30 (o ++ (if e.critical then [0x01, 0x01, 0xff] else []) ++ elem 0x04 e.value)
  have l3 := length_le_elem 0x04 e.value
  simp only [List.length_append] at l2
  omega

/-- **C85** (exactly what holds) A certificate issued for a typed template whose raw subjects, if given, are one element each is accepted
by `ParseCertificate` if and only if

* issuer and subject are names that can be read,
* each extension that the template brings along has an identifier with numbers below 2^31 and is readable alone, and
* of the other extensions: addresses have 4 or 16 bytes, URIs are parsed again and have a good host, name constraints are valid, and
  unknown usages and policies have numbers below 2^31. -/
theorem C85_exact (env : Env U) (t p : X509Cert U) (der : Bytes) (csr : CertReq U) (tbs : TbsCert) (d : ℕ) (id : Option Bytes)
    (tape : Sm2.Tape) (cert : Bytes) (ht : TypedTemplate t) (hs : OneElement t.rawSubject) (hp : OneElement p.rawSubject)
    (hcsr : parseCertificateRequest env der = .ok csr)
    (h : createCertificateInfo env t p csr = .ok tbs) (hi : issueCertificateBySoftCAKey tbs ⟨d⟩ id tape = .ok cert) (hl : cert.length < 2 ^ 31) :
    (∃ r, parseCertificate env cert = .ok r) ↔
      (∃ b rdns, subjectBytes p.rawSubject p.subject = .ok b ∧ parseName b = .ok rdns) ∧
      (∃ b rdns, subjectBytes t.rawSubject t.subject = .ok b ∧ parseName b = .ok rdns) ∧
      (∀ e ∈ t.extraExtensions, OIDFits e.id ∧ ∃ a, Alone env e a) ∧
      (NotExtra t [2, 5, 29, 17] → (∀ ip ∈ t.ipAddresses, ip.length = 4 ∨ ip.length = 16) ∧
        ∀ u ∈ t.uris, ∃ u', env.parseURL (env.urlString u) = some u' ∧ (env.urlHost u' = [] ∨ AcceptedDomain (env.urlHost u'))) ∧
      (NotExtra t [2, 5, 29, 30] →
        ValidConstraints env.isIP t.permittedDNSDomains t.permittedIPRanges t.permittedEmailAddresses t.permittedURIDomains ∧
        ValidConstraints env.isIP t.excludedDNSDomains t.excludedIPRanges t.excludedEmailAddresses t.excludedURIDomains) ∧
      (NotExtra t [2, 5, 29, 37] → ∀ o ∈ t.unknownExtKeyUsage, OIDFits o) ∧
      (NotExtra t [2, 5, 29, 32] → ∀ o ∈ t.policyIdentifiers, OIDFits o) := by
  obtain ⟨serial, exts, spki, issuer, subject, raw, h1, h2, h3, h4, h5, h6, h7⟩ := createCertificateInfo_ok h
  obtain ⟨gen, hgen, rfl⟩ := (buildExtensions_iff _ _ _ _ _).1 h4
  have hext : tbs.extensions = some (gen ++ t.extraExtensions) := by rw [h7]
  have hsmall := issued_small ht.notBefore ht.notAfter ht.extra h hi hl hext
  have hall : (∀ e ∈ gen ++ t.extraExtensions, OIDFits e.id ∧ ∃ a, Alone env e a) ↔
      (∀ e ∈ t.extraExtensions, OIDFits e.id ∧ ∃ a, Alone env e a) ∧ ∀ id, NotExtra t id → SectionOk env t id := by
    rw [List.forall_mem_append, and_comm, ← generated_iff ht hgen fun e he => hsmall e (by simp [he])]
    refine and_congr_right fun _ => ⟨fun h e he => (h e he).2, fun h e he => ⟨?_, h e he⟩⟩
    obtain ⟨s, hs, hm⟩ := makes_mem hgen e he
    have hs' : s.id ∈ (sectionsOf env t (subject = emptyASN1Subject) (akidOf issuer subject t p)).map Section.id :=
      List.mem_map.2 ⟨s, (List.mem_filter.1 hs).1, rfl⟩
    rw [hm.1]
    have : ∀ i ∈ ([oidExtensionKeyUsage, oidExtensionExtendedKeyUsage, oidExtensionBasicConstraints, oidExtensionSubjectKeyId, oidExtensionAuthorityKeyId,
        oidExtensionAuthorityInfoAccess, oidExtensionSubjectAltName, oidExtensionCertificatePolicies, oidExtensionNameConstraints,
        oidExtensionCRLDistributionPoints] : List OID), OIDFits i := by
      unfold OIDFits; decide
    exact this _ hs'
  have hsec : (∀ id, NotExtra t id → SectionOk env t id) ↔
      (NotExtra t [2, 5, 29, 17] → (∀ ip ∈ t.ipAddresses, ip.length = 4 ∨ ip.length = 16) ∧
        ∀ u ∈ t.uris, ∃ u', env.parseURL (env.urlString u) = some u' ∧ (env.urlHost u' = [] ∨ AcceptedDomain (env.urlHost u'))) ∧
      (NotExtra t [2, 5, 29, 30] →
        ValidConstraints env.isIP t.permittedDNSDomains t.permittedIPRanges t.permittedEmailAddresses t.permittedURIDomains ∧
        ValidConstraints env.isIP t.excludedDNSDomains t.excludedIPRanges t.excludedEmailAddresses t.excludedURIDomains) ∧
      (NotExtra t [2, 5, 29, 37] → ∀ o ∈ t.unknownExtKeyUsage, OIDFits o) ∧
      (NotExtra t [2, 5, 29, 32] → ∀ o ∈ t.policyIdentifiers, OIDFits o) := by
    constructor
    · exact fun h => ⟨fun hn => (h _ hn).1 rfl, fun hn => (h _ hn).2.1 rfl, fun hn => (h _ hn).2.2.1 rfl, fun hn => (h _ hn).2.2.2 rfl⟩
    · rintro ⟨g1, g2, g3, g4⟩ id hn
      exact ⟨fun e => g1 (e ▸ hn), fun e => g2 (e ▸ hn), fun e => g3 (e ▸ hn), fun e => g4 (e ▸ hn)⟩
  rw [← hsec]
  constructor
  · rintro ⟨r, hr⟩
    obtain ⟨a, b, exts', he', c⟩ := issued_read ht.notBefore ht.notAfter ht.extra hs hp hcsr h hi hl hr
    rw [hext] at he'
    simp only [Option.some.injEq] at he'
    subst he'
    exact ⟨a, b, hall.1 c⟩
  · rintro ⟨a, b, c⟩
    exact read_issued ht.notBefore ht.notAfter hcsr h hi hl a b ⟨_, hext, hall.2 c⟩

/-- **C85** is violated: a policy with a number that does not fit in 31 bits is written, but cannot be read. -/
theorem C85_number_violated : ∃ (t : X509Cert Bytes) (der : Bytes) (csr : CertReq Bytes) (tbs : TbsCert) (cert : Bytes),
    TypedTemplate t ∧ t.rawSubject = [] ∧ t.extraExtensions = [] ∧ t.policyIdentifiers = [[1, 2, 2 ^ 31]] ∧ t.ipAddresses = [] ∧
    parseCertificateRequest exEnv der = .ok csr ∧ createCertificateInfo exEnv t exParent csr = .ok tbs ∧
    issueCertificateBySoftCAKey tbs ⟨5⟩ none [some (toBE 32 7)] = .ok cert ∧ ∃ m, parseCertificate exEnv cert = .err m := by
  obtain ⟨der, csr, tbs, cert, h⟩ := exUnread_true (t := { exIssueTemplate with policyIdentifiers := [[1, 2, 2 ^ 31]], extraExtensions := [], ipAddresses := [] })
    (by set_option maxRecDepth 100000 in decide +kernel)
  refine ⟨_, der, csr, tbs, cert, ?_, rfl, rfl, rfl, rfl, h⟩
  exact { notBefore := exIssueTemplate_good.notBefore, notAfter := exIssueTemplate_good.notAfter, keyUsage := exIssueTemplate_good.keyUsage
          maxPathLen := exIssueTemplate_good.maxPathLen, unknownUsages := by decide, policies := by decide, extra := by decide
          permittedMasks := by decide, excludedMasks := by decide }

/-- C85_exact has instances: a typed template that uses every group of fields, and one whose raw subject is an element but no name. -/
example : TypedTemplate exIssueTemplate ∧ OneElement exIssueTemplate.rawSubject ∧ OneElement (elem 0x04 [1]) :=
  ⟨{ notBefore := exIssueTemplate_good.notBefore, notAfter := exIssueTemplate_good.notAfter, keyUsage := exIssueTemplate_good.keyUsage
     maxPathLen := exIssueTemplate_good.maxPathLen, unknownUsages := by decide, policies := by decide, extra := by decide
     permittedMasks := by decide, excludedMasks := by decide }, .inl rfl, .inr ⟨_, _, rfl⟩⟩

set_option maxRecDepth 100000 in
/-- A certificate with that raw subject is issued and cannot be read. -/
example : exUnread { exIssueTemplate with rawSubject := elem 0x04 [1] } = true := by decide +kernel
