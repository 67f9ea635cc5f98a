import Verif.Cert.WireLemmas
import Verif.Props.CertIssue
import Verif.Props.CertRequest
/-!
# C128: what is issued, octet by octet

The layout of certificates, requests and the contents of extensions is in `Verif.Spec.Wire`; object identifiers there are
octets or `IsOID` (X.690 8.19), integers `IsInt` (8.3), times `IsRfcTime`.
-/
namespace Verif.Props
open Verif Verif.Der Verif.Cert Verif.Spec.DER Verif.Spec.Cert Verif.Spec.Wire
open Verif.Spec.SM2 (coords)

variable {U : Type}

/-- Object identifiers whose numbers are `int`s of Go. -/
def OidInt (o : List ℕ) : Prop := ∀ n ∈ subids o, n < 2 ^ 63

instance (o : List ℕ) : Decidable (OidInt o) := inferInstanceAs (Decidable (∀ _ ∈ _, _))

/-- `w` is the time of RFC 5280 that is the same instant as `t`. -/
def WrittenTime (t : Time) (w : Bytes) : Prop :=
  ∃ y mo d h mi : ℕ, IsRfcTime y mo d h mi t.sec w ∧
    minuteNumber y mo d h mi 0 = minuteNumber t.year.toNat t.month t.day t.hour t.min t.offset

theorem writable_written {t : Time} (h : WritableTime t) : ∃ w, tyTime.make {} (toUTC t) = .ok w ∧ WrittenTime t w := by
  obtain ⟨y, mo, d, hh, mi, h1, h2, h3, h4⟩ := C75_written t h.1 h.2.1 h.2.2
  exact ⟨_, h4, y, mo, d, hh, mi, ⟨h2, h1, rfl⟩, h3⟩

theorem subjectBytes_ne {raw : Bytes} {n : Name} {b : Bytes} (h : subjectBytes raw n = .ok b) : b ≠ [] := by
  rintro rfl
  unfold subjectBytes at h
  split at h
  · rename_i hr
    simp only [Res.ok.injEq] at h
    rw [h] at hr
    simp at hr
  · obtain ⟨es, _, _, h3⟩ := slice_wire h (by simp)
    exact absurd h3 (by unfold elem; simp)

/-- The extensions of a created certificate have identifiers that fit. -/
theorem generated_fit {env : Env U} {t : X509Cert U} {se : Bool} {akid : Bytes} {gen : List Extension}
    (h : List.Forall₂ Section.Makes ((sectionsOf env t se akid).filter (Section.used t.extraExtensions)) gen)
    (hx : ∀ e ∈ t.extraExtensions, OidInt e.id) : ∀ e ∈ gen ++ t.extraExtensions, ∀ n ∈ subids e.id, n < 2 ^ 63 := by
  intro e he
  rcases List.mem_append.1 he with he | he
  · obtain ⟨s, hs, hm⟩ := makes_mem h e he
    have hs := (List.mem_filter.1 hs).1
    rw [hm.1]
    simp only [sectionsOf, List.mem_cons, List.not_mem_nil, or_false] at hs
    rcases hs with rfl | rfl | rfl | rfl | rfl | rfl | rfl | rfl | rfl | rfl <;> (dsimp only; decide)
  · exact hx e he

/-- **C128** An issued certificate is, octet by octet, the certificate of RFC 5280: the to-be-signed part of version 3 with
the serial number, the issuer's and the template's subject, the validity in the form RFC 5280 4.1.2.5 wants, the key of
the request as it is, and the extensions in their order; then the algorithm and the signature. -/
theorem C128_certificate (env : Env U) (t p : X509Cert U) (csr : CertReq U) (tbs : TbsCert) (d : ℕ) (id : Option Bytes)
    (tape : Sm2.Tape) (cert : Bytes) (h1 : WritableTime t.notBefore) (h2 : WritableTime t.notAfter)
    (hx : ∀ e ∈ t.extraExtensions, OidInt e.id) (h : createCertificateInfo env t p csr = .ok tbs)
    (hi : issueCertificateBySoftCAKey tbs ⟨d⟩ id tape = .ok cert) (hl : cert.length < 2 ^ 31) :
    ∃ serial s issuer subject nb na exts es sig,
      t.serialNumber = some serial ∧ IsInt serial s ∧
      subjectBytes p.rawSubject p.subject = .ok issuer ∧ subjectBytes t.rawSubject t.subject = .ok subject ∧
      WrittenTime t.notBefore nb ∧ WrittenTime t.notAfter na ∧
      tbs.extensions = some exts ∧
      List.Forall₂ (fun (x : Extension) w => ∃ o, IsOidElem x.id o ∧ w = extension o x.critical x.value) exts es ∧
      Sm2.sign ⟨d⟩ id (tbsCertificate s issuer nb na subject csr.rawSPKI es) tape = .ok sig ∧
      cert = signed (tbsCertificate s issuer nb na subject csr.rawSPKI es) sig := by
  obtain ⟨serial, exts, spki, issuer, subject, raw, g1, g2, g3, g4, g5, g6, rfl⟩ := createCertificateInfo_ok h
  obtain ⟨gen, g7, rfl⟩ := (buildExtensions_iff _ _ _ _ _).1 g4
  unfold issueCertificateBySoftCAKey at hi
  rw [Res.bind_eq_ok] at hi
  obtain ⟨sig, g8, g9⟩ := hi
  have hraw : raw.length < 2 ^ 31 := cert_tbs_small g6 g9 hl
  obtain ⟨_, k2, _, _⟩ := pki_reparse g5
  obtain ⟨nb, n1, n2⟩ := writable_written h1
  obtain ⟨na, n3, n4⟩ := writable_written h2
  obtain ⟨s, es, w1, w2, w3⟩ := tbsCert_wire (val := ⟨toUTC t.notBefore, toUTC t.notAfter⟩) (serial := serial) (subjectBytes_ne g2) (subjectBytes_ne g3) n1 n3 k2 (generated_fit g7 hx) g6 hraw
  dsimp only at g8
  have hc : raw = elem 0x30 _ := w3
  have hcl := (length_le_elem 0x30 _).trans_lt (lt_of_eq_of_lt (congrArg List.length hc.symm) hraw)
  have := signed_cert_wire hc (by omega) g9 hl
  rw [w3] at this g8
  exact ⟨serial, s, issuer, subject, nb, na, _, es, sig, g1, w1, g2, g3, n2, n4, rfl, w2, g8, this⟩

/-- The generated extension with a given identifier has the value of its section. -/
theorem generated_value {env : Env U} {t : X509Cert U} {se : Bool} {akid : Bytes} {gen : List Extension} {x : Extension} {s : Cert.Section}
    (h : List.Forall₂ Section.Makes ((sectionsOf env t se akid).filter (Section.used t.extraExtensions)) gen)
    (hx : x ∈ gen) (hs : s ∈ sectionsOf env t se akid) (hid : x.id = s.id) : s.cond = true ∧ s.value = .ok x.value := by
  obtain ⟨s', h1, h2⟩ := makes_mem h x hx
  obtain ⟨h1, h3⟩ := List.mem_filter.1 h1
  have := List.inj_on_of_nodup_map (sections_nodup env t se akid) hs h1 (by rw [← hid, h2.1])
  subst this
  unfold Section.used at h3
  rw [Bool.and_eq_true] at h3
  exact ⟨h3.1, h2.2.2⟩

/-- The values of the extensions of a certificate are shorter than the certificate. -/
theorem wire_value_small {exts : List Extension} {es : List Bytes}
    (h : List.Forall₂ (fun (x : Extension) w => ∃ o, IsOidElem x.id o ∧ w = extension o x.critical x.value) exts es) :
    ∀ x ∈ exts, x.value.length ≤ es.flatten.length := by
  induction h with
  | nil => simp
  | @cons x w l l' h1 _ ih =>
    obtain ⟨o, _, rfl⟩ := h1
    intro y hy
    rw [List.flatten_cons, List.length_append]
    rcases List.mem_cons.1 hy with rfl | hy
    · unfold extension
      have h1 := length_le_elem 0x30 (o ++ (if y.critical then [0x01, 0x01, 0xff] else []) ++ elem 0x04 y.value)
      have h2 := length_le_elem 0x04 y.value
      rw [List.length_append, List.length_append] at h1
      omega
    · have := ih y hy
      omega

/-- **C128** The contents of the extensions, octet by octet, wherever the template does not bring the extension itself. -/
theorem C128_extensions (env : Env U) (t p : X509Cert U) (csr : CertReq U) (tbs : TbsCert) (d : ℕ) (id : Option Bytes)
    (tape : Sm2.Tape) (cert : Bytes) (h1 : WritableTime t.notBefore) (h2 : WritableTime t.notAfter)
    (hx : ∀ e ∈ t.extraExtensions, OidInt e.id) (h : createCertificateInfo env t p csr = .ok tbs)
    (hi : issueCertificateBySoftCAKey tbs ⟨d⟩ id tape = .ok cert) (hl : cert.length < 2 ^ 31) :
    ∃ exts, tbs.extensions = some exts ∧ ∀ x ∈ exts, (∀ e ∈ t.extraExtensions, e.id ≠ x.id) →
      (x.id = [2, 5, 29, 15] → ∀ k : ℕ, t.keyUsage = k → k < 512 → ∃ n, 2 ^ n ≤ k ∧ k < 2 ^ (n + 1) ∧ IsNamedBits (usageFlags (n + 1) k) x.value) ∧
      (x.id = [2, 5, 29, 37] → (∀ o ∈ t.unknownExtKeyUsage, OidInt o) → ∃ known os,
        List.Forall₂ (fun (u : ℤ) o => ∃ n : ℕ, u = n ∧ (n, o) ∈ ekuTable) t.extKeyUsage known ∧
        List.Forall₂ IsOidElem (known ++ t.unknownExtKeyUsage) os ∧ x.value = elem 0x30 os.flatten) ∧
      (x.id = [2, 5, 29, 19] → Int64Range t.maxPathLen →
        (wirePathLen t = -1 ∧ x.value = basicConstraints t.isCA none) ∨
        (wirePathLen t ≠ -1 ∧ ∃ c, IsInt (wirePathLen t) c ∧ x.value = basicConstraints t.isCA (some c))) ∧
      (x.id = [2, 5, 29, 14] → x.value = elem 0x04 t.subjectKeyId) ∧
      (x.id = [2, 5, 29, 35] → x.value = authorityKeyIdentifier (akidOf tbs.issuer.fullBytes tbs.subject.fullBytes t p)) ∧
      (x.id = [1, 3, 6, 1, 5, 5, 7, 1, 1] → x.value = authorityInfoAccess t.ocspServer t.issuingCertificateURL) ∧
      (x.id = [2, 5, 29, 17] → (∀ ip ∈ t.ipAddresses, ip.length = 4 ∨ ip.length = 16) → ∃ wire, List.Forall₂ IsWireIP t.ipAddresses wire ∧
        x.value = generalNames t.dnsNames t.emailAddresses wire (t.uris.map env.urlString)) ∧
      (x.id = [2, 5, 29, 32] → (∀ o ∈ t.policyIdentifiers, OidInt o) → ∃ os, List.Forall₂ IsOidElem t.policyIdentifiers os ∧
        x.value = certificatePolicies os) ∧
      (x.id = [2, 5, 29, 30] → (∀ n ∈ t.permittedIPRanges ++ t.excludedIPRanges, (n.mask.length = 4 ∨ n.mask.length = 16) ∧ FitNet n) →
        ∀ pn xn, List.Forall₂ NetOf t.permittedIPRanges pn → List.Forall₂ NetOf t.excludedIPRanges xn →
          x.value = nameConstraints (constraintField t.permittedDNSDomains pn t.permittedEmailAddresses t.permittedURIDomains)
            (constraintField t.excludedDNSDomains xn t.excludedEmailAddresses t.excludedURIDomains)) ∧
      (x.id = [2, 5, 29, 31] → x.value = crlDistributionPoints t.crlDistributionPoints) := by
  obtain ⟨_, s, issuer, subject, nb, na, exts, es, sig, _, _, _, _, _, _, g7, g8, _, g10⟩ :=
    C128_certificate env t p csr tbs d id tape cert h1 h2 hx h hi hl
  refine ⟨exts, g7, ?_⟩
  intro x hxe hne
  have hv : x.value.length < 2 ^ 31 := by
    refine (wire_value_small g8 x hxe).trans_lt (lt_of_le_of_lt ?_ hl)
    rw [g10]
    unfold signed tbsCertificate
    have a1 := fun c => length_le_elem 0x30 c
    have a2 := length_le_elem 0xa3 (elem 0x30 es.flatten)
    have a3 := length_le_elem 0x30 es.flatten
    refine le_trans ?_ ((Nat.le_add_right _ 2).trans (a1 _))
    rw [List.append_assoc, List.length_append]
    refine le_trans ?_ (Nat.le_add_right _ _)
    refine le_trans ?_ ((Nat.le_add_right _ 2).trans (a1 _))
    rw [List.length_append]
    omega
  obtain ⟨serial, exts', spki, issuer', subject', raw, _, _, _, k4, _, _, rfl⟩ := createCertificateInfo_ok h
  obtain ⟨gen, k7, rfl⟩ := (buildExtensions_iff _ _ _ _ _).1 k4
  simp only [Option.some.injEq] at g7
  subst g7
  have hg : x ∈ gen := by
    rcases List.mem_append.1 hxe with hg | hg
    · exact hg
    · exact absurd rfl (hne x hg)
  have val := fun (s : Cert.Section) (hs : s ∈ sectionsOf env t (decide (subject' = emptyASN1Subject)) (akidOf issuer' subject' t p)) (hid : x.id = s.id) =>
    generated_value k7 hg hs hid
  dsimp only
  simp only [sectionsOf, List.forall_mem_cons, List.not_mem_nil, false_implies, implies_true, and_true] at val
  obtain ⟨v1, v2, v3, v4, v5, v6, v7, v8, v9, v10⟩ := val
  refine ⟨?_, ?_, ?_, ?_, ?_, ?_, ?_, ?_, ?_, ?_⟩
  · intro hid k hk hk'
    obtain ⟨c, hv'⟩ := v1 hid
    rw [hk] at hv' c
    obtain ⟨v, n, m1, m2, m3, m4⟩ := C53_encoding k (by simp at c; omega) hk'
    rw [m1] at hv'
    simp only [Res.ok.injEq] at hv'
    subst hv'
    exact ⟨n, m2, m3, m4⟩
  · intro hid ho
    obtain ⟨_, hv'⟩ := v2 hid
    unfold extKeyUsageValue at hv'
    rw [Res.bind_eq_ok] at hv'
    obtain ⟨oids, m1, m2⟩ := hv'
    rw [extKeyUsageOidsOf_ok] at m1
    have m1' : List.Forall₂ (fun (u : ℤ) o => ∃ n : ℕ, u = n ∧ (n, o) ∈ ekuTable) t.extKeyUsage oids := m1.imp fun u o h => (C54_table u o).1.1 h
    have fit : ∀ o ∈ oids ++ t.unknownExtKeyUsage, ∀ n ∈ subids o, n < 2 ^ 63 := by
      intro o ho'
      rcases List.mem_append.1 ho' with ho' | ho'
      · have tab : ∀ q ∈ ekuTable, ∀ n ∈ subids q.2, n < 2 ^ 63 := by decide
        clear * - m1' ho' tab
        generalize t.extKeyUsage = us at m1'
        induction m1' with
        | nil => simp at ho'
        | cons h1 _ ih =>
          rcases List.mem_cons.1 ho' with rfl | ho'
          · obtain ⟨n, _, hn⟩ := h1
            exact tab _ hn
          · exact ih ho'
      · exact ho o ho'
    obtain ⟨os, m3, m4⟩ := oids_wire fit m2 hv
    exact ⟨oids, os, m1', m3, m4⟩
  · intro hid hm
    have hr : Int64Range (wirePathLen t) := by
      unfold wirePathLen
      split
      · unfold Int64Range; omega
      · exact hm
    exact basicConstraints_wire hr (v3 hid).2 hv
  · intro hid
    exact (bytes_make (v4 hid).2 hv).2
  · intro hid
    exact akid_wire (v5 hid).2 hv
  · intro hid
    exact aia_wire (v6 hid).2 hv
  · intro hid hip
    obtain ⟨v, m1, m2⟩ := C55_encoding env t.dnsNames t.emailAddresses t.ipAddresses t.uris hip
    have m3 := (v7 hid).2
    rw [m1] at m3
    simp only [Res.ok.injEq] at m3
    subst m3
    exact m2 hv
  · intro hid ho
    exact policies_wire ho (v8 hid).2 hv
  · intro hid hn pn xn hp hx
    obtain ⟨_, _, _, _, rfl, rfl, m, _⟩ := (C56_encoding env t pn xn (fun n h => hn n (by simp [h])) (fun n h => hn n (by simp [h])) hp hx x.value).1 (v9 hid).2
    exact m
  · intro hid
    exact crl_wire (v10 hid).2 hv

/-- **C128** A created request is, octet by octet, the request of RFC 2986: the subject, the key as the uncompressed point,
the attributes in their order; then the algorithm and the signature. -/
theorem C128_request (env : Env U) (t : CertReq U) (x y : ℕ) (Q : Sm2.Pt) (pri : Sm2.PrivateKey) (id : Option Bytes) (tape : Sm2.Tape)
    (csr : Bytes) (after : List ATVSET) (hQ : coords Q = some (x, y))
    (h : createCertificateRequest env t ⟨x, y⟩ pri id tape = .ok (csr, after)) (hl : csr.length < 2 ^ 31) :
    ∃ subject attrs sig, subjectBytes t.rawSubject t.subject = .ok subject ∧
      (∃ exts, requestedExtensions env t = .ok exts ∧
        List.Forall₂ (fun a w => tyATVSET.make {} a = .ok w) (buildAttributes t.attributes exts).1 attrs) ∧
      Sm2.sign pri id (requestInfo subject (publicKeyInfo (4 :: (Spec.SM2.fe x ++ Spec.SM2.fe y))) attrs) tape = .ok sig ∧
      csr = signed (requestInfo subject (publicKeyInfo (4 :: (Spec.SM2.fe x ++ Spec.SM2.fe y))) attrs) sig := by
  obtain ⟨pk, exts, subj, attrs, tbs, sig, h1, h2, h3, h4, h5, h6, h7, h8⟩ := create_parts h
  obtain ⟨_, hx, hy⟩ := Sm2.coords_some hQ
  have hpk : pk = (4 :: (Spec.SM2.fe x ++ Spec.SM2.fe y), ⟨oidPublicKeyECDSA, { fullBytes := elem 0x06 [0x2a, 0x81, 0x1c, 0xcf, 0x55, 0x01, 0x82, 0x2d] }⟩) := by
    unfold marshalPublicKey at h1
    have e1 : marshal tyOID oidSM2P256V1 = .ok (elem 0x06 [0x2a, 0x81, 0x1c, 0xcf, 0x55, 0x01, 0x82, 0x2d]) := by decide +kernel
    rw [getUnCompressBytes_eq (lt_trans hx Sm2.p_lt) (lt_trans hy Sm2.p_lt), Res.ok_bind, e1] at h1
    simpa using h1.symm
  have htl : tbs.length < 2 ^ 31 := by
    obtain ⟨c', k1, k2, k3, _⟩ := struct_rt' h7 hl
    unfold withRaw at k1
    rw [if_neg (by simp)] at k1
    simp only [Res.bind_eq_ok, Res.ok.injEq] at k1
    obtain ⟨x1, g1, x2, g2, x3, g3, rfl⟩ := k1
    simp only [List.length_append] at k2
    exact struct_raw_small (raw := TbsCSR.raw) h5 rfl g1 (by omega)
  have hattrs := newRawAttributes_ok h4
  have hne : ∀ v ∈ attrs, v.fullBytes ≠ [] := by
    intro v hv
    clear * - hattrs hv
    generalize (buildAttributes t.attributes exts).1 = as at hattrs
    induction hattrs with
    | nil => simp at hv
    | cons g1 g2 ih =>
      rcases List.mem_cons.1 hv with rfl | hv
      · exact g1.2.2.2
      · exact ih hv
  have w : tbs = requestInfo subj (publicKeyInfo (4 :: (Spec.SM2.fe x ++ Spec.SM2.fe y))) (attrs.map RawValue.fullBytes) :=
    tbsCSR_wire (subjectBytes_ne h3) (fun e he hl => publicKeyInfo_wire hpk he hl) hne h5 htl
  have hc : tbs = elem 0x30 _ := w
  have hcl := (length_le_elem 0x30 _).trans_lt (lt_of_eq_of_lt (congrArg List.length hc.symm) htl)
  have := signed_csr_wire (tbs := tbsOf tbs subj pk attrs) hc (by omega) h7 hl
  refine ⟨subj, attrs.map RawValue.fullBytes, sig, h3, ⟨exts, h2, ?_⟩, w ▸ h6, w ▸ this⟩
  rw [List.forall₂_map_right_iff]
  exact hattrs.imp fun a v h => h.1

/-- **C128** A template without attributes of its own makes one attribute, the extensions that it asks for, or none. None of
the extensions is marked critical. -/
theorem C128_requested (env : Env U) (t : CertReq U) (x y : ℕ) (Q : Sm2.Pt) (pri : Sm2.PrivateKey) (id : Option Bytes) (tape : Sm2.Tape)
    (csr : Bytes) (after : List ATVSET) (hQ : coords Q = some (x, y)) (ha : t.attributes = []) (hx : ∀ e ∈ t.extraExtensions, OidInt e.id)
    (h : createCertificateRequest env t ⟨x, y⟩ pri id tape = .ok (csr, after)) (hl : csr.length < 2 ^ 31) :
    ∃ subject attrs sig exts es, subjectBytes t.rawSubject t.subject = .ok subject ∧ requestedExtensions env t = .ok exts ∧
      List.Forall₂ (fun (x : Extension) w => ∃ o, IsOidElem x.id o ∧ w = extension o false x.value) exts es ∧
      attrs = (if exts = [] then [] else [extensionRequest es]) ∧
      csr = signed (requestInfo subject (publicKeyInfo (4 :: (Spec.SM2.fe x ++ Spec.SM2.fe y))) attrs) sig := by
  obtain ⟨subj, attrs, sig, g1, ⟨exts, g2, g3⟩, g4, g5⟩ := C128_request env t x y Q pri id tape csr after hQ h hl
  rw [ha] at g3
  unfold buildAttributes at g3
  by_cases he : exts = []
  · subst he
    simp only [List.length_nil, gt_iff_lt, lt_irrefl, if_false] at g3
    cases g3
    exact ⟨subj, [], sig, [], [], g1, g2, .nil, rfl, g5⟩
  · have : exts.length > 0 := List.length_pos_iff.2 he
    rw [if_pos this] at g3
    have hf : (exts.filter fun e => e.id ∉ specifiedExtensions []) = exts := by
      rw [List.filter_eq_self]; intro a _; simp [specifiedExtensions]
    dsimp only at g3
    rw [hf] at g3
    simp only [appendToRequest, List.nil_append] at g3
    cases g3 with
    | cons k1 k2 =>
      cases k2
      rename_i w
      have hw : w.length < 2 ^ 31 := by
        rw [g5] at hl
        unfold signed requestInfo at hl
        have a1 := fun c => (length_le_elem 0x30 c)
        have a2 := length_le_elem 0xa0 w
        have b1 := (a1 _).trans_lt hl
        simp only [List.flatten_cons, List.flatten_nil, List.append_nil] at b1
        rw [List.append_assoc, List.length_append] at b1
        have b2 := a1 ([0x02, 0x01, 0x00] ++ subj ++ publicKeyInfo (4 :: (Spec.SM2.fe x ++ Spec.SM2.fe y)) ++ elem 0xa0 w)
        rw [List.length_append] at b2
        omega
      have fit : ∀ e ∈ exts, ∀ n ∈ subids e.id, n < 2 ^ 63 := by
        intro e hee
        rcases requestedExtensions_ok g2 with ⟨_, v, _, rfl⟩ | ⟨_, rfl⟩
        · rcases List.mem_cons.1 hee with rfl | hee
          · show ∀ n ∈ subids oidExtensionSubjectAltName, n < 2 ^ 63
            decide
          · exact hx e hee
        · exact hx e hee
      obtain ⟨es, m1, rfl⟩ := extensionRequest_wire fit k1 hw
      exact ⟨subj, _, sig, exts, es, g1, g2, m1, by rw [if_neg he], g5⟩

/-! ## Concrete cases -/

theorem exIssueTemplate_oids : (∀ e ∈ exIssueTemplate.extraExtensions, OidInt e.id) ∧ (∀ o ∈ exIssueTemplate.unknownExtKeyUsage, OidInt o) ∧
    (∀ o ∈ exIssueTemplate.policyIdentifiers, OidInt o) ∧ WritableTime exIssueTemplate.notBefore ∧ WritableTime exIssueTemplate.notAfter :=
  ⟨by decide, by decide, by decide, exIssueTemplate_good.notBefore, exIssueTemplate_good.notAfter⟩

/-- Its authority information access: `http`-less URIs "d" (OCSP) and "e" (issuer). -/
example : authorityInfoAccess exIssueTemplate.ocspServer exIssueTemplate.issuingCertificateURL =
    [0x30, 0x1e, 0x30, 0x0d, 0x06, 0x08, 0x2b, 0x06, 0x01, 0x05, 0x05, 0x07, 0x30, 0x01, 0x86, 0x01, 0x64,
      0x30, 0x0d, 0x06, 0x08, 0x2b, 0x06, 0x01, 0x05, 0x05, 0x07, 0x30, 0x02, 0x86, 0x01, 0x65] := by decide +kernel

/-- `a` occurs in `b`. -/
def occursIn (a b : Bytes) : Bool := b.tails.any fun l => a.isPrefixOf l

set_option maxRecDepth 100000 in
/-- C128 has instances: a certificate of that template is made; its serial number, validity (1 January 2019 to half past midnight of
1 January 2050, hence two forms), access descriptions and the key of the request are where the standard puts them. -/
example : exIssue exCsrTemplate (fun _ => exIssueTemplate) (fun csr tbs cert =>
    decide (tbs.raw = (cert.drop 4).take tbs.raw.length ∧ (tbs.raw.drop 4).take 8 = [0xa0, 3, 2, 1, 2, 2, 1, 5]) &&
    occursIn ([0x30, 0x20] ++ elem 0x17 (dd 19 ++ dd 1 ++ dd 1 ++ dd 0 ++ dd 0 ++ dd 0 ++ [0x5a]) ++
      elem 0x18 (dd 20 ++ dd 50 ++ dd 1 ++ dd 1 ++ dd 0 ++ dd 30 ++ dd 0 ++ [0x5a])) tbs.raw &&
    occursIn (elem 0x04 (authorityInfoAccess [[0x64]] [[0x65]])) tbs.raw && occursIn csr.rawSPKI tbs.raw) = true := by decide +kernel

set_option maxRecDepth 100000 in
/-- A request: both extensions are in one attribute, and the one that was critical is not any more. -/
example : exCsrTemplate.attributes = [] ∧ (∀ e ∈ exCsrTemplate.extraExtensions, OidInt e.id ∧ e.critical = true) ∧
    exCreate exCsrTemplate (fun r =>
      occursIn (elem 0xa0 (extensionRequest [extension (elem 0x06 [0x55, 29, 17]) false (generalNames [[0x62]] [] [] []),
        extension (elem 0x06 [42, 3]) false [5]])) r.1) = true := by decide +kernel

end Verif.Props
