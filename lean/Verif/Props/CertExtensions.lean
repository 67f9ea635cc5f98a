import Verif.Cert.MakeTotal
import Verif.Props.CertConstraints
import Verif.Props.CertUsage
import Verif.Props.CertAccept
/-!
# The extensions of a created certificate (C58), creation returns (C74)
-/
namespace Verif.Props
open Verif Verif.Der Verif.Cert

variable {U : Type}

/-- RFC 5280 extensions for a template: object identifier, whether critical, whether the template asks for it.
`subjectEmpty`: the subject is the empty name; `akid`: the authority key identifier. -/
def planOf (t : X509Cert U) (subjectEmpty : Bool) (akid : Bytes) : List (List Nat × Bool × Bool) := [
  ([2, 5, 29, 15], true, t.keyUsage != 0),
  ([2, 5, 29, 37], false, !(t.extKeyUsage.isEmpty && t.unknownExtKeyUsage.isEmpty)),
  ([2, 5, 29, 19], true, t.basicConstraintsValid),
  ([2, 5, 29, 14], false, !t.subjectKeyId.isEmpty),
  ([2, 5, 29, 35], false, !akid.isEmpty),
  ([1, 3, 6, 1, 5, 5, 7, 1, 1], false, !(t.ocspServer.isEmpty && t.issuingCertificateURL.isEmpty)),
  ([2, 5, 29, 17], subjectEmpty, !(t.dnsNames.isEmpty && t.emailAddresses.isEmpty && t.ipAddresses.isEmpty && t.uris.isEmpty)),
  ([2, 5, 29, 32], false, !t.policyIdentifiers.isEmpty),
  ([2, 5, 29, 30], t.permittedDNSDomainsCritical, !(t.permittedDNSDomains.isEmpty && t.excludedDNSDomains.isEmpty &&
    t.permittedIPRanges.isEmpty && t.excludedIPRanges.isEmpty && t.permittedEmailAddresses.isEmpty &&
    t.excludedEmailAddresses.isEmpty && t.permittedURIDomains.isEmpty && t.excludedURIDomains.isEmpty)),
  ([2, 5, 29, 31], false, !t.crlDistributionPoints.isEmpty)]

/-- The authority key identifier of RFC 5280 4.2.1.1: the issuer's subject key identifier, unless the certificate is
self-issued or the issuer has none; then the template's. -/
def akidOf (issuer subject : Bytes) (t parent : X509Cert U) : Bytes :=
  if issuer = subject ∨ parent.subjectKeyId = [] then t.authorityKeyId else parent.subjectKeyId

theorem decide_length_pos {α : Type} (l : List α) : decide (l.length > 0) = !l.isEmpty := by cases l <;> simp

theorem sectionsOf_plan (env : Env U) (t : X509Cert U) (se : Bool) (akid : Bytes) :
    (sectionsOf env t se akid).map (fun s => (s.id, s.critical, s.cond)) = planOf t se akid := by
  simp only [sectionsOf, planOf, List.map_cons, List.map_nil, hasSans, hasConstraints, decide_length_pos, Bool.decide_or,
    Bool.not_and, oidExtensionKeyUsage, oidExtensionExtendedKeyUsage, oidExtensionBasicConstraints, oidExtensionSubjectKeyId,
    oidExtensionAuthorityKeyId, oidExtensionAuthorityInfoAccess, oidExtensionSubjectAltName, oidExtensionCertificatePolicies,
    oidExtensionNameConstraints, oidExtensionCRLDistributionPoints]
  have : decide (t.keyUsage ≠ 0) = (t.keyUsage != 0) := by
    by_cases h : t.keyUsage = 0 <;> simp [h]
  rw [this]

theorem createCertificateInfo_ok {env : Env U} {t p : X509Cert U} {csr : CertReq U} {tbs : TbsCert}
    (h : createCertificateInfo env t p csr = .ok tbs) :
    ∃ (serial : Int) (exts : List Extension) (spki : PublicKeyInfo) (issuer subject raw : Bytes),
      t.serialNumber = some serial ∧
      subjectBytes p.rawSubject p.subject = .ok issuer ∧ subjectBytes t.rawSubject t.subject = .ok subject ∧
      buildExtensions env t (subject = emptyASN1Subject) (akidOf issuer subject t p) = .ok exts ∧
      unmarshal tyPublicKeyInfo csr.rawSPKI = .ok (spki, []) ∧
      marshal tyTbsCert { version := 2, serial := serial, sigAlg := sigAlgSM3WithSM2, issuer := { fullBytes := issuer }, validity := ⟨toUTC t.notBefore, toUTC t.notAfter⟩, subject := { fullBytes := subject }, publicKey := spki, extensions := some exts } = .ok raw ∧
      tbs = { raw := raw, version := 2, serial := serial, sigAlg := sigAlgSM3WithSM2, issuer := { fullBytes := issuer }, validity := ⟨toUTC t.notBefore, toUTC t.notAfter⟩, subject := { fullBytes := subject }, publicKey := spki, extensions := some exts } := by
  unfold createCertificateInfo at h
  cases hs : t.serialNumber with
  | none => rw [hs] at h; simp at h
  | some serial =>
    rw [hs] at h
    dsimp only at h
    rw [Res.bind_eq_ok] at h
    obtain ⟨issuer, h1, h⟩ := h
    rw [Res.bind_eq_ok] at h
    obtain ⟨subject, h2, h⟩ := h
    rw [Res.bind_eq_ok] at h
    obtain ⟨exts, h3, h⟩ := h
    rw [Res.bind_eq_ok] at h
    obtain ⟨⟨spki, rest⟩, h4, h⟩ := h
    dsimp only at h
    split at h
    · simp at h
    rename_i hr
    have hr : rest = [] := List.eq_nil_of_length_eq_zero (by simpa using hr)
    subst hr
    rw [Res.bind_eq_ok] at h
    obtain ⟨raw, h5, h⟩ := h
    simp only [Res.ok.injEq] at h
    have hak : (if issuer ≠ subject ∧ List.length p.subjectKeyId > 0 then p.subjectKeyId else t.authorityKeyId) = akidOf issuer subject t p := by
      unfold akidOf
      by_cases h1 : issuer = subject
      · simp [h1]
      · by_cases h2 : p.subjectKeyId = []
        · simp [h2]
        · have : 0 < List.length p.subjectKeyId := List.length_pos_iff.2 h2
          simp [h1, h2]
    rw [hak] at h3
    exact ⟨serial, exts, spki, issuer, subject, raw, rfl, h1, h2, h3, h4, h5, h.symm⟩

theorem forall₂_makes {ss : List Cert.Section} {gen : List Extension} (h : List.Forall₂ Section.Makes ss gen) :
    gen.map (fun e => (e.id, e.critical)) = ss.map (fun s => (s.id, s.critical)) := by
  induction h with
  | nil => rfl
  | cons a _ ih => rw [List.map_cons, List.map_cons, ih, a.1, a.2.1]

/-- C58: the extensions of a created certificate are those that the template asks for, in the order of the plan, without
those whose identifier occurs in `ExtraExtensions`; then `ExtraExtensions` as they are. -/
theorem C58_extensions (env : Env U) (t p : X509Cert U) (csr : CertReq U) (tbs : TbsCert)
    (h : createCertificateInfo env t p csr = .ok tbs) :
    ∃ gen, tbs.extensions = some (gen ++ t.extraExtensions) ∧
      gen.map (fun e => (e.id, e.critical)) =
        ((planOf t (tbs.subject.fullBytes = [0x30, 0]) (akidOf tbs.issuer.fullBytes tbs.subject.fullBytes t p)).filter fun x =>
          x.2.2 && decide (∀ e ∈ t.extraExtensions, e.id ≠ x.1)).map fun x => (x.1, x.2.1) := by
  obtain ⟨serial, exts, spki, issuer, subject, raw, _, _, _, h3, _, _, rfl⟩ := createCertificateInfo_ok h
  obtain ⟨gen, h4, rfl⟩ := (buildExtensions_iff _ _ _ _ _).1 h3
  refine ⟨gen, rfl, ?_⟩
  dsimp only
  rw [forall₂_makes h4, ← sectionsOf_plan env, List.filter_map, List.map_map]
  have hf : ((fun x : List Nat × Bool × Bool => x.2.2 && decide (∀ e ∈ t.extraExtensions, e.id ≠ x.1)) ∘
      fun s : Cert.Section => (s.id, s.critical, s.cond)) = Section.used t.extraExtensions := by
    funext s
    simp only [Function.comp_apply, Section.used, oidInExtensions]
    congr 1
    rw [Bool.eq_iff_iff]
    simp
  rw [hf]
  rfl

/-- C58, the property as stated: extras at the end, no generated extension has the identifier of an extra one, the generated
identifiers differ from each other, and there are at most ten. -/
theorem C58_override (env : Env U) (t p : X509Cert U) (csr : CertReq U) (tbs : TbsCert)
    (h : createCertificateInfo env t p csr = .ok tbs) :
    ∃ gen, tbs.extensions = some (gen ++ t.extraExtensions) ∧ gen.length ≤ 10 ∧ (gen.map Extension.id).Nodup ∧
      ∀ g ∈ gen, ∀ e ∈ t.extraExtensions, g.id ≠ e.id := by
  obtain ⟨gen, h1, h2⟩ := C58_extensions env t p csr tbs h
  refine ⟨gen, h1, ?_, ?_, ?_⟩
  · have := congrArg List.length h2
    rw [List.length_map, List.length_map] at this
    rw [this]
    exact (List.length_filter_le _ _).trans (by simp [planOf])
  · have h3 := congrArg (List.map Prod.fst) h2
    rw [List.map_map, List.map_map] at h3
    rw [show gen.map Extension.id = gen.map (Prod.fst ∘ fun e : Extension => (e.id, e.critical)) from rfl, h3]
    refine List.Nodup.sublist (List.Sublist.map _ List.filter_sublist) ?_
    simp [planOf]
  · intro g hg e he hge
    have : (g.id, g.critical) ∈ gen.map (fun e => (e.id, e.critical)) := List.mem_map_of_mem hg
    rw [h2, List.mem_map] at this
    obtain ⟨x, hx, hx'⟩ := this
    rw [List.mem_filter, Bool.and_eq_true, decide_eq_true_eq] at hx
    exact hx.2.2 e he (by rw [← hge]; exact (congrArg Prod.fst hx').symm)

/-- C74: creating the certificate information returns (perhaps an error) when all extended key usages are known. -/
theorem C74_info_returns (env : Env U) (t p : X509Cert U) (csr : CertReq U) (hu : ∀ u ∈ t.extKeyUsage, 0 ≤ u ∧ u < 14) :
    (createCertificateInfo env t p csr).returned = true := by
  unfold createCertificateInfo
  cases t.serialNumber with
  | none => rfl
  | some serial =>
    refine returned_bind (subjectBytes_returned _ _) fun _ _ => returned_bind (subjectBytes_returned _ _) fun _ _ =>
      returned_bind ?_ fun _ _ => returned_bind (parseField_returned total_pki _ _) fun r _ => returned_ite (fun _ => rfl)
        fun _ => returned_bind (mt_tbsCert _ _) fun _ _ => rfl
    rw [buildExtensions_sections]
    refine returned_bind (runSections_returned _ _ _ (by simp [sectionsOf]) ?_) fun _ _ => rfl
    have hek : (extKeyUsageValue t.extKeyUsage t.unknownExtKeyUsage).returned = true := by
      have hp : ¬ extKeyUsageValue t.extKeyUsage t.unknownExtKeyUsage = .panic := by
        rw [C54_panics_iff]
        rintro ⟨u, h1, h2⟩
        have := hu u h1
        omega
      have : ∀ us : List Int, extKeyUsageOidsOf us ≠ .loop := by
        intro us
        induction us with
        | nil => simp [extKeyUsageOidsOf]
        | cons u us ih =>
          rw [extKeyUsageOidsOf]
          cases oidFromExtKeyUsage u with
          | none => simp
          | some o =>
            dsimp only
            cases hh : extKeyUsageOidsOf us with
            | loop => exact absurd hh ih
            | ok _ => simp
            | err _ => simp
            | panic => simp
      unfold extKeyUsageValue at hp ⊢
      cases hh : extKeyUsageOidsOf t.extKeyUsage with
      | ok l => rw [Res.ok_bind]; exact mt_slice mt_oid _ _
      | err _ => rfl
      | panic => rw [hh] at hp; exact absurd rfl hp
      | loop => exact absurd hh (this _)
    have hnc : (nameConstraintsValue env t).returned = true := by
      rcases C56_create_returns env t with ⟨v, h⟩ | ⟨m, h⟩ <;> rw [h] <;> rfl
    intro s hs _
    have mt_marshal : ∀ {α : Type} {ty : Ty α}, MakeTotal ty → ∀ v, (marshal ty v).returned = true := fun h v => h _ v
    simp only [sectionsOf, List.mem_cons, List.not_mem_nil, or_false] at hs
    rcases hs with rfl | rfl | rfl | rfl | rfl | rfl | rfl | rfl | rfl | rfl
    · exact mt_marshal mt_bits _
    · exact hek
    · exact mt_marshal mt_basicConstraints _
    · exact mt_marshal mt_bytes _
    · exact mt_marshal mt_authKeyId _
    · exact mt_marshal (mt_slice mt_aia) _
    · exact mt_marshal (mt_slice mt_raw) _
    · exact mt_marshal (mt_slice mt_policy) _
    · exact hnc
    · exact mt_marshal (mt_slice mt_dp) _

/-- C74: putting information and signature together returns, whatever they are. -/
theorem C74_certificate_returns (tbs : TbsCert) (signature : Bytes) : (createCertificate tbs signature).returned = true :=
  mt_certificate _ _

/-- C74 is violated for an extended key usage that is not in the table: the whole process panics (gmx509.go:726). -/
theorem C74_usage_violated (env : Env U) (u : Int) (hu : u < 0 ∨ 14 ≤ u) :
    createCertificateInfo env { serialNumber := some 1, extKeyUsage := [u], rawSubject := [0x30, 0] } { rawSubject := [0x30, 0] } {} = .panic := by
  have h : extKeyUsageValue [u] [] = .panic := (C54_panics_iff _ _).2 ⟨u, by simp, hu⟩
  simp [createCertificateInfo, subjectBytes, buildExtensions, genExt, oidInExtensions, h]

/-- A template for the examples: it asks for six extensions and overrides the key usage. -/
def exTemplate : X509Cert Bytes := {
  serialNumber := some 5, rawSubject := [0x30, 0], notBefore := ⟨2019, 1, 1, 0, 0, 0, 0⟩, notAfter := ⟨2020, 1, 1, 0, 0, 0, 0⟩
  keyUsage := 3, extKeyUsage := [1], basicConstraintsValid := true, isCA := true, subjectKeyId := [1, 2], dnsNames := [[0x61]]
  crlDistributionPoints := [[0x62]], extraExtensions := [⟨[2, 5, 29, 15], false, [9]⟩, ⟨[1, 2, 3], true, []⟩] }

def exParent : X509Cert Bytes := { rawSubject := exSubject, subjectKeyId := [7] }

/-- C58 has instances: the key usage is not generated, the SAN is critical (empty subject), the parent's key identifier is
taken. -/
example : (match createCertificateInfo exEnv exTemplate exParent { rawSPKI := exGoodKey } with
    | .ok tbs => decide ((tbs.extensions.map fun l => l.map fun e => (e.id, e.critical)) = some [([2, 5, 29, 37], false), ([2, 5, 29, 19], true),
        ([2, 5, 29, 14], false), ([2, 5, 29, 35], false), ([2, 5, 29, 17], true), ([2, 5, 29, 31], false), ([2, 5, 29, 15], false), ([1, 2, 3], true)])
    | _ => false) = true := by decide +kernel

/-- C74 has instances. -/
example : ∀ u ∈ exTemplate.extKeyUsage, 0 ≤ u ∧ u < 14 := by decide

end Verif.Props
