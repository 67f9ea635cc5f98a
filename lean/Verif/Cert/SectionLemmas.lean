import Verif.Cert.ExtLemmas
/-!
# The sections of `buildExtensions`: helper lemmas
-/
namespace Verif.Cert
open Verif Verif.Der

variable {U : Type}

/-- What one section of `buildExtensions` depends on. -/
structure Section where
  cond : Bool
  id : OID
  critical : Bool
  value : Res Bytes

/-- The ten sections, in the order of the code. -/
def sectionsOf (env : Env U) (t : X509Cert U) (subjectIsEmpty : Bool) (authorityKeyId : Bytes) : List Section := [
  ⟨t.keyUsage ≠ 0, oidExtensionKeyUsage, true, keyUsageValue t.keyUsage⟩,
  ⟨t.extKeyUsage.length > 0 ∨ t.unknownExtKeyUsage.length > 0, oidExtensionExtendedKeyUsage, false,
    extKeyUsageValue t.extKeyUsage t.unknownExtKeyUsage⟩,
  ⟨t.basicConstraintsValid, oidExtensionBasicConstraints, true, basicConstraintsValue t.isCA t.maxPathLen t.maxPathLenZero⟩,
  ⟨t.subjectKeyId.length > 0, oidExtensionSubjectKeyId, false, marshal tyBytes t.subjectKeyId⟩,
  ⟨authorityKeyId.length > 0, oidExtensionAuthorityKeyId, false, marshal tyAuthKeyId (some authorityKeyId)⟩,
  ⟨t.ocspServer.length > 0 ∨ t.issuingCertificateURL.length > 0, oidExtensionAuthorityInfoAccess, false,
    aiaValue t.ocspServer t.issuingCertificateURL⟩,
  ⟨hasSans t.dnsNames t.emailAddresses t.ipAddresses t.uris, oidExtensionSubjectAltName, subjectIsEmpty,
    marshalSANs env t.dnsNames t.emailAddresses t.ipAddresses t.uris⟩,
  ⟨t.policyIdentifiers.length > 0, oidExtensionCertificatePolicies, false,
    marshal (tySlice false tyPolicyInformation) t.policyIdentifiers⟩,
  ⟨hasConstraints t, oidExtensionNameConstraints, t.permittedDNSDomainsCritical, nameConstraintsValue env t⟩,
  ⟨t.crlDistributionPoints.length > 0, oidExtensionCRLDistributionPoints, false, crlValue t.crlDistributionPoints⟩]

/-- The section is used. -/
def Section.used (extra : List Extension) (s : Section) : Bool := s.cond && !oidInExtensions s.id extra

/-- The extension that a used section yields. -/
def Section.Makes (s : Section) (e : Extension) : Prop := e.id = s.id ∧ e.critical = s.critical ∧ s.value = .ok e.value

/-- The sections one after the other. -/
def runSections (extra : List Extension) : List Section → List Extension → Res (List Extension)
  | [], ret => .ok ret
  | s :: ss, ret => do
    let ret ← genExt extra s.cond s.id s.critical s.value ret
    runSections extra ss ret

theorem buildExtensions_sections (env : Env U) (t : X509Cert U) (se : Bool) (akid : Bytes) :
    buildExtensions env t se akid = (do
      let ret ← runSections t.extraExtensions (sectionsOf env t se akid) []
      .ok (ret ++ t.extraExtensions)) := by
  unfold buildExtensions sectionsOf
  simp only [runSections, bind_assoc, Res.ok_bind]

theorem genExt_used {extra : List Extension} {s : Section} {ret : List Extension} (h : s.used extra = true) (hr : ret.length < 10) :
    genExt extra s.cond s.id s.critical s.value ret = (do let v ← s.value; .ok (ret ++ [⟨s.id, s.critical, v⟩])) := by
  unfold genExt
  simp only [Section.used, Bool.and_eq_true, Bool.not_eq_true'] at h
  rw [if_pos h, if_neg (by omega)]

theorem genExt_unused {extra : List Extension} {s : Section} {ret : List Extension} (h : ¬ s.used extra = true) :
    genExt extra s.cond s.id s.critical s.value ret = .ok ret := by
  unfold genExt
  simp only [Section.used, Bool.and_eq_true, Bool.not_eq_true'] at h
  rw [if_neg h]

theorem runSections_iff (extra : List Extension) : ∀ (ss : List Section) (ret r : List Extension), ret.length + ss.length ≤ 10 →
    (runSections extra ss ret = .ok r ↔ ∃ gen, List.Forall₂ Section.Makes (ss.filter (Section.used extra)) gen ∧ r = ret ++ gen) := by
  intro ss
  induction ss with
  | nil => intro ret r _; simp [runSections, eq_comm]
  | cons s ss ih =>
    intro ret r hl
    rw [List.length_cons] at hl
    rw [runSections, List.filter_cons]
    by_cases h : s.used extra = true
    · rw [genExt_used h (by omega), if_pos h]
      cases hv : s.value with
      | ok v =>
        rw [Res.ok_bind, Res.ok_bind, ih _ _ (by simp; omega)]
        constructor
        · rintro ⟨gen, h1, rfl⟩
          exact ⟨⟨s.id, s.critical, v⟩ :: gen, .cons ⟨rfl, rfl, hv⟩ h1, by simp⟩
        · rintro ⟨gen, h1, rfl⟩
          cases h1 with
          | @cons _ e _ gen' h2 h3 =>
            obtain ⟨a, b, c⟩ := h2
            rw [hv] at c
            simp only [Res.ok.injEq] at c
            refine ⟨gen', h3, ?_⟩
            obtain ⟨x, y, z⟩ := e
            dsimp only at a b c
            rw [a, b, c]; simp
      | err m =>
        constructor
        · intro hh; simp [Res.err_bind] at hh
        · rintro ⟨gen, h1, _⟩
          cases h1 with | cons h2 _ => rw [Section.Makes, hv] at h2; simp at h2
      | panic =>
        constructor
        · intro hh; simp [Res.panic_bind] at hh
        · rintro ⟨gen, h1, _⟩
          cases h1 with | cons h2 _ => rw [Section.Makes, hv] at h2; simp at h2
      | loop =>
        constructor
        · intro hh; simp [Res.loop_bind] at hh
        · rintro ⟨gen, h1, _⟩
          cases h1 with | cons h2 _ => rw [Section.Makes, hv] at h2; simp at h2
    · rw [genExt_unused h, if_neg h, Res.ok_bind]
      exact ih _ _ (by omega)

/-- When the sections return. -/
theorem runSections_returned (extra : List Extension) : ∀ (ss : List Section) (ret : List Extension), ret.length + ss.length ≤ 10 →
    (∀ s ∈ ss, s.used extra = true → s.value.returned = true) → (runSections extra ss ret).returned = true := by
  intro ss
  induction ss with
  | nil => intro ret _ _; rfl
  | cons s ss ih =>
    intro ret hl hv
    rw [List.length_cons] at hl
    rw [List.forall_mem_cons] at hv
    rw [runSections]
    by_cases h : s.used extra = true
    · rw [genExt_used h (by omega)]
      refine returned_bind (returned_bind (hv.1 h) fun _ _ => rfl) fun r hr => ?_
      rw [Res.bind_eq_ok] at hr
      obtain ⟨v, _, hr⟩ := hr
      simp only [Res.ok.injEq] at hr
      subst hr
      exact ih _ (by simp; omega) hv.2
    · rw [genExt_unused h, Res.ok_bind]
      exact ih _ (by omega) hv.2

theorem buildExtensions_iff (env : Env U) (t : X509Cert U) (se : Bool) (akid : Bytes) (r : List Extension) :
    buildExtensions env t se akid = .ok r ↔
      ∃ gen, List.Forall₂ Section.Makes ((sectionsOf env t se akid).filter (Section.used t.extraExtensions)) gen ∧
        r = gen ++ t.extraExtensions := by
  rw [buildExtensions_sections, Res.bind_eq_ok]
  constructor
  · rintro ⟨ret, h1, h2⟩
    obtain ⟨gen, h3, rfl⟩ := (runSections_iff _ _ _ _ (by simp [sectionsOf])).1 h1
    simp only [Res.ok.injEq] at h2
    exact ⟨_, h3, by rw [← h2]⟩
  · rintro ⟨gen, h1, rfl⟩
    exact ⟨gen, (runSections_iff _ _ _ _ (by simp [sectionsOf])).2 ⟨gen, h1, by simp⟩, rfl⟩

end Verif.Cert
