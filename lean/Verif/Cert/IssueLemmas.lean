import Verif.Cert.CertRT
/-!
# Which extension sets which field: helper lemmas
-/
namespace Verif.Cert
open Verif Verif.Der Verif.Spec.DER

variable {U : Type}

/-- Everything that a certificate has from its extensions, grouped by the extension. -/
def X509Cert.constraints (c : X509Cert U) : (Bool × List Bytes × List Bytes × List IPNet × List IPNet) × List Bytes × List Bytes × List Bytes × List Bytes :=
  ((c.permittedDNSDomainsCritical, c.permittedDNSDomains, c.excludedDNSDomains, c.permittedIPRanges, c.excludedIPRanges),
    c.permittedEmailAddresses, c.excludedEmailAddresses, c.permittedURIDomains, c.excludedURIDomains)

/-- A group of fields `π` that only the extension `k` changes. -/
def Owns (env : Env U) (k : OID) {β : Type} (π : X509Cert U → β) : Prop :=
  (∀ out e o u, e.id ≠ k → parseExtension env out e = .ok (o, u) → π o = π out) ∧
  (∀ (out : X509Cert U) l, π { out with extensions := l } = π out) ∧
  (∀ (out : X509Cert U) l, π { out with unhandledCriticalExtensions := l } = π out)

/-- The branches of `parseExtension`. -/
theorem parseExtension_cases {env : Env U} {out o : X509Cert U} {e : Extension} {u : Bool} (h : parseExtension env out e = .ok (o, u)) :
    (e.id = oidExtensionKeyUsage ∧ ∃ x, o = { out with keyUsage := x }) ∨
    (e.id = oidExtensionBasicConstraints ∧ ∃ a b c d, o = { out with basicConstraintsValid := a, isCA := b, maxPathLen := c, maxPathLenZero := d }) ∨
    (e.id = oidExtensionSubjectAltName ∧ ∃ a b c d, o = { out with dnsNames := a, emailAddresses := b, ipAddresses := c, uris := d }) ∨
    (e.id = oidExtensionNameConstraints ∧ ∃ a b c d f g h i, o = { out with
      permittedDNSDomains := a, permittedIPRanges := b
      permittedEmailAddresses := c, permittedURIDomains := d
      excludedDNSDomains := f, excludedIPRanges := g
      excludedEmailAddresses := h, excludedURIDomains := i
      permittedDNSDomainsCritical := e.critical }) ∨
    (e.id = oidExtensionCRLDistributionPoints ∧ ∃ a, o = { out with crlDistributionPoints := a }) ∨
    (e.id = oidExtensionAuthorityKeyId ∧ ∃ a, o = { out with authorityKeyId := a }) ∨
    (e.id = oidExtensionExtendedKeyUsage ∧ ∃ a b, o = { out with extKeyUsage := a, unknownExtKeyUsage := b }) ∨
    (e.id = oidExtensionSubjectKeyId ∧ ∃ a, o = { out with subjectKeyId := a }) ∨
    (e.id = oidExtensionCertificatePolicies ∧ ∃ a, o = { out with policyIdentifiers := a }) ∨
    (e.id = oidExtensionAuthorityInfoAccess ∧ ∃ a b, o = { out with ocspServer := a, issuingCertificateURL := b }) ∨
    o = out := by
  unfold parseExtension at h
  rcases ite_ok h with ⟨hid, h⟩ | ⟨_, h⟩
  · rw [Res.bind_eq_ok] at h
    obtain ⟨_, _, h⟩ := h
    simp only [Res.ok.injEq, Prod.mk.injEq] at h
    exact .inl ⟨hid, _, h.1.symm⟩
  right
  rcases ite_ok h with ⟨hid, h⟩ | ⟨_, h⟩
  · rw [Res.bind_eq_ok] at h
    obtain ⟨_, _, h⟩ := h
    simp only [Res.ok.injEq, Prod.mk.injEq] at h
    exact .inl ⟨hid, _, _, _, _, h.1.symm⟩
  right
  rcases ite_ok h with ⟨hid, h⟩ | ⟨_, h⟩
  · rw [Res.bind_eq_ok] at h
    obtain ⟨_, _, h⟩ := h
    simp only [Res.ok.injEq, Prod.mk.injEq] at h
    exact .inl ⟨hid, _, _, _, _, h.1.symm⟩
  right
  rcases ite_ok h with ⟨hid, h⟩ | ⟨_, h⟩
  · rw [Res.bind_eq_ok] at h
    obtain ⟨_, _, h⟩ := h
    simp only [Res.ok.injEq, Prod.mk.injEq] at h
    exact .inl ⟨hid, _, _, _, _, _, _, _, _, h.1.symm⟩
  right
  rcases ite_ok h with ⟨hid, h⟩ | ⟨_, h⟩
  · rw [Res.bind_eq_ok] at h
    obtain ⟨_, _, h⟩ := h
    simp only [Res.ok.injEq, Prod.mk.injEq] at h
    exact .inl ⟨hid, _, h.1.symm⟩
  right
  rcases ite_ok h with ⟨hid, h⟩ | ⟨_, h⟩
  · rw [Res.bind_eq_ok] at h
    obtain ⟨_, _, h⟩ := h
    simp only [Res.ok.injEq, Prod.mk.injEq] at h
    exact .inl ⟨hid, _, h.1.symm⟩
  right
  rcases ite_ok h with ⟨hid, h⟩ | ⟨_, h⟩
  · rw [Res.bind_eq_ok] at h
    obtain ⟨_, _, h⟩ := h
    simp only [Res.ok.injEq, Prod.mk.injEq] at h
    exact .inl ⟨hid, _, _, h.1.symm⟩
  right
  rcases ite_ok h with ⟨hid, h⟩ | ⟨_, h⟩
  · rw [Res.bind_eq_ok] at h
    obtain ⟨_, _, h⟩ := h
    simp only [Res.ok.injEq, Prod.mk.injEq] at h
    exact .inl ⟨hid, _, h.1.symm⟩
  right
  rcases ite_ok h with ⟨hid, h⟩ | ⟨_, h⟩
  · rw [Res.bind_eq_ok] at h
    obtain ⟨_, _, h⟩ := h
    simp only [Res.ok.injEq, Prod.mk.injEq] at h
    exact .inl ⟨hid, _, h.1.symm⟩
  right
  rcases ite_ok h with ⟨hid, h⟩ | ⟨_, h⟩
  · rw [Res.bind_eq_ok] at h
    obtain ⟨_, _, h⟩ := h
    simp only [Res.ok.injEq, Prod.mk.injEq] at h
    exact .inl ⟨hid, _, _, h.1.symm⟩
  right
  simp only [Res.ok.injEq, Prod.mk.injEq] at h
  exact h.1.symm

/-- The certificate before and after one extension that is not the one meant. -/
macro "owns_tac" : tactic => `(tactic|
  (refine ⟨fun out e o u hne h => ?_, fun _ _ => rfl, fun _ _ => rfl⟩
   rcases parseExtension_cases h with h | h | h | h | h | h | h | h | h | h | h
   · obtain ⟨hid, _, ho⟩ := h; first | exact absurd hid hne | (subst ho; rfl)
   · obtain ⟨hid, _, _, _, _, ho⟩ := h; first | exact absurd hid hne | (subst ho; rfl)
   · obtain ⟨hid, _, _, _, _, ho⟩ := h; first | exact absurd hid hne | (subst ho; rfl)
   · obtain ⟨hid, _, _, _, _, _, _, _, _, ho⟩ := h; first | exact absurd hid hne | (subst ho; rfl)
   · obtain ⟨hid, _, ho⟩ := h; first | exact absurd hid hne | (subst ho; rfl)
   · obtain ⟨hid, _, ho⟩ := h; first | exact absurd hid hne | (subst ho; rfl)
   · obtain ⟨hid, _, _, ho⟩ := h; first | exact absurd hid hne | (subst ho; rfl)
   · obtain ⟨hid, _, ho⟩ := h; first | exact absurd hid hne | (subst ho; rfl)
   · obtain ⟨hid, _, ho⟩ := h; first | exact absurd hid hne | (subst ho; rfl)
   · obtain ⟨hid, _, _, ho⟩ := h; first | exact absurd hid hne | (subst ho; rfl)
   · rw [h]))

theorem owns_keyUsage (env : Env U) : Owns env oidExtensionKeyUsage X509Cert.keyUsage := by owns_tac
theorem owns_basic (env : Env U) : Owns env oidExtensionBasicConstraints
    (fun c => (c.basicConstraintsValid, c.isCA, c.maxPathLen, c.maxPathLenZero)) := by owns_tac
theorem owns_san (env : Env U) : Owns env oidExtensionSubjectAltName
    (fun c => (c.dnsNames, c.emailAddresses, c.ipAddresses, c.uris)) := by owns_tac
theorem owns_constraints (env : Env U) : Owns env oidExtensionNameConstraints X509Cert.constraints := by owns_tac
theorem owns_crl (env : Env U) : Owns env oidExtensionCRLDistributionPoints X509Cert.crlDistributionPoints := by owns_tac
theorem owns_akid (env : Env U) : Owns env oidExtensionAuthorityKeyId X509Cert.authorityKeyId := by owns_tac
theorem owns_eku (env : Env U) : Owns env oidExtensionExtendedKeyUsage (fun c => (c.extKeyUsage, c.unknownExtKeyUsage)) := by owns_tac
theorem owns_skid (env : Env U) : Owns env oidExtensionSubjectKeyId X509Cert.subjectKeyId := by owns_tac
theorem owns_policies (env : Env U) : Owns env oidExtensionCertificatePolicies X509Cert.policyIdentifiers := by owns_tac
theorem owns_aia (env : Env U) : Owns env oidExtensionAuthorityInfoAccess (fun c => (c.ocspServer, c.issuingCertificateURL)) := by owns_tac

theorem Owns.tail {env : Env U} {k : OID} {β : Type} {π : X509Cert U → β} (ho : Owns env k π) (c : Bool) (l : List OID) (o : X509Cert U) :
    π (if c = true then { o with unhandledCriticalExtensions := l } else o) = π o := by
  cases c
  · rfl
  · exact ho.2.2 o l

/-- Without the extension, the fields keep their value. -/
theorem Owns.keeps {env : Env U} {k : OID} {β : Type} {π : X509Cert U → β} (ho : Owns env k π) : ∀ (es : List Extension) (out o : X509Cert U),
    parseExtensions env es out = .ok o → (∀ e ∈ es, e.id ≠ k) → π o = π out := by
  intro es
  induction es with
  | nil => intro out o h _; simp only [parseExtensions, Res.ok.injEq] at h; rw [h]
  | cons e es ih =>
    intro out o h hne
    rw [parseExtensions, Res.bind_eq_ok] at h
    obtain ⟨⟨o1, u⟩, h1, h2⟩ := h
    rw [ih _ _ h2 fun e he => hne e (by simp [he])]
    have : π o1 = π out := (ho.1 _ _ _ _ (hne e (by simp)) h1).trans (ho.2.1 _ _)
    rw [← this]
    split
    · exact ho.2.2 _ _
    · rfl

/-- With the extension once, the fields are what it says. -/
theorem Owns.sets {env : Env U} {k : OID} {β : Type} {π : X509Cert U → β} (ho : Owns env k π) (e : Extension) (l2 : List Extension) :
    ∀ (l1 : List Extension) (out o : X509Cert U),
    parseExtensions env (l1 ++ e :: l2) out = .ok o → (∀ e ∈ l1, e.id ≠ k) → (∀ e ∈ l2, e.id ≠ k) →
    ∃ o1 o2 u, π o1 = π out ∧ parseExtension env o1 e = .ok (o2, u) ∧ π o = π o2 := by
  intro l1
  induction l1 with
  | nil =>
    intro out o h _ hne
    rw [List.nil_append, parseExtensions, Res.bind_eq_ok] at h
    obtain ⟨⟨o2, u⟩, h1, h2⟩ := h
    refine ⟨_, o2, u, ho.2.1 _ _, h1, ?_⟩
    rw [ho.keeps _ _ _ h2 hne]
    split
    · exact ho.2.2 _ _
    · rfl
  | cons f es ih =>
    intro out o h hne hne2
    rw [List.cons_append, parseExtensions, Res.bind_eq_ok] at h
    obtain ⟨⟨o1, u⟩, h1, h2⟩ := h
    obtain ⟨p1, p2, u', g1, g2, g3⟩ := ih _ _ h2 (fun e he => hne e (by simp [he])) hne2
    refine ⟨p1, p2, u', ?_, g2, g3⟩
    have : π o1 = π out := (ho.1 _ _ _ _ (hne f (by simp)) h1).trans (ho.2.1 _ _)
    rw [g1, ← this]
    split
    · exact ho.2.2 _ _
    · rfl

/-- If every extension by itself is accepted, all are. -/
theorem parseExtensions_ok (env : Env U) : ∀ (es : List Extension) (out : X509Cert U),
    (∀ e ∈ es, ∀ out, ∃ r, parseExtension env out e = .ok r) → ∃ o, parseExtensions env es out = .ok o := by
  intro es
  induction es with
  | nil => intro out _; exact ⟨out, rfl⟩
  | cons e es ih =>
    intro out h
    obtain ⟨r, hr⟩ := h e (by simp) { out with extensions := out.extensions ++ [e] }
    rw [parseExtensions, hr, Res.ok_bind]
    exact ih _ fun e he => h e (by simp [he])

/-! ## Sections -/

theorem makes_mem {ss : List Section} {gen : List Extension} (h : List.Forall₂ Section.Makes ss gen) :
    ∀ e ∈ gen, ∃ s ∈ ss, s.Makes e := by
  induction h with
  | nil => simp
  | cons h1 _ ih =>
    intro e he
    rcases List.mem_cons.1 he with rfl | he
    · exact ⟨_, by simp, h1⟩
    · obtain ⟨s, hs, h⟩ := ih e he; exact ⟨s, by simp [hs], h⟩

/-- The extension of a section is the only one with its identifier. -/
theorem makes_split {ss : List Section} {gen : List Extension} (h : List.Forall₂ Section.Makes ss gen) (hn : (ss.map Section.id).Nodup) :
    ∀ s ∈ ss, ∃ l1 e l2, gen = l1 ++ e :: l2 ∧ s.Makes e ∧ (∀ e ∈ l1, e.id ≠ s.id) ∧ (∀ e ∈ l2, e.id ≠ s.id) := by
  induction h with
  | nil => simp
  | @cons a b l1 l2 h1 h2 ih =>
    rw [List.map_cons, List.nodup_cons] at hn
    intro s hs
    rcases List.mem_cons.1 hs with rfl | hs
    · refine ⟨[], b, l2, rfl, h1, by simp, fun e he heq => ?_⟩
      obtain ⟨s', hs', hm⟩ := makes_mem h2 e he
      exact hn.1 (List.mem_map.2 ⟨s', hs', by rw [← hm.1, heq]⟩)
    · obtain ⟨m1, e, m2, rfl, g2, g3, g4⟩ := ih hn.2 s hs
      refine ⟨b :: m1, e, m2, rfl, g2, fun e he => ?_, g4⟩
      rcases List.mem_cons.1 he with rfl | he
      · rw [h1.1]
        intro heq
        exact hn.1 (List.mem_map.2 ⟨s, hs, heq.symm⟩)
      · exact g3 e he

theorem sections_nodup (env : Env U) (t : X509Cert U) (se : Bool) (akid : Bytes) : ((sectionsOf env t se akid).map Section.id).Nodup := by
  show ([oidExtensionKeyUsage, oidExtensionExtendedKeyUsage, oidExtensionBasicConstraints, oidExtensionSubjectKeyId, oidExtensionAuthorityKeyId,
    oidExtensionAuthorityInfoAccess, oidExtensionSubjectAltName, oidExtensionCertificatePolicies, oidExtensionNameConstraints,
    oidExtensionCRLDistributionPoints] : List OID).Nodup
  decide

/-- The fields of one section after parsing. -/
theorem section_field {env : Env U} {ss : List Section} {gen extra : List Extension} {s : Section} {β : Type} {π : X509Cert U → β} {out o : X509Cert U}
    (hm : List.Forall₂ Section.Makes (ss.filter (Section.used extra)) gen) (hn : (ss.map Section.id).Nodup) (hs : s ∈ ss)
    (ho : Owns env s.id π) (hp : parseExtensions env (gen ++ extra) out = .ok o) (hx : ∀ e ∈ extra, e.id ≠ s.id) :
    (s.cond = false → π o = π out) ∧
    (s.cond = true → ∃ e o1 o2 u, e ∈ gen ++ extra ∧ s.Makes e ∧ π o1 = π out ∧ parseExtension env o1 e = .ok (o2, u) ∧ π o = π o2) := by
  constructor
  · intro hc
    refine ho.keeps _ _ _ hp fun e he heq => ?_
    rcases List.mem_append.1 he with he | he
    · obtain ⟨s', hs', hm'⟩ := makes_mem hm e he
      rw [List.mem_filter] at hs'
      have : s' = s := List.inj_on_of_nodup_map hn hs'.1 hs (by rw [← hm'.1, heq])
      subst this
      have := hs'.2
      rw [Section.used, hc] at this
      simp at this
    · exact hx e he heq
  · intro hc
    have hu : s.used extra = true := by
      unfold Section.used oidInExtensions
      rw [hc]
      simpa using hx
    have hn' : ((ss.filter (Section.used extra)).map Section.id).Nodup := hn.sublist (List.Sublist.map _ List.filter_sublist)
    obtain ⟨l1, e, l2, rfl, h1, h2, h3⟩ := makes_split hm hn' s (List.mem_filter.2 ⟨hs, hu⟩)
    rw [List.append_assoc, List.cons_append] at hp
    obtain ⟨o1, o2, u, g1, g2, g3⟩ := ho.sets e (l2 ++ extra) l1 out o hp h2 (fun e he => by
      rcases List.mem_append.1 he with he | he
      · exact h3 e he
      · exact hx e he)
    exact ⟨e, o1, o2, u, by simp, h1, g1, g2, g3⟩

end Verif.Cert
