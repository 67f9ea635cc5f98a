import Verif.Cert.CreateLemmas
import Verif.Props.CertSan
import Verif.Props.CertAccept
import Verif.Props.Sm2Keys
/-!
# Creating certificate requests: C59
-/
namespace Verif.Props
open Verif Verif.Der Verif.Cert Verif.Spec.DER Verif.Spec.Cert
open Verif.Spec.SM2 (coords Accepts)

variable {U : Type}

attribute [local irreducible] Spec.SM2.fe

/-! ## Attributes and extensions -/

/-- An extension as a request carries it: not critical. -/
def plain (e : Extension) : Extension := { e with critical := false }

/-- The extensions that the attributes of a template ask for: those in the first values of its extension requests
(RFC 2985 5.4.2, which allows for one value only). -/
def requestedBy (attributes : List ATVSET) : List Extension := attributes.flatMap ATVSET.exts

/-- The extensions to add: those whose identifiers no extension request of the template mentions. -/
def added (attributes : List ATVSET) (exts : List Extension) : List Extension :=
  exts.filter fun e => ∀ a ∈ attributes, a.type = oidExtensionRequest → ∀ l ∈ a.value, ∀ x ∈ l, x.type ≠ e.id

theorem mem_specified (attributes : List ATVSET) (o : OID) :
    o ∈ specifiedExtensions attributes ↔ ∃ a ∈ attributes, a.type = oidExtensionRequest ∧ ∃ l ∈ a.value, ∃ x ∈ l, x.type = o := by
  unfold specifiedExtensions
  simp only [List.mem_flatMap, List.mem_filter, List.mem_map, List.mem_flatten, decide_eq_true_eq]
  constructor
  · rintro ⟨a, ⟨h1, h2⟩, x, ⟨l, h3, h4⟩, h5⟩
    exact ⟨a, h1, h2, l, h3, x, h4, h5⟩
  · rintro ⟨a, h1, h2, l, h3, x, h4, h5⟩
    exact ⟨a, ⟨h1, h2⟩, x, ⟨l, h3, h4⟩, h5⟩

theorem added_eq (attributes : List ATVSET) (exts : List Extension) :
    exts.filter (fun e => e.id ∉ specifiedExtensions attributes) = added attributes exts := by
  unfold added
  congr 1
  funext e
  rw [decide_eq_decide, mem_specified]
  simp only [not_exists, not_and, ne_eq]

theorem atv_plain (e : Extension) : ATV.toExtension ⟨e.id, .octets e.value⟩ = plain e := rfl

theorem appendToRequest_exts {atvs : List ATV} : ∀ {as bs : List ATVSET}, appendToRequest atvs as = some bs →
    (requestedBy bs).Perm (requestedBy as ++ atvs.map ATV.toExtension) := by
  intro as
  induction as with
  | nil => intro bs h; simp [appendToRequest] at h
  | cons a as ih =>
    intro bs h
    have key : ∀ {cs}, appendToRequest atvs as = some cs → (requestedBy (a :: cs)).Perm (requestedBy (a :: as) ++ atvs.map ATV.toExtension) := by
      intro cs hc
      unfold requestedBy
      rw [List.flatMap_cons, List.flatMap_cons, List.append_assoc]
      exact (ih hc).append_left _
    obtain ⟨t, value⟩ := a
    unfold appendToRequest at h
    cases value with
    | nil =>
      simp only [Option.map_eq_some_iff] at h
      obtain ⟨cs, h1, rfl⟩ := h
      exact key h1
    | cons v vs =>
      dsimp only at h
      split at h
      · rename_i ht
        simp only [Option.some.injEq] at h
        subst h
        unfold requestedBy
        rw [List.flatMap_cons, List.flatMap_cons]
        have e1 : ATVSET.exts ⟨t, (v ++ atvs) :: vs⟩ = ATVSET.exts ⟨t, v :: vs⟩ ++ atvs.map ATV.toExtension := by
          unfold ATVSET.exts
          simp [ht]
        rw [e1, List.append_assoc, List.append_assoc]
        exact (List.perm_append_comm).append_left _
      · simp only [Option.map_eq_some_iff] at h
        obtain ⟨cs, h1, rfl⟩ := h
        exact key h1

theorem appendToRequest_mem {atvs : List ATV} : ∀ {as bs : List ATVSET}, appendToRequest atvs as = some bs →
    ∀ b ∈ bs, b ∈ as ∨ ∃ v vs, ⟨b.type, v :: vs⟩ ∈ as ∧ b.type = oidExtensionRequest ∧ b.value = (v ++ atvs) :: vs := by
  intro as
  induction as with
  | nil => intro bs h; simp [appendToRequest] at h
  | cons a as ih =>
    intro bs h b hb
    have key : ∀ {cs}, appendToRequest atvs as = some cs → b ∈ a :: cs → 
        b ∈ a :: as ∨ ∃ v vs, ⟨b.type, v :: vs⟩ ∈ a :: as ∧ b.type = oidExtensionRequest ∧ b.value = (v ++ atvs) :: vs := by
      intro cs hc hb
      rcases List.mem_cons.1 hb with rfl | hb
      · simp
      · rcases ih hc b hb with h | ⟨v, vs, h⟩
        · simp [h]
        · exact .inr ⟨v, vs, by simp [h.1], h.2⟩
    obtain ⟨t, value⟩ := a
    unfold appendToRequest at h
    cases value with
    | nil =>
      simp only [Option.map_eq_some_iff] at h
      obtain ⟨cs, h1, rfl⟩ := h
      exact key h1 hb
    | cons v vs =>
      dsimp only at h
      split at h
      · rename_i ht
        simp only [Option.some.injEq] at h
        subst h
        rcases List.mem_cons.1 hb with rfl | hb
        · exact .inr ⟨v, vs, by simp, ht, rfl⟩
        · simp [hb]
      · simp only [Option.map_eq_some_iff] at h
        obtain ⟨cs, h1, rfl⟩ := h
        exact key h1 hb

/-- The extensions in a created request: those of the template's attributes and those added, none critical. -/
theorem build_exts (attributes : List ATVSET) (exts : List Extension) :
    (requestedBy (buildAttributes attributes exts).1).Perm (requestedBy attributes ++ (added attributes exts).map plain) := by
  unfold buildAttributes
  dsimp only
  split
  · rw [added_eq]
    split
    · rename_i as h
      have := appendToRequest_exts h
      rw [List.map_map] at this
      exact this
    · dsimp only
      unfold requestedBy
      rw [List.flatMap_append]
      refine List.Perm.append_left _ ?_
      rw [List.flatMap_cons, List.flatMap_nil, List.append_nil]
      unfold ATVSET.exts
      rw [if_pos rfl]
      simp only [List.head?_cons, Option.getD_some, List.map_map]
      exact List.Perm.refl _
  · rename_i h
    have : exts = [] := by cases exts <;> simp_all
    subst this
    simp [added]

/-- The attributes that are not extension requests. -/
def others (attributes : List ATVSET) : List ATVSET := attributes.filter fun a => a.type ≠ oidExtensionRequest

theorem appendToRequest_others {atvs : List ATV} : ∀ {as bs : List ATVSET}, appendToRequest atvs as = some bs → others bs = others as := by
  intro as
  induction as with
  | nil => intro bs h; simp [appendToRequest] at h
  | cons a as ih =>
    intro bs h
    have key : ∀ {cs}, appendToRequest atvs as = some cs → others (a :: cs) = others (a :: as) := by
      intro cs hc
      unfold others at ih ⊢
      rw [List.filter_cons, List.filter_cons, ih hc]
    obtain ⟨t, value⟩ := a
    unfold appendToRequest at h
    cases value with
    | nil =>
      simp only [Option.map_eq_some_iff] at h
      obtain ⟨cs, h1, rfl⟩ := h
      exact key h1
    | cons v vs =>
      dsimp only at h
      split at h
      · rename_i ht
        simp only [Option.some.injEq] at h
        subst h
        simp [others, ht]
      · simp only [Option.map_eq_some_iff] at h
        obtain ⟨cs, h1, rfl⟩ := h
        exact key h1

theorem build_others (attributes : List ATVSET) (exts : List Extension) : others (buildAttributes attributes exts).1 = others attributes := by
  unfold buildAttributes
  dsimp only
  split
  · split
    · rename_i as h
      exact appendToRequest_others h
    · simp [others]
  · rfl

/-- The attributes of a created request are readable. -/
theorem build_ok {attributes : List ATVSET} {exts : List Extension} (ha : ∀ a ∈ attributes, a.Ok) (he : ∀ e ∈ exts, OIDFits e.id) :
    ∀ a ∈ (buildAttributes attributes exts).1, a.Ok := by
  have hn : ∀ x ∈ (exts.filter fun e => e.id ∉ specifiedExtensions attributes).map (fun e => (⟨e.id, .octets e.value⟩ : ATV)), x.IsExt := by
    intro x hx
    obtain ⟨e, h1, rfl⟩ := List.mem_map.1 hx
    exact ⟨he e (List.mem_filter.1 h1).1, _, rfl⟩
  have hr : OIDFits oidExtensionRequest := by unfold OIDFits; decide
  unfold buildAttributes
  dsimp only
  split
  · split
    · rename_i as h
      intro a hm
      rcases appendToRequest_mem h a hm with h1 | ⟨v, vs, h1, h2, h3⟩
      · exact ha a h1
      · have := ha _ h1
        refine ⟨this.1, fun _ x hx => ?_⟩
        rw [h3] at hx
        simp only [List.head?_cons, Option.getD_some, List.mem_append] at hx
        rcases hx with hx | hx
        · exact this.2 h2 x (by simpa using hx)
        · exact hn x hx
    · intro a hm
      rcases List.mem_append.1 hm with h1 | h1
      · exact ha a h1
      · rw [List.mem_singleton] at h1
        subst h1
        exact ⟨hr, fun _ x hx => hn x (by simpa using hx)⟩
  · exact ha

/-- Likewise the whole attributes. -/
theorem build_atvs {attributes : List ATVSET} {exts : List Extension} (ha : ∀ a ∈ attributes, OIDFits a.type ∧ ∀ l ∈ a.value, ∀ x ∈ l, ATVOk x)
    (he : ∀ e ∈ exts, OIDFits e.id) :
    ∀ a ∈ (buildAttributes attributes exts).1, OIDFits a.type ∧ ∀ l ∈ a.value, ∀ x ∈ l, ATVOk x := by
  have hn : ∀ x ∈ (exts.filter fun e => e.id ∉ specifiedExtensions attributes).map (fun e => (⟨e.id, .octets e.value⟩ : ATV)), ATVOk x := by
    intro x hx
    obtain ⟨e, h1, rfl⟩ := List.mem_map.1 hx
    exact ⟨he e (List.mem_filter.1 h1).1, trivial⟩
  have hr : OIDFits oidExtensionRequest := by unfold OIDFits; decide
  unfold buildAttributes
  dsimp only
  split
  · split
    · rename_i as h
      intro a hm
      rcases appendToRequest_mem h a hm with h1 | ⟨v, vs, h1, h2, h3⟩
      · exact ha a h1
      · have := ha _ h1
        refine ⟨this.1, fun l hl x hx => ?_⟩
        rw [h3] at hl
        rcases List.mem_cons.1 hl with rfl | hl
        · rcases List.mem_append.1 hx with hx | hx
          · exact this.2 v (by simp) x hx
          · exact hn x hx
        · exact this.2 l (by simp [hl]) x hx
    · intro a hm
      rcases List.mem_append.1 hm with h1 | h1
      · exact ha a h1
      · rw [List.mem_singleton] at h1
        subst h1
        refine ⟨hr, fun l hl x hx => ?_⟩
        rw [List.mem_singleton] at hl
        subst hl
        exact hn x hx
  · exact ha

/-! ## Subjects -/

theorem fits_name {o : OID} (h : o ∈ [oidCountry, oidOrganization, oidOrganizationalUnit, oidCommonName, oidSerialNumber, oidLocality,
    oidProvince, oidStreetAddress, oidPostalCode]) : OIDFits o := by
  have : ∀ o ∈ [oidCountry, oidOrganization, oidOrganizationalUnit, oidCommonName, oidSerialNumber, oidLocality,
    oidProvince, oidStreetAddress, oidPostalCode], ∀ n ∈ subids o, n < 2 ^ 31 := by decide
  exact this o h

theorem appendRDNs_ok {n : Name} {inp : RDNSequence} {values : List Bytes} {o : OID} (h : ∀ r ∈ inp, ∀ a ∈ r, ATVOk a) (ho : OIDFits o) :
    ∀ r ∈ n.appendRDNs inp values o, ∀ a ∈ r, ATVOk a := by
  unfold Name.appendRDNs
  split
  · exact h
  · intro r hr a ha
    rcases List.mem_append.1 hr with hr | hr
    · exact h r hr a ha
    · rw [List.mem_singleton] at hr
      subst hr
      obtain ⟨v, _, rfl⟩ := List.mem_map.1 ha
      exact ⟨ho, trivial⟩

theorem toRDNSequence_ok {n : Name} (h : ∀ a ∈ n.extraNames, ATVOk a) : ∀ r ∈ n.toRDNSequence, ∀ a ∈ r, ATVOk a := by
  unfold Name.toRDNSequence
  dsimp only
  intro r hr
  rcases List.mem_append.1 hr with hr | hr
  · have h7 := appendRDNs_ok (n := n) (values := n.postalCode) (appendRDNs_ok (n := n) (values := n.streetAddress)
      (appendRDNs_ok (n := n) (values := n.province) (appendRDNs_ok (n := n) (values := n.locality)
      (appendRDNs_ok (n := n) (values := n.organizationalUnit) (appendRDNs_ok (n := n) (values := n.organization)
      (appendRDNs_ok (n := n) (inp := []) (values := n.country) (by simp)
      (fits_name (o := oidCountry) (by simp))) (fits_name (o := oidOrganization) (by simp)))
      (fits_name (o := oidOrganizationalUnit) (by simp))) (fits_name (o := oidLocality) (by simp)))
      (fits_name (o := oidProvince) (by simp))) (fits_name (o := oidStreetAddress) (by simp)))
      (fits_name (o := oidPostalCode) (by simp))
    generalize n.appendRDNs _ n.postalCode oidPostalCode = base at h7 hr
    have h8 : ∀ r ∈ (if n.commonName.length > 0 then n.appendRDNs base [n.commonName] oidCommonName else base), ∀ a ∈ r, ATVOk a := by
      split
      · exact appendRDNs_ok h7 (fits_name (o := oidCommonName) (by simp))
      · exact h7
    generalize (if n.commonName.length > 0 then n.appendRDNs base [n.commonName] oidCommonName else base) = base' at h8 hr
    split at hr
    · exact appendRDNs_ok h8 (fits_name (o := oidSerialNumber) (by simp)) r hr
    · exact h8 r hr
  · obtain ⟨a, ha, rfl⟩ := List.mem_map.1 hr
    intro b hb
    rw [List.mem_singleton] at hb
    subst hb
    exact h b ha

/-- A name whose extra attributes survive is read back as the same sequence. -/
theorem subject_parses {n : Name} {b : Bytes} (h : ∀ a ∈ n.extraNames, ATVOk a) (hb : marshal tyRDNSequence n.toRDNSequence = .ok b)
    (hl : b.length < 2 ^ 31) : parseName b = .ok n.toRDNSequence := by
  unfold parseName
  rw [unmarshal_of (rdnSequence_rt (toRDNSequence_ok h)) hb hl]
  rfl

/-- The subject is in the request. -/
theorem subject_small {subj tbs : Bytes} {pk : Bytes × AlgId} {attrs : List RawValue} (ht : marshal tyTbsCSR (tbsOf [] subj pk attrs) = .ok tbs)
    (hl : tbs.length < 2 ^ 31) : subj.length < 2 ^ 31 := by
  by_cases hs : subj = []
  · subst hs; simp
  obtain ⟨c, h1, h2, _⟩ := struct_rt' ht hl
  unfold withRaw at h1
  rw [if_neg (by simp [tbsOf])] at h1
  simp only [Res.bind_eq_ok, Res.ok.injEq] at h1
  obtain ⟨x1, g1, x2, g2, x3, g3, x4, g4, rfl⟩ := h1
  have e : tyRaw.make {} (tbsOf [] subj pk attrs).subject = .ok subj := raw_make (v := { fullBytes := subj }) hs
  rw [e] at g2
  simp only [Res.ok.injEq] at g2
  subst g2
  simp only [List.length_append] at h2
  omega

theorem csrSans_ok (env : Env U) : ∀ (es : List Extension) (s : Sans U),
    (∀ e ∈ es, e.id = oidExtensionSubjectAltName → ∃ s, parseSANExtension env e.value = .ok s) → ∃ s', csrSans env es s = .ok s' := by
  intro es
  induction es with
  | nil => intro s _; exact ⟨s, rfl⟩
  | cons e es ih =>
    intro s h
    rw [csrSans]
    split
    · rename_i he
      obtain ⟨s1, h1⟩ := h e (by simp) he
      rw [h1, Res.ok_bind]
      exact ih s1 fun e he => h e (by simp [he])
    · exact ih s fun e he => h e (by simp [he])

theorem csrSans_none (env : Env U) : ∀ (es : List Extension) (s : Sans U),
    (∀ e ∈ es, e.id ≠ oidExtensionSubjectAltName) → csrSans env es s = .ok s := by
  intro es
  induction es with
  | nil => intro s _; rfl
  | cons e es ih =>
    intro s h
    rw [csrSans, if_neg (h e (by simp))]
    exact ih s fun e he => h e (by simp [he])

theorem rightAlign_bytes (b : Bytes) : BitString.rightAlign ⟨b, b.length * 8⟩ = b := by
  unfold BitString.rightAlign
  rw [if_pos (by simp)]

/-- The template asks for a subject alternative name extension and does not bring its own one. -/
def WantsSAN (t : CertReq U) : Prop :=
  (t.dnsNames ≠ [] ∨ t.emailAddresses ≠ [] ∨ t.ipAddresses ≠ [] ∨ t.uris ≠ []) ∧
    ∀ e ∈ t.extraExtensions, e.id ≠ oidExtensionSubjectAltName

theorem requestedExtensions_ok {env : Env U} {t : CertReq U} {exts : List Extension} (h : requestedExtensions env t = .ok exts) :
    (WantsSAN t ∧ ∃ v, marshalSANs env t.dnsNames t.emailAddresses t.ipAddresses t.uris = .ok v ∧
      exts = ⟨oidExtensionSubjectAltName, false, v⟩ :: t.extraExtensions) ∨ (¬ WantsSAN t ∧ exts = t.extraExtensions) := by
  have hc : ((t.dnsNames.length > 0 ∨ t.emailAddresses.length > 0 ∨ t.ipAddresses.length > 0 ∨ t.uris.length > 0) ∧
      oidInExtensions oidExtensionSubjectAltName t.extraExtensions = false) ↔ WantsSAN t := by
    unfold WantsSAN oidInExtensions
    simp [List.length_pos_iff]
  unfold requestedExtensions at h
  dsimp only at h
  rcases ite_ok h with ⟨h1, h⟩ | ⟨h1, h⟩
  · rw [Res.bind_eq_ok] at h
    obtain ⟨v, h2, h3⟩ := h
    rw [Res.ok_bind, Res.ok.injEq] at h3
    exact .inl ⟨hc.1 h1, v, h2, h3.symm⟩
  · rw [Res.ok_bind, Res.ok.injEq] at h
    exact .inr ⟨fun h' => h1 (hc.2 h'), h.symm⟩

/-- How a created request is parsed. -/
theorem created_parse {env : Env U} {t : CertReq U} {x y : ℕ} {Q : Sm2.Pt} {pri : Sm2.PrivateKey} {id : Option Bytes} {tape : Sm2.Tape}
    {csr : Bytes} {after : List ATVSET} (hQ : coords Q = some (x, y))
    (h : createCertificateRequest env t ⟨x, y⟩ pri id tape = .ok (csr, after)) (hl : csr.length < 2 ^ 31)
    (hraw : t.rawSubject ≠ [] → ∃ rdns, parseName t.rawSubject = .ok rdns) (hname : ∀ a ∈ t.subject.extraNames, ATVOk a)
    (hattr : ∀ a ∈ t.attributes, a.Ok) (hext : ∀ e ∈ t.extraExtensions, OIDFits e.id) :
    ∃ exts subj rdns attrs tbs sig epk, requestedExtensions env t = .ok exts ∧ subjectBytes t.rawSubject t.subject = .ok subj ∧
      parseName subj = .ok rdns ∧
      (t.rawSubject = [] → rdns = t.subject.toRDNSequence) ∧
      (∀ e ∈ exts, OIDFits e.id) ∧
      newRawAttributes (buildAttributes t.attributes exts).1 = .ok attrs ∧
      Sm2.sign pri id tbs tape = .ok sig ∧
      parseCertificateRequest env csr = (do
        let attributes ← parseRawAttributes attrs
        let sans ← csrSans env (requestedBy (buildAttributes t.attributes exts).1) {}
        .ok {
          raw := csr
          rawTBS := tbs
          rawSPKI := epk
          rawSubject := subj
          version := 0
          signature := sig
          publicKey := some ⟨x, y⟩
          subject := Name.fillFromRDNSequence {} rdns
          attributes := attributes
          extensions := requestedBy (buildAttributes t.attributes exts).1
          dnsNames := sans.dnsNames
          emailAddresses := sans.emailAddresses
          ipAddresses := sans.ipAddresses
          uris := sans.uris }) := by
  obtain ⟨pk, exts, subj, attrs, tbs, sig, h1, h2, h3, h4, h5, h6, h7, h8⟩ := create_parts h
  obtain ⟨_, hx, hy⟩ := Sm2.coords_some hQ
  obtain ⟨cc, c1, c2, rfl⟩ := marshalPublicKey_eq (getUnCompressBytes_eq (lt_trans hx Sm2.p_lt) (lt_trans hy Sm2.p_lt)) h1
  have htl : tbs.length < 2 ^ 31 := by
    obtain ⟨c', k1, k2, k3, _⟩ := struct_rt' h7 hl
    unfold withRaw at k1
    rw [if_neg (by simp)] at k1
    simp only [Res.bind_eq_ok, Res.ok.injEq] at k1
    obtain ⟨x1, g1, x2, g2, x3, g3, rfl⟩ := k1
    simp only [List.length_append] at k2
    exact struct_raw_small (raw := TbsCSR.raw) h5 rfl g1 (by omega)
  have hsub : ∃ rdns, parseName subj = .ok rdns ∧ (t.rawSubject = [] → rdns = t.subject.toRDNSequence) := by
    have hsl := subject_small h5 htl
    unfold subjectBytes at h3
    split at h3
    · rename_i hr
      simp only [Res.ok.injEq] at h3
      subst h3
      have hne : t.rawSubject ≠ [] := by rintro e; rw [e] at hr; simp at hr
      obtain ⟨rdns, hr⟩ := hraw hne
      exact ⟨rdns, hr, fun e => absurd e hne⟩
    · exact ⟨_, subject_parses hname h3 hsl, fun _ => rfl⟩
  obtain ⟨rdns, hs1, hs2⟩ := hsub
  have hrawok : RawOk subj := by
    obtain ⟨c, hc, rfl⟩ := parseName_ok hs1
    exact ⟨0, 16, true, c, by decide, by decide, hc, rfl⟩
  have hattrs := newRawAttributes_ok h4
  have hfull : ∀ v ∈ attrs, RawFull v := by
    clear h h5 h7 h4
    generalize (buildAttributes t.attributes exts).1 = as at hattrs
    induction hattrs with
    | nil => simp
    | cons g1 g2 ih =>
      intro v hv
      rcases List.mem_cons.1 hv with rfl | hv
      · exact g1.2.2
      · exact ih v hv
  have hfits : ∀ e ∈ exts, OIDFits e.id := by
    intro e he
    rcases requestedExtensions_ok h2 with ⟨_, v, _, rfl⟩ | ⟨_, rfl⟩
    · rcases List.mem_cons.1 he with rfl | he
      · show OIDFits oidExtensionSubjectAltName
        unfold OIDFits; decide
      · exact hext e he
    · exact hext e he
  obtain ⟨s, v, epk, r1, r2, r3⟩ := created_read hrawok c2 hfull h5 h7 hl
  refine ⟨exts, subj, rdns, attrs, tbs, sig, epk, h2, h3, hs1, hs2, hfits, h4, h6, ?_⟩
  unfold parseCertificateRequest
  rw [r3, Res.ok_bind]
  simp only [List.length_nil, ne_eq, not_true, if_false]
  unfold parseCSR
  dsimp only
  congr 1
  funext as
  rw [if_neg (by simp), if_neg (by simp)]
  have hpub : parsePublicKey ⟨epk, ⟨oidPublicKeyECDSA, v⟩, ⟨4 :: (Spec.SM2.fe x ++ Spec.SM2.fe y), (4 :: (Spec.SM2.fe x ++ Spec.SM2.fe y)).length * 8⟩⟩ = .ok ⟨x, y⟩ := by
    unfold parsePublicKey
    dsimp only
    have hu : unmarshal tyOID (elem 0x06 cc) = .ok (oidSM2P256V1, []) := by
      have := (parseField_iff (ty := tyOID) (p := {}) (bs := elem 0x06 cc) (rest := []) (v := oidSM2P256V1) rfl rfl rfl rfl (by decide)).2
        ⟨cc, c2, by simp; rfl, (parseObjectIdentifier_iff _ _).2 c1⟩
      exact this
    rw [r2, hu, Res.ok_bind]
    simp only [List.length_nil, ne_eq, not_true, if_false]
    rw [rightAlign_bytes, (Sm2.unmarshal_iff _ _).2 ⟨Q, x, y, hQ, rfl, rfl⟩]
  rw [hpub, Res.ok_bind, r1, hs1, Res.ok_bind, parseCSRExtensions_ok hattrs (build_ok hattr hfits), Res.ok_bind]
  congr 1
  funext sans
  rw [rightAlign_bytes]
  rfl

/-- Extension values that were written are short. -/
theorem extension_small {v : Extension} {e : Bytes} (h : tyExtension.make {} v = .ok e) (hl : e.length < 2 ^ 31) : v.value.length < 2 ^ 31 := by
  obtain ⟨c, h1, h2, _⟩ := struct_rt' h hl
  simp only [Res.bind_eq_ok, Res.ok.injEq] at h1
  obtain ⟨a, _, b, _, d, hd, rfl⟩ := h1
  simp only [List.length_append] at h2
  exact (bytes_make hd (by omega)).1

theorem exts_small {a : ATVSET} {e : Bytes} (ha : a.Ok) (h : tyATVSET.make {} a = .ok e) (hl : e.length < 2 ^ 31) :
    ∀ x ∈ a.exts, x.value.length < 2 ^ 31 := by
  obtain ⟨vs, _, h2⟩ := pkcs10_of ha.1 h hl
  intro x hx
  unfold ATVSET.exts at hx
  split at hx
  · rename_i ht
    have hx2 := ha.2 ht
    generalize a.value = value at *
    cases h2 with
    | nil => simp at hx
    | cons k1 k2 =>
      simp only [List.head?_cons, Option.getD_some] at hx hx2
      rw [slice_ext_make hx2] at k1
      obtain ⟨c, g1, g2, -⟩ := makeTagged_elem (p := {}) (tag := 16) (cmp := true) (z := false) (d := fun _ => false) rfl
        (omitted_mandatory rfl _ _) k1.1 k1.2
      obtain ⟨es, rfl, g4⟩ := makeElems_ok g1
      have hlen : ∀ e ∈ es, e.length < 2 ^ 31 := fun e he => by have := length_le_flatten he; omega
      clear g1 g2 k1
      generalize List.map ATV.toExtension _ = l at hx g4
      induction g4 with
      | nil => simp at hx
      | cons m1 m2 ih =>
        rcases List.mem_cons.1 hx with rfl | hx
        · exact extension_small m1 (hlen _ (by simp))
        · exact ih (fun e he => hlen e (by simp [he])) hx
  · simp at hx

theorem requestedBy_small {as : List ATVSET} {l : List RawValue} (h : newRawAttributes as = .ok l) (ha : ∀ a ∈ as, a.Ok) :
    ∀ x ∈ requestedBy as, x.value.length < 2 ^ 31 := by
  have := newRawAttributes_ok h
  clear h
  induction this with
  | nil => simp [requestedBy]
  | cons h1 h2 ih =>
    intro x hx
    unfold requestedBy at hx
    rw [List.flatMap_cons, List.mem_append] at hx
    rcases hx with hx | hx
    · exact exts_small (ha _ (by simp)) h1.1 h1.2.1 x hx
    · exact ih (fun a ha' => ha a (by simp [ha'])) x hx

/-- Every subject alternative name extension that the template brings along is readable. -/
def GoodSANs (env : Env U) (t : CertReq U) : Prop :=
  (∀ e ∈ requestedBy t.attributes ++ t.extraExtensions, e.id = oidExtensionSubjectAltName → ∃ s, parseSANExtension env e.value = .ok s) ∧
  (WantsSAN t → (∀ ip ∈ t.ipAddresses, ip.length = 4 ∨ ip.length = 16) ∧ ∀ u ∈ t.uris, GoodURI env u)

/-- C59: what `CreateCertificateRequest` makes is accepted by `ParseCertificateRequest`, for every matching key pair, user
id and nonces, and every template whose parts can be read one by one: a raw subject that is a name, extra attributes of
the subject that survive encoding, extension requests that hold octet strings, object identifiers with components below 2^31 and subject
alternative names in the form of the standard. The parsed request has the key, the subject and the extensions, and its
signature verifies. -/
theorem C59_created (env : Env U) (t : CertReq U) (d : ℕ) (pub : Sm2.PublicKey) (hd : ¬ Sm2.n ∣ d)
    (hpub : Sm2.calculatePubKey ⟨d⟩ = .ok pub) (id : Option Bytes) (tape : Sm2.Tape) (csr : Bytes) (after : List ATVSET)
    (h : createCertificateRequest env t pub ⟨d⟩ id tape = .ok (csr, after)) (hl : csr.length < 2 ^ 31)
    (hraw : t.rawSubject ≠ [] → ∃ rdns, parseName t.rawSubject = .ok rdns) (hname : ∀ a ∈ t.subject.extraNames, ATVOk a)
    (hattr : ∀ a ∈ t.attributes, a.Ok) (hext : ∀ e ∈ t.extraExtensions, OIDFits e.id) (hsan : GoodSANs env t) :
    ∃ r, parseCertificateRequest env csr = .ok r ∧ r.publicKey = some pub ∧ r.version = 0 ∧
      subjectBytes t.rawSubject t.subject = .ok r.rawSubject ∧
      (t.rawSubject = [] → r.subject = Name.fillFromRDNSequence {} t.subject.toRDNSequence) ∧
      ((∃ v, WantsSAN t ∧ marshalSANs env t.dnsNames t.emailAddresses t.ipAddresses t.uris = .ok v ∧
          r.extensions.Perm (requestedBy t.attributes ++
            (added t.attributes (⟨oidExtensionSubjectAltName, false, v⟩ :: t.extraExtensions)).map plain)) ∨
        (¬ WantsSAN t ∧ r.extensions.Perm (requestedBy t.attributes ++ (added t.attributes t.extraExtensions).map plain))) ∧
      ((∀ a ∈ t.attributes, ∀ l ∈ a.value, ∀ x ∈ l, ATVOk x) → others r.attributes = others t.attributes) ∧
      verifyCSRSign r id = .ok true ∧ verifyDERCSRSign env csr id = .ok true := by
  obtain ⟨x, y, hc, hx, hy⟩ := coords_dG hd
  have hp := pub_of_coords hpub hc
  subst hp
  obtain ⟨exts, subj, rdns, attrs, tbs, sig, epk, h1, h2, h3, h4, h5, h6, h7, h8⟩ :=
    created_parse hc h hl hraw hname hattr hext
  have hperm := build_exts t.attributes exts
  have hok := build_ok hattr h5
  have hsmall := requestedBy_small h6 hok
  have hsans : ∀ e ∈ requestedBy (buildAttributes t.attributes exts).1, e.id = oidExtensionSubjectAltName →
      ∃ s, parseSANExtension env e.value = .ok s := by
    intro e he hid
    have hs := hsmall e he
    have hm := hperm.mem_iff.1 he
    rcases List.mem_append.1 hm with hm | hm
    · exact hsan.1 e (List.mem_append.2 (.inl hm)) hid
    · obtain ⟨f, hf, rfl⟩ := List.mem_map.1 hm
      have hf' : f ∈ exts := (List.mem_filter.1 hf).1
      rcases requestedExtensions_ok h1 with ⟨hw, v, hv, rfl⟩ | ⟨hw, rfl⟩
      · rcases List.mem_cons.1 hf' with rfl | hf'
        · exact (C55_exact env _ _ _ _ _ hv hs).2 ⟨(hsan.2 hw).1, fun u hu => ⟨u, (hsan.2 hw).2 u hu⟩⟩
        · exact hsan.1 f (List.mem_append.2 (.inr hf')) hid
      · exact hsan.1 f (List.mem_append.2 (.inr hf')) hid
  obtain ⟨sans, hsans'⟩ := csrSans_ok env _ {} hsans
  obtain ⟨as, has⟩ := parseRawAttributes_ok attrs
  rw [has, Res.ok_bind, hsans', Res.ok_bind] at h8
  have hv : Sm2.verify ⟨x, y⟩ id tbs sig = .ok true := C35_der_verifies d _ hpub id tbs tape sig h7
  refine ⟨_, h8, rfl, rfl, h2, fun e => by rw [h4 e], ?_, ?_, hv, ?_⟩
  · dsimp only
    rcases requestedExtensions_ok h1 with ⟨hw, v, hv, rfl⟩ | ⟨hw, rfl⟩
    · exact .inl ⟨v, hw, hv, hperm⟩
    · exact .inr ⟨hw, hperm⟩
  · intro hatv
    dsimp only
    have hb := parseRawAttributes_of (newRawAttributes_ok h6) (build_atvs (fun a ha => ⟨(hattr a ha).1, hatv a ha⟩) h5)
    rw [has] at hb
    simp only [Res.ok.injEq] at hb
    rw [hb]
    exact build_others _ _
  · unfold verifyDERCSRSign
    rw [h8, Res.ok_bind]
    exact hv

theorem csrSans_one (env : Env U) (e : Extension) : ∀ (es : List Extension) (s : Sans U),
    es.filter (fun e => e.id = oidExtensionSubjectAltName) = [e] → csrSans env es s = parseSANExtension env e.value := by
  intro es
  induction es with
  | nil => intro s h; simp at h
  | cons f es ih =>
    intro s h
    rw [csrSans]
    rw [List.filter_cons] at h
    split at h
    · rename_i hf
      simp only [List.cons.injEq, decide_eq_true_eq] at h hf
      obtain ⟨rfl, h⟩ := h
      rw [if_pos hf]
      have : ∀ g ∈ es, g.id ≠ oidExtensionSubjectAltName := by
        intro g hg
        have := (List.filter_eq_nil_iff.1 h) g hg
        simpa using this
      cases hp : parseSANExtension env f.value with
      | ok s' => exact csrSans_none env es s' this
      | err m => rfl
      | panic => rfl
      | loop => rfl
    · rename_i hf
      simp only [decide_eq_true_eq] at hf
      rw [if_neg hf]
      exact ih s h

/-- C59: the names that a template asks for are in the parsed request, in the same order, unless it brings along its own
subject alternative name extension. IP addresses are in the form of the standard. -/
theorem C59_names (env : Env U) (t : CertReq U) (d : ℕ) (pub : Sm2.PublicKey) (hd : ¬ Sm2.n ∣ d)
    (hpub : Sm2.calculatePubKey ⟨d⟩ = .ok pub) (id : Option Bytes) (tape : Sm2.Tape) (csr : Bytes) (after : List ATVSET)
    (h : createCertificateRequest env t pub ⟨d⟩ id tape = .ok (csr, after)) (hl : csr.length < 2 ^ 31)
    (hraw : t.rawSubject ≠ [] → ∃ rdns, parseName t.rawSubject = .ok rdns) (hname : ∀ a ∈ t.subject.extraNames, ATVOk a)
    (hattr : ∀ a ∈ t.attributes, a.Ok) (hext : ∀ e ∈ t.extraExtensions, OIDFits e.id ∧ e.id ≠ oidExtensionSubjectAltName)
    (hspec : ∀ a ∈ t.attributes, a.type = oidExtensionRequest → ∀ l ∈ a.value, ∀ x ∈ l, x.type ≠ oidExtensionSubjectAltName)
    (hip : ∀ ip ∈ t.ipAddresses, ip.length = 4 ∨ ip.length = 16) (huri : ∀ u ∈ t.uris, GoodURI env u) :
    ∃ r, parseCertificateRequest env csr = .ok r ∧ r.dnsNames = t.dnsNames ∧ r.emailAddresses = t.emailAddresses ∧
      List.Forall₂ IsWireIP t.ipAddresses r.ipAddresses ∧ r.uris = t.uris := by
  obtain ⟨x, y, hc, hx, hy⟩ := coords_dG hd
  have hp := pub_of_coords hpub hc
  subst hp
  obtain ⟨exts, subj, rdns, attrs, tbs, sig, epk, h1, h2, h3, h4, h5, h6, h7, h8⟩ :=
    created_parse hc h hl hraw hname hattr (fun e he => (hext e he).1)
  have hperm := build_exts t.attributes exts
  have hok := build_ok hattr h5
  have hsmall := requestedBy_small h6 hok
  obtain ⟨as, has⟩ := parseRawAttributes_ok attrs
  rw [has, Res.ok_bind] at h8
  have hbase : ∀ e ∈ requestedBy t.attributes, e.id ≠ oidExtensionSubjectAltName := by
    intro e he
    obtain ⟨a, ha, he⟩ := List.mem_flatMap.1 he
    unfold ATVSET.exts at he
    split at he
    · rename_i ht
      obtain ⟨x, hx, rfl⟩ := List.mem_map.1 he
      cases hv : a.value with
      | nil => rw [hv] at hx; simp at hx
      | cons l ls =>
        rw [hv] at hx
        exact hspec a ha ht l (by rw [hv]; simp) x (by simpa using hx)
    · simp at he
  have hextra : ∀ e ∈ (added t.attributes t.extraExtensions).map plain, e.id ≠ oidExtensionSubjectAltName := by
    intro e he
    obtain ⟨f, hf, rfl⟩ := List.mem_map.1 he
    exact (hext f (List.mem_filter.1 hf).1).2
  rcases requestedExtensions_ok h1 with ⟨hw, v, hv, rfl⟩ | ⟨hw, rfl⟩
  · have hadd : added t.attributes (⟨oidExtensionSubjectAltName, false, v⟩ :: t.extraExtensions) =
        ⟨oidExtensionSubjectAltName, false, v⟩ :: added t.attributes t.extraExtensions := by
      unfold added
      rw [List.filter_cons, if_pos]
      simp only [decide_eq_true_eq]
      exact hspec
    rw [hadd] at hperm
    have hf := hperm.filter (fun e => e.id = oidExtensionSubjectAltName)
    have hone : (requestedBy t.attributes ++ List.map plain (⟨oidExtensionSubjectAltName, false, v⟩ :: added t.attributes t.extraExtensions)).filter
        (fun e => e.id = oidExtensionSubjectAltName) = [⟨oidExtensionSubjectAltName, false, v⟩] := by
      rw [List.filter_append, List.map_cons, List.filter_cons, if_pos (by rfl)]
      rw [List.filter_eq_nil_iff.2 (by simpa using hbase), List.filter_eq_nil_iff.2 (by simpa using hextra)]
      rfl
    rw [hone, List.perm_singleton] at hf
    rw [csrSans_one env _ _ {} hf] at h8
    have hvl : v.length < 2 ^ 31 := by
      have hm : (⟨oidExtensionSubjectAltName, false, v⟩ : Extension) ∈ requestedBy (buildAttributes t.attributes (⟨oidExtensionSubjectAltName, false, v⟩ :: t.extraExtensions)).1 := by
        have : (⟨oidExtensionSubjectAltName, false, v⟩ : Extension) ∈ [(⟨oidExtensionSubjectAltName, false, v⟩ : Extension)] := by simp
        rw [← hf] at this
        exact (List.mem_filter.1 this).1
      exact hsmall _ hm
    obtain ⟨s, k1, k2, k3, k4, k5⟩ := C55_roundtrip env _ _ _ _ v hv hvl hip huri
    rw [k1, Res.ok_bind] at h8
    exact ⟨_, h8, k2, k3, k4, k5⟩
  · rw [csrSans_none env _ {} (by
      intro e he
      rcases List.mem_append.1 (hperm.mem_iff.1 he) with h | h
      · exact hbase e h
      · exact hextra e h), Res.ok_bind] at h8
    have hempty : t.dnsNames = [] ∧ t.emailAddresses = [] ∧ t.ipAddresses = [] ∧ t.uris = [] := by
      have : ¬ (t.dnsNames ≠ [] ∨ t.emailAddresses ≠ [] ∨ t.ipAddresses ≠ [] ∨ t.uris ≠ []) :=
        fun h => hw ⟨h, fun e he => (hext e he).2⟩
      simpa [not_or] using this
    obtain ⟨e1, e2, e3, e4⟩ := hempty
    exact ⟨_, h8, e1.symm, e2.symm, by rw [e3]; exact .nil, e4.symm⟩

/-! ## Concrete cases -/

/-- Create a request with the private key 2 and the nonce 3 and look at what comes of it. -/
def exCreate (t : CertReq Bytes) (f : Bytes × List ATVSET → Bool) : Bool :=
  match Sm2.calculatePubKey ⟨2⟩ with
  | .ok pub =>
    match createCertificateRequest exEnv t pub ⟨2⟩ none [some (toBE 32 3)] with
    | .ok r => f r
    | _ => false
  | _ => false

/-- CN=a with the DNS name "b" and a critical extension. -/
def exCsrTemplate : CertReq Bytes :=
  { subject := { commonName := [0x61] }, dnsNames := [[0x62]], extraExtensions := [⟨[1, 2, 3], true, [5]⟩] }

set_option maxRecDepth 100000 in
example : exCreate exCsrTemplate (fun r =>
    match parseCertificateRequest exEnv r.1 with
    | .ok q => q.subject.commonName = [0x61] ∧ q.dnsNames = [[0x62]] ∧ q.extensions.map Extension.id = [[2, 5, 29, 17], [1, 2, 3]] ∧
        verifyCSRSign q none = .ok true
    | _ => false) = true := by decide +kernel

theorem exCreate_true {t : CertReq Bytes} {f : Bytes × List ATVSET → Bool} (h : exCreate t f = true) :
    ∃ pub csr after, Sm2.calculatePubKey ⟨2⟩ = .ok pub ∧ createCertificateRequest exEnv t pub ⟨2⟩ none [some (toBE 32 3)] = .ok (csr, after) ∧
      f (csr, after) = true := by
  unfold exCreate at h
  split at h
  · rename_i pub hp
    split at h
    · rename_i r hr
      exact ⟨pub, r.1, r.2, hp, hr, h⟩
    · cases h
  · cases h

/-- Whether there is an error. -/
def isErr {α : Type} : Res α → Bool
  | .err _ => true
  | _ => false

theorem err_of_isErr {α : Type} {r : Res α} (h : isErr r = true) : ∃ m, r = .err m := by
  cases r <;> simp_all [isErr]

/-- C59, what is wrong: requests are created that cannot be parsed: with a raw subject that is not a name. -/
theorem C59_subject_violated : ∃ (t : CertReq Bytes) (pub : Sm2.PublicKey) (csr : Bytes) (after : List ATVSET),
    Sm2.calculatePubKey ⟨2⟩ = .ok pub ∧ createCertificateRequest exEnv t pub ⟨2⟩ none [some (toBE 32 3)] = .ok (csr, after) ∧
      ∃ m, parseCertificateRequest exEnv csr = .err m := by
  obtain ⟨pub, csr, after, h1, h2, h3⟩ := exCreate_true (t := { rawSubject := [4, 0] })
    (f := fun r => isErr (parseCertificateRequest exEnv r.1))
    (by set_option maxRecDepth 100000 in decide +kernel)
  exact ⟨_, pub, csr, after, h1, h2, err_of_isErr h3⟩

/-- C59, what is wrong: with an extension request whose value is not an octet string. -/
theorem C59_attribute_violated : ∃ (t : CertReq Bytes) (pub : Sm2.PublicKey) (csr : Bytes) (after : List ATVSET),
    t.rawSubject = [] ∧
    Sm2.calculatePubKey ⟨2⟩ = .ok pub ∧ createCertificateRequest exEnv t pub ⟨2⟩ none [some (toBE 32 3)] = .ok (csr, after) ∧
      ∃ m, parseCertificateRequest exEnv csr = .err m := by
  obtain ⟨pub, csr, after, h1, h2, h3⟩ := exCreate_true (t := { attributes := [⟨oidExtensionRequest, [[⟨[1, 2, 3], .str [0x61]⟩]]⟩] })
    (f := fun r => isErr (parseCertificateRequest exEnv r.1))
    (by set_option maxRecDepth 100000 in decide +kernel)
  exact ⟨_, pub, csr, after, rfl, h1, h2, err_of_isErr h3⟩

/-- C59, what is wrong: with an IP address of five bytes. -/
theorem C59_address_violated : ∃ (t : CertReq Bytes) (pub : Sm2.PublicKey) (csr : Bytes) (after : List ATVSET),
    t.rawSubject = [] ∧ t.attributes = [] ∧ t.extraExtensions = [] ∧
    Sm2.calculatePubKey ⟨2⟩ = .ok pub ∧ createCertificateRequest exEnv t pub ⟨2⟩ none [some (toBE 32 3)] = .ok (csr, after) ∧
      ∃ m, parseCertificateRequest exEnv csr = .err m := by
  obtain ⟨pub, csr, after, h1, h2, h3⟩ := exCreate_true (t := { ipAddresses := [[1, 2, 3, 4, 5]] })
    (f := fun r => isErr (parseCertificateRequest exEnv r.1))
    (by set_option maxRecDepth 100000 in decide +kernel)
  exact ⟨_, pub, csr, after, rfl, rfl, rfl, h1, h2, err_of_isErr h3⟩

/-! ## C78: what creation does to the template -/

/-- C78, what holds: the template's attributes are left alone if there is nothing to add, or nothing to add it to. -/
theorem C78_unchanged_partial (env : Env U) (t : CertReq U) (pub : Sm2.PublicKey) (pri : Sm2.PrivateKey) (id : Option Bytes) (tape : Sm2.Tape)
    (csr : Bytes) (after : List ATVSET) (h : createCertificateRequest env t pub pri id tape = .ok (csr, after))
    (hs : (¬ WantsSAN t ∧ t.extraExtensions = []) ∨ ∀ a ∈ t.attributes, a.type = oidExtensionRequest → a.value = []) :
    after = t.attributes := by
  obtain ⟨pk, exts, subj, attrs, tbs, sig, _, h2, _, _, _, _, _, rfl⟩ := create_parts h
  unfold buildAttributes
  dsimp only
  split
  · rename_i hpos
    rcases hs with ⟨hw, he⟩ | hs
    · rcases requestedExtensions_ok h2 with ⟨hw', _⟩ | ⟨_, rfl⟩
      · exact absurd hw' hw
      · rw [he] at hpos; simp at hpos
    · have : ∀ atvs, appendToRequest atvs t.attributes = none := by
        intro atvs
        generalize t.attributes = as at hs
        induction as with
        | nil => rfl
        | cons a as ih =>
          obtain ⟨ty, value⟩ := a
          unfold appendToRequest
          have ih' := ih fun a ha => hs a (by simp [ha])
          cases value with
          | nil => dsimp only; rw [ih']; rfl
          | cons v vs =>
            dsimp only
            split
            · rename_i ht
              have := hs ⟨ty, v :: vs⟩ (by simp) ht
              simp at this
            · rw [ih']; rfl
      rw [this]
  · rfl

/-- C78, what holds: attributes that are not extension requests are left alone. -/
theorem C78_others_partial (env : Env U) (t : CertReq U) (pub : Sm2.PublicKey) (pri : Sm2.PrivateKey) (id : Option Bytes) (tape : Sm2.Tape)
    (csr : Bytes) (after : List ATVSET) (h : createCertificateRequest env t pub pri id tape = .ok (csr, after)) :
    others after = others t.attributes := by
  obtain ⟨pk, exts, subj, attrs, tbs, sig, _, h2, _, _, _, _, _, rfl⟩ := create_parts h
  unfold buildAttributes
  dsimp only
  split
  · split
    · rename_i as h
      exact appendToRequest_others h
    · rfl
  · rfl

/-- An extension request with one extension of its own. -/
def exRequest : CertReq Bytes :=
  { attributes := [⟨oidExtensionRequest, [[⟨[1, 2, 3], .octets [5]⟩]]⟩], dnsNames := [[0x62]] }

/-- C78, what is wrong: otherwise the new extensions are written into the caller's attributes. -/
theorem C78_changed_violated : ∃ (t : CertReq Bytes) (pub : Sm2.PublicKey) (csr : Bytes) (after : List ATVSET),
    Sm2.calculatePubKey ⟨2⟩ = .ok pub ∧ createCertificateRequest exEnv t pub ⟨2⟩ none [some (toBE 32 3)] = .ok (csr, after) ∧
      after ≠ t.attributes := by
  obtain ⟨pub, csr, after, h1, h2, h3⟩ := exCreate_true (t := exRequest) (f := fun r => decide (r.2 ≠ exRequest.attributes))
    (by set_option maxRecDepth 100000 in decide +kernel)
  exact ⟨_, pub, csr, after, h1, h2, by simpa using h3⟩

/-! ## C79: criticality -/

theorem exts_plain (a : ATVSET) : ∀ e ∈ a.exts, e.critical = false := by
  intro e he
  unfold ATVSET.exts at he
  split at he
  · obtain ⟨x, _, rfl⟩ := List.mem_map.1 he
    rfl
  · simp at he

/-- C79, what is wrong: no extension of a request is ever critical, whatever the template says. -/
theorem C79_lost_violated (env : Env U) (t : CertReq U) (d : ℕ) (pub : Sm2.PublicKey) (hd : ¬ Sm2.n ∣ d)
    (hpub : Sm2.calculatePubKey ⟨d⟩ = .ok pub) (id : Option Bytes) (tape : Sm2.Tape) (csr : Bytes) (after : List ATVSET)
    (h : createCertificateRequest env t pub ⟨d⟩ id tape = .ok (csr, after)) (hl : csr.length < 2 ^ 31)
    (hraw : t.rawSubject ≠ [] → ∃ rdns, parseName t.rawSubject = .ok rdns) (hname : ∀ a ∈ t.subject.extraNames, ATVOk a)
    (hattr : ∀ a ∈ t.attributes, a.Ok) (hext : ∀ e ∈ t.extraExtensions, OIDFits e.id) (r : CertReq U)
    (hr : parseCertificateRequest env csr = .ok r) : ∀ e ∈ r.extensions, e.critical = false := by
  obtain ⟨x, y, hc, hx, hy⟩ := coords_dG hd
  have hp := pub_of_coords hpub hc
  subst hp
  obtain ⟨exts, subj, rdns, attrs, tbs, sig, epk, h1, h2, h3, h4, h5, h6, h7, h8⟩ :=
    created_parse hc h hl hraw hname hattr hext
  rw [h8] at hr
  simp only [Res.bind_eq_ok, Res.ok.injEq] at hr
  obtain ⟨as, _, sans, _, rfl⟩ := hr
  intro e he
  obtain ⟨a, _, he⟩ := List.mem_flatMap.1 he
  exact exts_plain a e he

/-- The critical extension of the template above. -/
example : exCreate exCsrTemplate (fun r =>
    match parseCertificateRequest exEnv r.1 with
    | .ok q => decide (⟨[1, 2, 3], true, [5]⟩ ∈ exCsrTemplate.extraExtensions ∧ ⟨[1, 2, 3], false, [5]⟩ ∈ q.extensions)
    | _ => false) = true := by set_option maxRecDepth 100000 in decide +kernel

end Verif.Props
