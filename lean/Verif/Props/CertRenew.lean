import Verif.Props.CertFlow
import Verif.Props.CertUrl
import Verif.Cert.ReadLemmas
/-!
# Renewing a certificate (C129)
-/
namespace Verif.Props
open Verif Verif.Der Verif.Cert Verif.Spec.DER Verif.Spec.Cert Verif.Spec.Names

variable {U : Type}

/-! ## What a parsed certificate holds -/

/-- The fields that come from extensions, as parsing leaves them. -/
structure ReadFields (env : Env U) (o : X509Cert U) : Prop where
  keyUsage : 0 ≤ o.keyUsage ∧ o.keyUsage < 512
  unknownUsages : ∀ x ∈ o.unknownExtKeyUsage, OIDFits x ∧ ∀ n, (n, x) ∉ ekuTable
  maxPathLen : Int64Range o.maxPathLen
  zero : o.maxPathLenZero = decide (o.basicConstraintsValid = true ∧ o.maxPathLen = 0)
  none : o.basicConstraintsValid = false → o.isCA = false ∧ o.maxPathLen = 0
  ips : ∀ ip ∈ o.ipAddresses, ip.length = 4 ∨ ip.length = 16
  hosts : ∀ u ∈ o.uris, env.urlHost u = [] ∨ AcceptedDomain (env.urlHost u)
  policies : ∀ x ∈ o.policyIdentifiers, OIDFits x
  permittedNets : ∀ n ∈ o.permittedIPRanges, n.ip.length = n.mask.length ∧ (n.mask.length = 4 ∨ n.mask.length = 16)
  excludedNets : ∀ n ∈ o.excludedIPRanges, n.ip.length = n.mask.length ∧ (n.mask.length = 4 ∨ n.mask.length = 16)
  permitted : ValidConstraints env.isIP o.permittedDNSDomains o.permittedIPRanges o.permittedEmailAddresses o.permittedURIDomains
  excluded : ValidConstraints env.isIP o.excludedDNSDomains o.excludedIPRanges o.excludedEmailAddresses o.excludedURIDomains

theorem mem_valuesOf {t : Byte} {l : List Base} {v : Bytes} (h : v ∈ valuesOf t l) : (t, v) ∈ l := by
  unfold valuesOf at h
  obtain ⟨⟨t', v'⟩, h1, rfl⟩ := List.mem_map.1 h
  obtain ⟨h2, h3⟩ := List.mem_filter.1 h1
  simp only [decide_eq_true_eq] at h3
  subst h3
  exact h2

theorem parsed_net {isIP : Bytes → Bool} {l : List Base} (h : ∀ b ∈ l, ValidBase isIP b) {n : IPNet} (hn : n ∈ (subtreesOf l).ips) :
    (n.ip.length = n.mask.length ∧ (n.mask.length = 4 ∨ n.mask.length = 16)) ∧ Contiguous n.mask := by
  obtain ⟨v, hv, rfl⟩ := List.mem_map.1 (show n ∈ (valuesOf 0x87 l).map netOf from hn)
  obtain ⟨m, hm⟩ := (h _ (mem_valuesOf hv)).2.1 rfl
  rw [netOf_wire hm]
  exact ⟨by have := hm.2.1; omega, hm.2.2⟩

theorem parsed_constraints {isIP : Bytes → Bool} {l : List Base} (h : ∀ b ∈ l, ValidBase isIP b) :
    ValidConstraints isIP (subtreesOf l).dnsNames (subtreesOf l).ips (subtreesOf l).emails (subtreesOf l).uriDomains where
  ia5 := by
    intro s hs
    rcases List.mem_append.1 hs with hs | hs
    · rcases List.mem_append.1 hs with hs | hs
      · exact ((h _ (mem_valuesOf hs)).1 rfl).1
      · exact ((h _ (mem_valuesOf hs)).2.2.1 rfl).1
    · exact ((h _ (mem_valuesOf hs)).2.2.2 rfl).1
  dns := fun s hs => ((h _ (mem_valuesOf hs)).1 rfl).2
  ips := fun n hn => ⟨.inl (parsed_net h hn).1.1, (parsed_net h hn).2⟩
  emails := fun s hs => ((h _ (mem_valuesOf hs)).2.2.1 rfl).2
  uris := fun s hs => ((h _ (mem_valuesOf hs)).2.2.2 rfl).2

theorem parseExtension_read {env : Env U} {out o : X509Cert U} {e : Extension} {u : Bool} (hr : ReadFields env out)
    (h : parseExtension env out e = .ok (o, u)) : ReadFields env o := by
  unfold parseExtension at h
  rcases ite_ok h with ⟨_, h⟩ | ⟨_, h⟩
  · rw [Res.bind_eq_ok] at h
    obtain ⟨k, h1, h2⟩ := h
    simp only [Res.ok.injEq, Prod.mk.injEq] at h2
    obtain ⟨rfl, _⟩ := h2
    exact { hr with keyUsage := parseKeyUsage_bound h1 }
  rcases ite_ok h with ⟨_, h⟩ | ⟨_, h⟩
  · rw [Res.bind_eq_ok] at h
    obtain ⟨k, h1, h2⟩ := h
    simp only [Res.ok.injEq, Prod.mk.injEq] at h2
    obtain ⟨rfl, _⟩ := h2
    exact { hr with maxPathLen := parsed_bc_range h1, zero := by simp, none := by simp }
  rcases ite_ok h with ⟨_, h⟩ | ⟨_, h⟩
  · rw [Res.bind_eq_ok] at h
    obtain ⟨k, h1, h2⟩ := h
    simp only [Res.ok.injEq, Prod.mk.injEq] at h2
    obtain ⟨rfl, _⟩ := h2
    exact { hr with ips := (parseSAN_read h1).1, hosts := (parseSAN_read h1).2 }
  rcases ite_ok h with ⟨_, h⟩ | ⟨_, h⟩
  · rw [Res.bind_eq_ok] at h
    obtain ⟨⟨p, x⟩, h1, h2⟩ := h
    simp only [Res.ok.injEq, Prod.mk.injEq] at h2
    obtain ⟨rfl, _⟩ := h2
    obtain ⟨_, _, lp, lx, _, _, _, _, _, h3, rfl, rfl⟩ := (C56_parse _ _ _ _).1 h1
    have hp : ∀ b ∈ lp.map Prod.fst, ValidBase env.isIP b := by
      intro b hb
      obtain ⟨y, hy, rfl⟩ := List.mem_map.1 hb
      exact h3 y (List.mem_append_left _ hy)
    have hx : ∀ b ∈ lx.map Prod.fst, ValidBase env.isIP b := by
      intro b hb
      obtain ⟨y, hy, rfl⟩ := List.mem_map.1 hb
      exact h3 y (List.mem_append_right _ hy)
    exact { hr with
      permittedNets := fun n hn => (parsed_net hp hn).1, excludedNets := fun n hn => (parsed_net hx hn).1
      permitted := parsed_constraints hp, excluded := parsed_constraints hx }
  rcases ite_ok h with ⟨_, h⟩ | ⟨_, h⟩
  · rw [Res.bind_eq_ok] at h
    obtain ⟨k, h1, h2⟩ := h
    simp only [Res.ok.injEq, Prod.mk.injEq] at h2
    obtain ⟨rfl, _⟩ := h2
    exact { hr with }
  rcases ite_ok h with ⟨_, h⟩ | ⟨_, h⟩
  · rw [Res.bind_eq_ok] at h
    obtain ⟨k, h1, h2⟩ := h
    simp only [Res.ok.injEq, Prod.mk.injEq] at h2
    obtain ⟨rfl, _⟩ := h2
    exact { hr with }
  rcases ite_ok h with ⟨_, h⟩ | ⟨_, h⟩
  · rw [Res.bind_eq_ok] at h
    obtain ⟨k, h1, h2⟩ := h
    simp only [Res.ok.injEq, Prod.mk.injEq] at h2
    obtain ⟨rfl, _⟩ := h2
    refine { hr with unknownUsages := fun x hx => ?_ }
    rcases List.mem_append.1 hx with hx | hx
    · exact hr.unknownUsages x hx
    · rw [C54_split] at hx
      obtain ⟨hx1, hx2⟩ := List.mem_filter.1 hx
      simp only [decide_eq_true_eq] at hx2
      exact ⟨unmarshalAll_slice (fun _ _ _ => parsed_oid_fits) h1 x hx1, fun n hn => hx2 _ hn rfl⟩
  rcases ite_ok h with ⟨_, h⟩ | ⟨_, h⟩
  · rw [Res.bind_eq_ok] at h
    obtain ⟨k, h1, h2⟩ := h
    simp only [Res.ok.injEq, Prod.mk.injEq] at h2
    obtain ⟨rfl, _⟩ := h2
    exact { hr with }
  rcases ite_ok h with ⟨_, h⟩ | ⟨_, h⟩
  · rw [Res.bind_eq_ok] at h
    obtain ⟨k, h1, h2⟩ := h
    simp only [Res.ok.injEq, Prod.mk.injEq] at h2
    obtain ⟨rfl, _⟩ := h2
    exact { hr with policies := unmarshalAll_slice (fun _ _ _ => parsed_policy_fits) h1 }
  rcases ite_ok h with ⟨_, h⟩ | ⟨_, h⟩
  · rw [Res.bind_eq_ok] at h
    obtain ⟨k, h1, h2⟩ := h
    simp only [Res.ok.injEq, Prod.mk.injEq] at h2
    obtain ⟨rfl, _⟩ := h2
    exact { hr with }
  · simp only [Res.ok.injEq, Prod.mk.injEq] at h
    obtain ⟨rfl, _⟩ := h
    exact hr

theorem parseExtensions_read {env : Env U} : ∀ {es : List Extension} {out o : X509Cert U}, ReadFields env out →
    parseExtensions env es out = .ok o → ReadFields env o := by
  intro es
  induction es with
  | nil => intro out o hr h; simp only [parseExtensions, Res.ok.injEq] at h; subst h; exact hr
  | cons e es ih =>
    intro out o hr h
    rw [parseExtensions, Res.bind_eq_ok] at h
    obtain ⟨⟨o1, u⟩, h1, h2⟩ := h
    have hr1 : ReadFields env o1 := parseExtension_read (out := { out with extensions := out.extensions ++ [e] }) { hr with } h1
    refine ih ?_ h2
    split
    · exact { hr1 with }
    · exact hr1

theorem cert_read {env : Env U} {der : Bytes} {r : X509Cert U} (h : parseCertificate env der = .ok r) :
    ReadFields env r ∧ r.extraExtensions = [] ∧ r.subject.extraNames = [] ∧ r.issuer.extraNames = [] ∧
      (∃ rdns, parseName r.rawSubject = .ok rdns ∧ r.subject = Name.fillFromRDNSequence {} rdns) ∧
      ∃ rdns, parseName r.rawIssuer = .ok rdns ∧ r.issuer = Name.fillFromRDNSequence {} rdns := by
  unfold parseCertificate at h
  rw [Res.bind_eq_ok] at h
  obtain ⟨⟨inp, rest⟩, _, h2⟩ := h
  rcases ite_ok h2 with ⟨_, h2⟩ | ⟨hr, h2⟩
  · simp at h2
  unfold parseCert at h2
  rcases ite_ok h2 with ⟨_, h2⟩ | ⟨_, h2⟩
  · simp at h2
  rcases ite_ok h2 with ⟨_, h2⟩ | ⟨_, h2⟩
  · simp at h2
  simp only [Res.bind_eq_ok] at h2
  obtain ⟨pub, _, srdns, hs, irdns, hi, h2⟩ := h2
  obtain ⟨hc, _⟩ := parseExtensions_core env _ _ _ h2
  have hf : ReadFields env r := by
    refine parseExtensions_read ?_ h2
    constructor <;> first
      | (constructor <;> simp)
      | simp
  obtain ⟨raw, rawTBS, rawSPKI, rawSubject, rawIssuer, signature, publicKey, version, serialNumber, iss, sub, nb, na⟩ := r
  simp only [X509Cert.core, Prod.mk.injEq] at hc
  obtain ⟨rfl, rfl, rfl, rfl, rfl, rfl, rfl, rfl, rfl, rfl, rfl, rfl, rfl, rfl⟩ := hc
  exact ⟨hf, rfl, (C80_read srdns).2.2.2.2.2.2.2.2.2.2, (C80_read irdns).2.2.2.2.2.2.2.2.2.2, ⟨srdns, hs, rfl⟩, ⟨irdns, hi, rfl⟩⟩

/-! ## C129 -/

/-- The template for a new certificate in place of `r`: another serial number and another validity. -/
def renew (r : X509Cert U) (serial : Int) (notBefore notAfter : Time) : X509Cert U :=
  { r with serialNumber := some serial, notBefore := notBefore, notAfter := notAfter }

theorem renew_good {env : Env U} {der : Bytes} {r : X509Cert U} (h : parseCertificate env der = .ok r) {nb na : Time} (hb : WritableTime nb)
    (ha : WritableTime na) (huri : ∀ u ∈ r.uris, env.parseURL (env.urlString u) = some u) (serial : Int) :
    GoodTemplate env (renew r serial nb na) := by
  obtain ⟨hr, h1, h2, _, ⟨rdns, h3, _⟩, _⟩ := cert_read h
  exact {
    subject := ⟨fun _ => ⟨rdns, h3⟩, by show ∀ a ∈ r.subject.extraNames, ATVOk a; rw [h2]; simp⟩
    notBefore := hb
    notAfter := ha
    keyUsage := hr.keyUsage
    unknownUsages := hr.unknownUsages
    maxPathLen := hr.maxPathLen
    ips := hr.ips
    uris := fun u hu => ⟨huri u hu, hr.hosts u hu⟩
    policies := hr.policies
    permittedMasks := fun n hn => (hr.permittedNets n hn).2
    excludedMasks := fun n hn => (hr.excludedNets n hn).2
    permitted := hr.permitted
    excluded := hr.excluded
    extra := by show ∀ e ∈ r.extraExtensions, _; rw [h1]; simp }

/-- The range with its host bits cleared. -/
def clearHost (n : IPNet) : IPNet := ⟨List.zipWith (· &&& ·) n.ip n.mask, n.mask⟩

theorem netOf_clear {n m : IPNet} (hl : n.ip.length = n.mask.length) (h : NetOf n m) : m = clearHost n := by
  obtain ⟨hm, a, hs, ha, rfl⟩ := h
  have : a = n.ip := by
    unfold SameIP ip16 at hs
    rw [← hl] at ha
    rw [ha] at hs
    split at hs
    · exact (List.append_cancel_left hs).symm
    · exact hs.symm
  subst this
  rfl

theorem nets_clear : ∀ {l m : List IPNet}, (∀ n ∈ l, n.ip.length = n.mask.length) → List.Forall₂ NetOf l m → m = l.map clearHost
  | _, _, _, .nil => rfl
  | _, _, hl, .cons h t => by
    rw [List.map_cons, netOf_clear (hl _ (by simp)) h, nets_clear (fun n hn => hl n (List.mem_cons_of_mem _ hn)) t]

theorem parseName_nil (rdns : RDNSequence) : parseName [] ≠ .ok rdns := by
  intro h
  have : (match parseName [] with | .ok _ => false | _ => true) = true := by decide
  rw [h] at this
  cases this

/-- **C129** A parsed certificate, used as template with another serial number and validity, gives a certificate that can be read and
has the content of the old one: subject, key usages, basic constraints, key identifier, locations, alternative names, policies, name
constraints and distribution points. Addresses are in the form of the standard and the host bits of address ranges are
cleared. Serial number, validity and key are the new ones. -/
theorem C129_renewed (env : Env U) (old : Bytes) (r p : X509Cert U) (der : Bytes) (csr : CertReq U) (serial : Int) (nb na : Time)
    (tbs : TbsCert) (d : ℕ) (id : Option Bytes) (tape : Sm2.Tape) (cert : Bytes) (hr : parseCertificate env old = .ok r)
    (hb : WritableTime nb) (ha : WritableTime na) (huri : ∀ u ∈ r.uris, env.parseURL (env.urlString u) = some u)
    (hp : GoodSubject p.rawSubject p.subject) (hcsr : parseCertificateRequest env der = .ok csr)
    (h : createCertificateInfo env (renew r serial nb na) p csr = .ok tbs)
    (hi : issueCertificateBySoftCAKey tbs ⟨d⟩ id tape = .ok cert) (hl : cert.length < 2 ^ 31) :
    ∃ r', parseCertificate env cert = .ok r' ∧
      (r'.serialNumber = some serial ∧ SameInstant nb r'.notBefore ∧ SameInstant na r'.notAfter ∧ r'.publicKey = csr.publicKey ∧ r'.rawSPKI = csr.rawSPKI) ∧
      (r'.rawSubject = r.rawSubject ∧ r'.subject = r.subject) ∧
      (r'.keyUsage = r.keyUsage ∧ r'.extKeyUsage = r.extKeyUsage ∧ r'.unknownExtKeyUsage = r.unknownExtKeyUsage) ∧
      (r'.basicConstraintsValid = r.basicConstraintsValid ∧ r'.isCA = r.isCA ∧ r'.maxPathLen = r.maxPathLen ∧ r'.maxPathLenZero = r.maxPathLenZero) ∧
      (r'.subjectKeyId = r.subjectKeyId ∧ r'.authorityKeyId = akidOf r'.rawIssuer r.rawSubject r p) ∧
      (r'.ocspServer = r.ocspServer ∧ r'.issuingCertificateURL = r.issuingCertificateURL ∧ r'.crlDistributionPoints = r.crlDistributionPoints) ∧
      (r'.dnsNames = r.dnsNames ∧ r'.emailAddresses = r.emailAddresses ∧ List.Forall₂ IsWireIP r.ipAddresses r'.ipAddresses ∧ r'.uris = r.uris) ∧
      r'.policyIdentifiers = r.policyIdentifiers ∧
      (r'.permittedDNSDomains = r.permittedDNSDomains ∧ r'.excludedDNSDomains = r.excludedDNSDomains ∧
        r'.permittedIPRanges = r.permittedIPRanges.map clearHost ∧ r'.excludedIPRanges = r.excludedIPRanges.map clearHost ∧
        r'.permittedEmailAddresses = r.permittedEmailAddresses ∧ r'.excludedEmailAddresses = r.excludedEmailAddresses ∧
        r'.permittedURIDomains = r.permittedURIDomains ∧ r'.excludedURIDomains = r.excludedURIDomains ∧
        (SomeConstraint r → r'.permittedDNSDomainsCritical = r.permittedDNSDomainsCritical)) := by
  have hg := renew_good hr hb ha huri serial
  obtain ⟨hf, hx, _, _, ⟨rdns, hn, hsub⟩, _⟩ := cert_read hr
  obtain ⟨r', h1, _, _, _, s1, _, s2, _, _, s3, s4, s5, s6, _, _⟩ := C84_issued env _ p der csr tbs d id tape cert hg hp hcsr h hi hl
  obtain ⟨r2, g1, f1, f2, f3, f4, f5, f6, f7, f8, f9, f10⟩ := C84_fields env _ p der csr tbs d id tape cert hg hp hcsr h hi hl
  rw [h1] at g1
  simp only [Res.ok.injEq] at g1
  subst g1
  have hne : ∀ k, NotExtra (renew r serial nb na) k := by
    intro k e he
    rw [show (renew r serial nb na).extraExtensions = [] from hx] at he
    cases he
  have hraw : r'.rawSubject = r.rawSubject := by
    change subjectBytes r.rawSubject r.subject = .ok r'.rawSubject at s2
    unfold subjectBytes at s2
    have : r.rawSubject ≠ [] := by
      intro e
      rw [e] at hn
      exact parseName_nil _ hn
    rw [if_pos (List.length_pos_iff.2 this)] at s2
    simp only [Res.ok.injEq] at s2
    exact s2.symm
  have hsubj : r'.subject = r.subject := by
    obtain ⟨_, _, _, _, ⟨rdns', hn', hsub'⟩, _⟩ := cert_read h1
    rw [hraw, hn] at hn'
    simp only [Res.ok.injEq] at hn'
    rw [hsub, hsub', hn']
  obtain ⟨b1, b2, b3⟩ := f3 (hne _)
  obtain ⟨n1, n2, n3, n4, n5, n6, n7, n8, n9⟩ := f9 (hne _)
  obtain ⟨a1, a2, a3, a4⟩ := f7 (hne _)
  have f5 := f5 (hne _)
  rw [hraw] at f5
  refine ⟨r', h1, ⟨s1, s3, s4, s6, s5⟩, ⟨hraw, hsubj⟩, ⟨f1 (hne _), (f2 (hne _)).1, (f2 (hne _)).2⟩, ?_, ⟨f4 (hne _), f5⟩,
    ⟨(f6 (hne _)).1, (f6 (hne _)).2, f10 (hne _)⟩, ⟨a1, a2, a3, a4⟩, f8 (hne _),
    ⟨n1, n2, nets_clear (fun n hn => (hf.permittedNets n hn).1) n3, nets_clear (fun n hn => (hf.excludedNets n hn).1) n4, n5, n6, n7, n8, n9⟩⟩
  have hz := hf.zero
  have hnone := hf.none
  change r'.basicConstraintsValid = r.basicConstraintsValid at b1
  change r.basicConstraintsValid = true → r'.isCA = r.isCA ∧ r'.maxPathLen = (if r.maxPathLen = 0 ∧ r.maxPathLenZero = false then -1 else r.maxPathLen) ∧ _ at b2
  change r.basicConstraintsValid = false → _ at b3
  cases hv : r.basicConstraintsValid with
  | false =>
    obtain ⟨c1, c2, c3⟩ := b3 hv
    obtain ⟨e1, e2⟩ := hnone hv
    exact ⟨b1.trans hv, by rw [c1, e1], by rw [c2, e2], by rw [c3, hz, hv]; simp⟩
  | true =>
    obtain ⟨c1, c2, c3⟩ := b2 hv
    rw [hv] at hz
    simp only [true_and] at hz
    have c4 : r'.maxPathLen = r.maxPathLen := by
      rw [c2, if_neg]
      rintro ⟨h1, h2⟩
      rw [h1] at hz
      rw [hz] at h2
      simp at h2
    refine ⟨b1.trans hv, c1, c4, ?_⟩
    rw [hz, ← c4]
    by_cases hm : r'.maxPathLen = 0
    · rw [c3.2 hm]; simp [hm]
    · simp only [hm, decide_false]
      cases hq : r'.maxPathLenZero with
      | false => rfl
      | true => exact absurd (c3.1 hq) hm

/-- Addresses in the form of the standard, and ranges without host bits. -/
def Settled (r : X509Cert U) : Prop :=
  (∀ ip ∈ r.ipAddresses, IsWireIP ip ip) ∧ (∀ n ∈ r.permittedIPRanges, clearHost n = n) ∧ ∀ n ∈ r.excludedIPRanges, clearHost n = n

theorem wire_settled : ∀ {l m : List Bytes}, List.Forall₂ IsWireIP l m → (∀ ip ∈ m, IsWireIP ip ip) ∧ ((∀ ip ∈ l, IsWireIP ip ip) → m = l)
  | _, _, .nil => by simp
  | _, _, .cons (a := a) (b := b) h t => by
    obtain ⟨h1, h2⟩ := wire_settled t
    refine ⟨fun ip hip => ?_, fun hl => ?_⟩
    · rcases List.mem_cons.1 hip with rfl | hip
      · exact ⟨rfl, h.2⟩
      · exact h1 ip hip
    · rw [C55_wire_unique h (hl a (by simp)), h2 fun ip hip => hl ip (List.mem_cons_of_mem _ hip)]

theorem clear_twice (n : IPNet) : clearHost (clearHost n) = clearHost n := by
  obtain ⟨ip, mask⟩ := n
  unfold clearHost
  dsimp only
  congr 1
  induction ip generalizing mask with
  | nil => simp
  | cons a ip ih =>
    cases mask with
    | nil => simp
    | cons b mask =>
      simp only [List.zipWith_cons_cons, List.cons.injEq]
      exact ⟨by rw [BitVec.and_assoc, BitVec.and_self], ih mask⟩

theorem map_clear {l : List IPNet} (h : ∀ n ∈ l, clearHost n = n) : l.map clearHost = l := by
  conv => rhs; rw [← List.map_id l]
  exact List.map_congr_left h

/-- **C129** After one renewal addresses and ranges do not change any more either. -/
theorem C129_settled (env : Env U) (old : Bytes) (r p : X509Cert U) (der : Bytes) (csr : CertReq U) (serial : Int) (nb na : Time)
    (tbs : TbsCert) (d : ℕ) (id : Option Bytes) (tape : Sm2.Tape) (cert : Bytes) (hr : parseCertificate env old = .ok r)
    (hb : WritableTime nb) (ha : WritableTime na) (huri : ∀ u ∈ r.uris, env.parseURL (env.urlString u) = some u)
    (hp : GoodSubject p.rawSubject p.subject) (hcsr : parseCertificateRequest env der = .ok csr)
    (h : createCertificateInfo env (renew r serial nb na) p csr = .ok tbs)
    (hi : issueCertificateBySoftCAKey tbs ⟨d⟩ id tape = .ok cert) (hl : cert.length < 2 ^ 31) :
    ∃ r', parseCertificate env cert = .ok r' ∧ Settled r' ∧
      (Settled r → r'.ipAddresses = r.ipAddresses ∧ r'.permittedIPRanges = r.permittedIPRanges ∧ r'.excludedIPRanges = r.excludedIPRanges) := by
  obtain ⟨r', h1, _, _, _, _, _, _, ⟨_, _, a, _⟩, _, _, _, n1, n2, _⟩ :=
    C129_renewed env old r p der csr serial nb na tbs d id tape cert hr hb ha huri hp hcsr h hi hl
  refine ⟨r', h1, ⟨(wire_settled a).1, ?_, ?_⟩, fun hs => ⟨(wire_settled a).2 hs.1, ?_, ?_⟩⟩
  · rw [n1]
    intro n hn
    obtain ⟨m, _, rfl⟩ := List.mem_map.1 hn
    exact clear_twice m
  · rw [n2]
    intro n hn
    obtain ⟨m, _, rfl⟩ := List.mem_map.1 hn
    exact clear_twice m
  · rw [n1, map_clear hs.2.1]
  · rw [n2, map_clear hs.2.2]

theorem makes_unique {s : Cert.Section} {e e' : Extension} (h : s.Makes e) (h' : s.Makes e') : e = e' := by
  obtain ⟨h1, h2, h3⟩ := h
  obtain ⟨g1, g2, g3⟩ := h'
  rw [h3] at g3
  simp only [Res.ok.injEq] at g3
  cases e; cases e'
  simp_all

theorem allMakes_unique : ∀ {ss : List Cert.Section} {l l' : List Extension}, List.Forall₂ Section.Makes ss l → List.Forall₂ Section.Makes ss l' → l = l'
  | _, _, _, .nil, .nil => rfl
  | _, _, _, .cons h t, .cons h' t' => by rw [makes_unique h h', allMakes_unique t t']

theorem wire_written {l m : List Bytes} (h : List.Forall₂ IsWireIP l m) (hl : ∀ ip ∈ l, ip.length = 4 ∨ ip.length = 16) :
    m.map (fun ip => (7, (to4 ip).getD ip)) = l.map fun ip => ((7 : Nat), (to4 ip).getD ip) := by
  induction h with
  | nil => rfl
  | @cons a b _ _ h _ ih =>
    rw [List.map_cons, List.map_cons, ih fun ip hip => hl ip (List.mem_cons_of_mem _ hip)]
    have hb : b.length = 4 ∨ b.length = 16 := by rcases h.2 with h | h <;> omega
    rw [C55_wire_unique (isWireIP_to4 hb) ⟨rfl, h.2⟩, C55_wire_unique h (isWireIP_to4 (hl a (by simp)))]

theorem ipAndMask_clear {n : IPNet} (h : n.ip.length = n.mask.length) : ipAndMask (clearHost n) = ipAndMask n := by
  have hl : (clearHost n).ip.length = n.mask.length := by simp [clearHost, h]
  have h1 : ipAndMask (clearHost n) = (clearHost (clearHost n)).ip ++ n.mask := by
    unfold ipAndMask ipMask
    rw [show (clearHost n).mask = n.mask from rfl]
    dsimp only
    rw [if_neg (c := n.mask.length = 16 ∧ _) (by omega), if_neg (c := n.mask.length = 4 ∧ _) (by omega), if_neg (by omega)]
    rfl
  have h2 : ipAndMask n = (clearHost n).ip ++ n.mask := by
    unfold ipAndMask ipMask
    dsimp only
    rw [if_neg (c := n.mask.length = 16 ∧ _) (by omega), if_neg (c := n.mask.length = 4 ∧ _) (by omega), if_neg (by omega)]
    rfl
  rw [h1, h2, clear_twice]

theorem nets_written {l : List IPNet} (h : ∀ n ∈ l, n.ip.length = n.mask.length) :     (l.map clearHost).map (fun v => ((7 : CB.Tag), ipAndMask v)) = l.map fun v => ((7 : CB.Tag), ipAndMask v) := by
  rw [List.map_map]
  exact List.map_congr_left fun n hn => by rw [Function.comp, ipAndMask_clear (h n hn)]

/-- **C129** A renewed certificate that is renewed once more by the same CA has the same extensions, octet for octet. -/
theorem C129_extensions (env : Env U) (old : Bytes) (r r' p : X509Cert U) (der : Bytes) (csr csr' : CertReq U) (serial serial' : Int) (nb na nb' na' : Time)
    (tbs tbs' : TbsCert) (d : ℕ) (id : Option Bytes) (tape : Sm2.Tape) (cert : Bytes) (hr : parseCertificate env old = .ok r)
    (hb : WritableTime nb) (ha : WritableTime na) (huri : ∀ u ∈ r.uris, env.parseURL (env.urlString u) = some u)
    (hp : GoodSubject p.rawSubject p.subject) (hcsr : parseCertificateRequest env der = .ok csr)
    (h : createCertificateInfo env (renew r serial nb na) p csr = .ok tbs)
    (hi : issueCertificateBySoftCAKey tbs ⟨d⟩ id tape = .ok cert) (hl : cert.length < 2 ^ 31)
    (hr' : parseCertificate env cert = .ok r') (h' : createCertificateInfo env (renew r' serial' nb' na') p csr' = .ok tbs') :
    tbs'.extensions = some r'.extensions := by
  have hg := renew_good hr hb ha huri serial
  obtain ⟨r2, k1, _, _, _, _, ki, _, _, _, _, _, _, _, k2, _⟩ := C84_issued env _ p der csr tbs d id tape cert hg hp hcsr h hi hl
  rw [hr'] at k1
  simp only [Res.ok.injEq] at k1
  subst k1
  obtain ⟨r2, k1, _, ⟨s1, s2⟩, ⟨u1, u2, u3⟩, ⟨b1, b2, b3, b4⟩, ⟨i1, i2⟩, ⟨l1, l2, l3⟩, ⟨a1, a2, a3, a4⟩, po, n1, n2, n3, n4, n5, n6, n7, n8, n9⟩ :=
    C129_renewed env old r p der csr serial nb na tbs d id tape cert hr hb ha huri hp hcsr h hi hl
  rw [hr'] at k1
  simp only [Res.ok.injEq] at k1
  subst k1
  rw [← k2]
  obtain ⟨hf, hx, _⟩ := cert_read hr
  obtain ⟨_, hx', _⟩ := cert_read hr'
  obtain ⟨_, exts, _, issuer, subject, _, _, e2, e3, e4, _, _, rfl⟩ := createCertificateInfo_ok h
  obtain ⟨_, exts', _, issuer', subject', _, _, g2, g3, g4, _, _, rfl⟩ := createCertificateInfo_ok h'
  rw [e2] at g2
  simp only [Res.ok.injEq] at g2
  subst g2
  rw [e2] at ki
  simp only [Res.ok.injEq] at ki
  have hs : subject' = subject := by
    change subjectBytes r'.rawSubject r'.subject = .ok subject' at g3
    change subjectBytes r.rawSubject r.subject = .ok subject at e3
    rw [s1, s2, e3] at g3
    simp only [Res.ok.injEq] at g3
    exact g3.symm
  subst hs
  have hsr : r.rawSubject = subject' := by
    change subjectBytes r.rawSubject r.subject = .ok subject' at e3
    unfold subjectBytes at e3
    obtain ⟨_, _, _, _, ⟨rdns, hn, _⟩, _⟩ := cert_read hr
    have : r.rawSubject ≠ [] := by
      intro e
      rw [e] at hn
      exact parseName_nil _ hn
    rw [if_pos (List.length_pos_iff.2 this)] at e3
    simp only [Res.ok.injEq] at e3
    exact e3
  have hak : akidOf issuer subject' (renew r' serial' nb' na') p = akidOf issuer subject' (renew r serial nb na) p := by
    rw [← ki, hsr] at i2
    unfold akidOf at *
    show (if _ then r'.authorityKeyId else p.subjectKeyId) = if _ then r.authorityKeyId else p.subjectKeyId
    rw [i2]
    split <;> rfl
  obtain ⟨gen, m1, rfl⟩ := (buildExtensions_iff _ _ _ _ _).1 e4
  obtain ⟨gen', m2, rfl⟩ := (buildExtensions_iff _ _ _ _ _).1 g4
  rw [show (renew r serial nb na).extraExtensions = [] from hx] at *
  rw [show (renew r' serial' nb' na').extraExtensions = [] from hx'] at *
  rw [hak] at m2
  generalize akidOf issuer subject' (renew r serial nb na) p = akid at m1 m2
  have hsan : marshalSANs env r'.dnsNames r'.emailAddresses r'.ipAddresses r'.uris = marshalSANs env r.dnsNames r.emailAddresses r.ipAddresses r.uris := by
    rw [marshalSANs_ok, marshalSANs_ok]
    unfold sanItems
    rw [a1, a2, a4, wire_written a3 hf.ips]
  have hips : r'.ipAddresses.length = r.ipAddresses.length := a3.length_eq.symm
  have hnc : nameConstraintsValue env (renew r' serial' nb' na') = nameConstraintsValue env (renew r serial nb na) := by
    unfold nameConstraintsValue
    show (do
      let permitted ← serialiseConstraints env r'.permittedDNSDomains r'.permittedIPRanges r'.permittedEmailAddresses r'.permittedURIDomains
      let excluded ← serialiseConstraints env r'.excludedDNSDomains r'.excludedIPRanges r'.excludedEmailAddresses r'.excludedURIDomains
      runBuilder env (nameConstraintsProg permitted excluded)) = do
      let permitted ← serialiseConstraints env r.permittedDNSDomains r.permittedIPRanges r.permittedEmailAddresses r.permittedURIDomains
      let excluded ← serialiseConstraints env r.excludedDNSDomains r.excludedIPRanges r.excludedEmailAddresses r.excludedURIDomains
      runBuilder env (nameConstraintsProg permitted excluded)
    unfold serialiseConstraints constraintItems
    rw [n1, n2, n3, n4, n5, n6, n7, n8, nets_written fun n hn => (hf.permittedNets n hn).1, nets_written fun n hn => (hf.excludedNets n hn).1]
  have hsec : (sectionsOf env (renew r' serial' nb' na') (subject' = emptyASN1Subject) akid).filter (Section.used []) =
      (sectionsOf env (renew r serial nb na) (subject' = emptyASN1Subject) akid).filter (Section.used []) := by
    have hc : hasConstraints (renew r' serial' nb' na') = hasConstraints (renew r serial nb na) := by
      simp only [hasConstraints, renew]
      simp [n1, n2, n3, n4, n5, n6, n7, n8]
    have hh : hasSans r'.dnsNames r'.emailAddresses r'.ipAddresses r'.uris = hasSans r.dnsNames r.emailAddresses r.ipAddresses r.uris := by
      unfold hasSans
      rw [a1, a2, a4, hips]
    have hs : hasConstraints (renew r serial nb na) = true → r'.permittedDNSDomainsCritical = r.permittedDNSDomainsCritical :=
      fun hs => n9 fun hcon => hasConstraints_some hs hcon
    unfold sectionsOf
    rw [hnc, hc]
    generalize nameConstraintsValue env (renew r serial nb na) = v
    generalize hasConstraints (renew r serial nb na) = c at hs
    simp only [renew]
    rw [hsan, hh]
    simp only [u1, u2, u3, b1, b2, b3, b4, i1, l1, l2, l3, po]
    cases c with
    | true =>
      rw [hs rfl]
      congr
    | false =>
      have hu : ∀ c, Section.used [] ⟨false, oidExtensionNameConstraints, c, v⟩ = false := fun _ => rfl
      simp only [List.filter_cons, hu]
      rfl
  rw [hsec] at m2
  rw [allMakes_unique m1 m2]

/-- **C129** is violated for all other extensions: whatever extensions the old certificate had, the new one has only those that the
fields stand for, with a criticality that does not depend on the old one; without a name constraint that the code knows, there are no
name constraints at all. -/
theorem C129_others_violated (env : Env U) (old : Bytes) (r p : X509Cert U) (csr : CertReq U) (serial : Int) (nb na : Time)
    (tbs : TbsCert) (hr : parseCertificate env old = .ok r) (h : createCertificateInfo env (renew r serial nb na) p csr = .ok tbs) :
    ∃ exts, tbs.extensions = some exts ∧ ∀ e ∈ exts,
      (e.id, e.critical) ∈ ([([2, 5, 29, 15], true), ([2, 5, 29, 37], false), ([2, 5, 29, 19], true), ([2, 5, 29, 14], false), ([2, 5, 29, 35], false),
        ([1, 3, 6, 1, 5, 5, 7, 1, 1], false), ([2, 5, 29, 32], false), ([2, 5, 29, 31], false)] : List (List Nat × Bool)) ∨
      (e.id = [2, 5, 29, 17] ∧ e.critical = decide (tbs.subject.fullBytes = [0x30, 0])) ∨
      (e.id = [2, 5, 29, 30] ∧ e.critical = r.permittedDNSDomainsCritical ∧ SomeConstraint r) := by
  obtain ⟨gen, h1, h2⟩ := C58_extensions env _ p csr tbs h
  have hx : (renew r serial nb na).extraExtensions = [] := (cert_read hr).2.1
  rw [hx, List.append_nil] at h1
  refine ⟨gen, h1, fun e he => ?_⟩
  have h3 : (e.id, e.critical) ∈ gen.map fun e => (e.id, e.critical) := List.mem_map_of_mem he
  rw [h2] at h3
  obtain ⟨x, hx, hx'⟩ := List.mem_map.1 h3
  obtain ⟨hx, hu⟩ := List.mem_filter.1 hx
  simp only [Prod.mk.injEq] at hx'
  obtain ⟨e1, e2⟩ := hx'
  rw [← e1, ← e2]
  simp only [planOf, List.mem_cons, List.not_mem_nil, or_false] at hx
  rcases hx with rfl | rfl | rfl | rfl | rfl | rfl | rfl | rfl | rfl | rfl
  · simp
  · simp
  · simp
  · simp
  · simp
  · simp
  · exact .inr (.inl ⟨rfl, rfl⟩)
  · simp
  · refine .inr (.inr ⟨rfl, rfl, ?_⟩)
    rintro ⟨c1, c2, c3, c4, c5, c6, c7, c8⟩
    simp [renew, c1, c2, c3, c4, c5, c6, c7, c8] at hu
  · simp

/-! ## Concrete cases -/

/-- A template for a certificate with a critical extension that nobody knows, name constraints on directory names, both
critical, and a critical extended key usage. -/
def exRenewTemplate : X509Cert Bytes := { exIssueTemplate with
  permittedDNSDomains := []
  extraExtensions := [⟨[1, 2, 3], true, []⟩, ⟨[2, 5, 29, 30], true, [0x30, 6, 0xa0, 4, 0x30, 2, 0xa4, 0]⟩,
    ⟨[2, 5, 29, 37], true, [0x30, 4, 6, 2, 0x2a, 4]⟩] }

/-- A certificate: that of the case of C84. -/
def exOldCert : Bytes := [
  48, 130, 1, 233, 48, 130, 1, 143, 160, 3, 2, 1, 2, 2, 1, 5, 48, 10, 6, 8, 42, 129, 28, 207, 85, 1, 131, 117, 48, 12, 49, 10, 48, 8, 6, 3, 85, 4, 3,
   19, 1, 97, 48, 32, 23, 13, 49, 57, 48, 49, 48, 49, 48, 48, 48, 48, 48, 48, 90, 24, 15, 50, 48, 53, 48, 48, 49, 48, 49, 48, 48, 51, 48, 48, 48, 90, 48,
   12, 49, 10, 48, 8, 6, 3, 85, 4, 3, 19, 1, 99, 48, 89, 48, 19, 6, 7, 42, 134, 72, 206, 61, 2, 1, 6, 8, 42, 129, 28, 207, 85, 1, 130, 45, 3, 66, 0, 4,
   86, 206, 253, 96, 215, 200, 124, 0, 13, 88, 239, 87, 250, 115, 186, 77, 156, 13, 250, 8, 192, 138, 115, 49, 73, 92, 46, 29, 163, 242, 189, 82, 49,
   183, 231, 230, 204, 129, 137, 246, 104, 83, 92, 224, 248, 234, 241, 189, 109, 232, 76, 24, 47, 108, 142, 113, 111, 120, 13, 58, 151, 10, 35, 195, 163,
   129, 223, 48, 129, 220, 48, 14, 6, 3, 85, 29, 15, 1, 1, 255, 4, 4, 3, 2, 6, 192, 48, 23, 6, 3, 85, 29, 37, 4, 16, 48, 14, 6, 8, 43, 6, 1, 5, 5, 7, 3,
   1, 6, 2, 42, 4, 48, 15, 6, 3, 85, 29, 19, 1, 1, 255, 4, 5, 48, 3, 1, 1, 255, 48, 11, 6, 3, 85, 29, 14, 4, 4, 4, 2, 1, 2, 48, 12, 6, 3, 85, 29, 35, 4,
   5, 48, 3, 128, 1, 7, 48, 44, 6, 8, 43, 6, 1, 5, 5, 7, 1, 1, 4, 32, 48, 30, 48, 13, 6, 8, 43, 6, 1, 5, 5, 7, 48, 1, 134, 1, 100, 48, 13, 6, 8, 43, 6,
   1, 5, 5, 7, 48, 2, 134, 1, 101, 48, 18, 6, 3, 85, 29, 17, 4, 11, 48, 9, 130, 1, 97, 135, 4, 1, 2, 3, 4, 48, 15, 6, 3, 85, 29, 32, 4, 8, 48, 6, 48, 4,
   6, 2, 42, 5, 48, 19, 6, 3, 85, 29, 30, 1, 1, 255, 4, 9, 48, 7, 160, 5, 48, 3, 130, 1, 97, 48, 18, 6, 3, 85, 29, 31, 4, 11, 48, 9, 48, 7, 160, 5, 160,
   3, 134, 1, 98, 48, 9, 6, 2, 42, 3, 1, 1, 255, 4, 0, 48, 10, 6, 8, 42, 129, 28, 207, 85, 1, 131, 117, 3, 72, 0, 48, 69, 2, 32, 14, 124, 213, 236, 200,
   57, 128, 54, 178, 241, 39, 171, 254, 146, 110, 239, 27, 59, 253, 9, 171, 22, 240, 186, 213, 97, 11, 8, 236, 32, 238, 35, 2, 33, 0, 243, 237, 77, 185,
   174, 122, 191, 210, 106, 225, 180, 70, 1, 48, 163, 141, 133, 252, 140, 141, 189, 221, 145, 228, 247, 64, 106, 215, 31, 185, 208, 7]

set_option maxRecDepth 100000 in
/-- C129 has instances: the certificate is renewed and read again. -/
example : (match parseCertificate exEnv exOldCert with
    | .ok r => exIssue exCsrTemplate (fun _ => renew r 6 ⟨2020, 1, 1, 0, 0, 0, 0⟩ ⟨2021, 1, 1, 0, 0, 0, 0⟩) (fun _ _ cert =>
      match parseCertificate exEnv cert with
      | .ok r' => r.serialNumber = some 5 ∧ r'.serialNumber = some 6 ∧ r'.notAfter = ⟨2021, 1, 1, 0, 0, 0, 0⟩ ∧ r'.rawSubject = r.rawSubject ∧
          r'.keyUsage = 3 ∧ r'.unknownExtKeyUsage = [[1, 2, 4]] ∧ r'.isCA = true ∧ r'.maxPathLen = -1 ∧ r'.ipAddresses = [[1, 2, 3, 4]] ∧
          r'.permittedDNSDomains = [[0x61]] ∧ r'.crlDistributionPoints = [[0x62]] ∧ r.unhandledCriticalExtensions = [[1, 2, 3]] ∧
          r'.unhandledCriticalExtensions = []
      | _ => false)
    | _ => false) = true := by decide +kernel

set_option maxRecDepth 100000 in
/-- Renewed again, it has the same ten extensions. -/
example : (match parseCertificate exEnv exOldCert with
    | .ok r => exIssue exCsrTemplate (fun _ => renew r 6 ⟨2020, 1, 1, 0, 0, 0, 0⟩ ⟨2021, 1, 1, 0, 0, 0, 0⟩) (fun csr _ cert =>
      match parseCertificate exEnv cert with
      | .ok r' =>
        match createCertificateInfo exEnv (renew r' 7 ⟨2021, 1, 1, 0, 0, 0, 0⟩ ⟨2022, 1, 1, 0, 0, 0, 0⟩) exParent csr with
        | .ok tbs => tbs.extensions = some r'.extensions ∧ r'.extensions.length = 10
        | _ => false
      | _ => false)
    | _ => false) = true := by decide +kernel

set_option maxRecDepth 100000 in
/-- The critical extension and the name constraints are gone, and the extended key usage is not critical any more. -/
example : exIssue exCsrTemplate (fun _ => exRenewTemplate) (fun csr _ cert =>
    match parseCertificate exEnv cert with
    | .ok r =>
      match createCertificateInfo exEnv (renew r 6 ⟨2020, 1, 1, 0, 0, 0, 0⟩ ⟨2021, 1, 1, 0, 0, 0, 0⟩) exParent csr with
      | .ok tbs => r.unhandledCriticalExtensions = [[1, 2, 3], [2, 5, 29, 30]] ∧
          (⟨[2, 5, 29, 37], true, [0x30, 4, 6, 2, 0x2a, 4]⟩ : Extension) ∈ r.extensions ∧
          (∀ e ∈ tbs.extensions.getD [], e.id ≠ [2, 5, 29, 30] ∧ e.id ≠ [1, 2, 3]) ∧
          (⟨[2, 5, 29, 37], false, [0x30, 4, 6, 2, 0x2a, 4]⟩ : Extension) ∈ tbs.extensions.getD []
      | _ => false
    | _ => false) = true := by decide +kernel

end Verif.Props
