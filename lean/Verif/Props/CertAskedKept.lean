import Verif.Props.CertAsked
import Verif.Props.CertFlow
/-!
# Properties C79 and C87: what is kept of the extensions that are asked for

The code drops the criticality of requested extensions (C79), and certificates do not have the extensions that a request asks for (C87).
Here is what does hold: identifiers and values are kept in a request, and the names in its last SAN extension reach the certificate.
-/
namespace Verif.Props
open Verif Verif.Der Verif.Cert Verif.Spec.DER Verif.Spec.Cert

variable {U : Type}

/-- **C79**, what holds: every extension of the template is in the created request, with its identifier and its value, if no extension
request among the attributes of the template names it; and it is there as it was asked for if it is not critical. If the template has no
attributes and no names, the request has no other extensions. Missing: the flag of the critical ones, see `C79_lost_violated`. -/
theorem C79_kept_partial (env : Env U) (t : CertReq U) (d : ℕ) (pub : Sm2.PublicKey) (hd : ¬ Sm2.n ∣ d)
    (hpub : Sm2.calculatePubKey ⟨d⟩ = .ok pub) (id : Option Bytes) (tape : Sm2.Tape) (csr : Bytes) (after : List ATVSET)
    (h : createCertificateRequest env t pub ⟨d⟩ id tape = .ok (csr, after)) (hl : csr.length < 2 ^ 31)
    (hraw : t.rawSubject ≠ [] → ∃ rdns, parseName t.rawSubject = .ok rdns) (hname : ∀ a ∈ t.subject.extraNames, ATVOk a)
    (hattr : ∀ a ∈ t.attributes, a.Ok) (hext : ∀ e ∈ t.extraExtensions, OIDFits e.id) (hsan : GoodSANs env t) :
    ∃ r, parseCertificateRequest env csr = .ok r ∧
      (∀ e ∈ t.extraExtensions, (∀ a ∈ t.attributes, a.type = [1, 2, 840, 113549, 1, 9, 14] → ∀ l ∈ a.value, ∀ x ∈ l, x.type ≠ e.id) →
        (∃ f ∈ r.extensions, f.id = e.id ∧ f.value = e.value) ∧ (e.critical = false → e ∈ r.extensions)) ∧
      (t.attributes = [] → t.dnsNames = [] → t.emailAddresses = [] → t.ipAddresses = [] → t.uris = [] →
        (r.extensions.map fun f => (f.id, f.value)).Perm (t.extraExtensions.map fun e => (e.id, e.value))) := by
  obtain ⟨r, h1, _, _, _, _, h2, _⟩ := C59_created env t d pub hd hpub id tape csr after h hl hraw hname hattr hext hsan
  refine ⟨r, h1, ?_, ?_⟩
  · intro e he hn
    have hm : plain e ∈ r.extensions := by
      have hk : ∀ l, e ∈ l → plain e ∈ requestedBy t.attributes ++ (added t.attributes l).map plain := fun l hl =>
        List.mem_append_right _ (List.mem_map_of_mem (List.mem_filter.2 ⟨hl, decide_eq_true hn⟩))
      rcases h2 with ⟨v, _, _, hp⟩ | ⟨_, hp⟩
      · exact hp.mem_iff.2 (hk _ (List.mem_cons_of_mem _ he))
      · exact hp.mem_iff.2 (hk _ he)
    refine ⟨⟨_, hm, rfl, rfl⟩, fun hc => ?_⟩
    have : plain e = e := by
      obtain ⟨a, b, c⟩ := e
      dsimp only at hc
      subst hc
      rfl
    rwa [this] at hm
  · intro ha n1 n2 n3 n4
    rcases h2 with ⟨v, hw, _, _⟩ | ⟨_, hp⟩
    · unfold WantsSAN at hw
      simp [n1, n2, n3, n4] at hw
    · have := hp.map fun f : Extension => (f.id, f.value)
      refine this.trans (List.Perm.of_eq ?_)
      simp [ha, requestedBy, added, plain, Function.comp_def]

/-- The cases of C79: a critical extension of the template, and one that is not, with a name. -/
example : exCreate { dnsNames := [[0x62]], extraExtensions := [⟨[1, 2, 3], true, [5]⟩, ⟨[1, 2, 4], false, [6]⟩] } (fun r =>
    match parseCertificateRequest exEnv r.1 with
    | .ok q => decide (q.extensions = [⟨[2, 5, 29, 17], false, elem 0x30 (elem 0x82 [0x62])⟩, ⟨[1, 2, 3], false, [5]⟩, ⟨[1, 2, 4], false, [6]⟩])
    | _ => false) = true := by set_option maxRecDepth 100000 in decide +kernel

/-- **C87**, what holds: the names in the last SAN extension that a request asks for are those of the certificate for the filled template,
IP addresses in the form of the standard, and there are no names if the request asks for no SAN extension; the names of the template
play no part. Missing: the other extensions, see `C87_dropped_violated`, and the SAN extensions before the last. -/
theorem C87_names_partial (env : Env U) (t p : X509Cert U) (der : Bytes) (csr : CertReq U) (tbs : TbsCert) (d : ℕ) (id : Option Bytes)
    (tape : Sm2.Tape) (cert : Bytes) (ht : GoodTemplate env t) (hp : GoodSubject p.rawSubject p.subject)
    (hcsr : parseCertificateRequest env der = .ok csr) (huri : ∀ u ∈ csr.uris, env.parseURL (env.urlString u) = some u)
    (h : createCertificateInfo env (fillCertificateTemplateByCSR t csr) p csr = .ok tbs)
    (hi : issueCertificateBySoftCAKey tbs ⟨d⟩ id tape = .ok cert) (hl : cert.length < 2 ^ 31) :
    ∃ r, parseCertificate env cert = .ok r ∧
      ((∀ e ∈ csr.extensions, e.id ≠ [2, 5, 29, 17]) → r.dnsNames = [] ∧ r.emailAddresses = [] ∧ r.ipAddresses = [] ∧ r.uris = []) ∧
      ∀ l1 e l2, csr.extensions = l1 ++ e :: l2 → e.id = [2, 5, 29, 17] → (∀ x ∈ l2, x.id ≠ [2, 5, 29, 17]) →
        ∃ s, parseSANExtension env e.value = .ok s ∧ r.dnsNames = s.dnsNames ∧ r.emailAddresses = s.emailAddresses ∧
          List.Forall₂ IsWireIP s.ipAddresses r.ipAddresses ∧ r.uris = s.uris := by
  have hg := filled_good ht hcsr huri
  obtain ⟨k1, _⟩ := csr_read hcsr
  obtain ⟨_, c2, c3⟩ := C142_names_partial env der csr hcsr
  obtain ⟨r, g1, _, _, _, _, _, _, g7, _⟩ := C84_fields env _ p der csr tbs d id tape cert hg hp hcsr h hi hl
  obtain ⟨a1, a2, a3, a4⟩ := g7 (by show ∀ e ∈ csr.extraExtensions, _; rw [k1]; simp)
  change r.dnsNames = csr.dnsNames at a1
  change r.emailAddresses = csr.emailAddresses at a2
  change List.Forall₂ IsWireIP csr.ipAddresses r.ipAddresses at a3
  change r.uris = csr.uris at a4
  refine ⟨r, g1, ?_, ?_⟩
  · intro hn
    obtain ⟨b1, b2, b3, b4⟩ := c2 hn
    rw [b3] at a3
    exact ⟨a1.trans b1, a2.trans b2, List.forall₂_nil_left_iff.1 a3, a4.trans b4⟩
  · intro l1 e l2 e1 e2 e3
    obtain ⟨s, b0, b1, b2, b3, b4⟩ := c3 l1 e l2 e1 e2 e3
    exact ⟨s, b0, a1.trans b1, a2.trans b2, b3 ▸ a3, a4.trans b4⟩

set_option maxRecDepth 100000 in
/-- The cases of C87: the template has a name of its own, and the request asks for a key usage and, twice, for names. -/
example : (match parseCertificateRequest exEnv (exAsking [exAsks 0x31 (elem 0x30 (exDns [0x61])), exAsks 0x31 (elem 0x30 (exUsage ++ exDns [0x62]))]) with
    | .ok csr =>
      match createCertificateInfo exEnv (fillCertificateTemplateByCSR { exFlowTemplate with dnsNames := [[0x63]] } csr) exParent csr with
      | .ok tbs =>
        match issueCertificateBySoftCAKey tbs ⟨5⟩ none [some (toBE 32 7)] with
        | .ok cert =>
          match parseCertificate exEnv cert with
          | .ok r => decide (csr.extensions.map Extension.id = [[2, 5, 29, 17], [2, 5, 29, 15], [2, 5, 29, 17]] ∧
              r.extensions.map Extension.id = [[2, 5, 29, 17]] ∧ r.dnsNames = [[0x62]])
          | _ => false
        | _ => false
      | _ => false
    | _ => false) = true := by decide +kernel

end Verif.Props
