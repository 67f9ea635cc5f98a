import Verif.Props.CertReadable
import Verif.Props.CertAsked
/-!
# Property C59, exactly: which created requests can be read
-/
namespace Verif.Props
open Verif Verif.Der Verif.Cert Verif.Spec.DER Verif.Spec.Cert Verif.Spec.Wire
open Verif.Spec.SM2 (coords)

variable {U : Type}

theorem csrExtensionsOf_fits {raw : RawValue} {es : List Extension} (h : csrExtensionsOf raw = .ok es) : ∀ e ∈ es, OIDFits e.id := by
  unfold csrExtensionsOf at h
  rw [Res.bind_eq_ok] at h
  obtain ⟨a, _, h⟩ := h
  cases a with
  | none => simp only [Res.ok.injEq] at h; subst h; simp
  | some a =>
    dsimp only at h
    cases hv : a.values with
    | nil => rw [hv] at h; simp only [Res.ok.injEq] at h; subst h; simp
    | cons v vs =>
      rw [hv] at h
      dsimp only at h
      rcases ite_ok h with ⟨_, h⟩ | ⟨_, h⟩
      · simp only [Res.ok.injEq] at h; subst h; simp
      rw [Res.bind_eq_ok] at h
      obtain ⟨⟨l, rest⟩, h1, h2⟩ := h
      simp only [Res.ok.injEq] at h2
      subst h2
      obtain ⟨c, _, _, hl⟩ := parseField_slice h1
      unfold parseSequenceOf at hl
      rw [Res.bind_eq_ok] at hl
      obtain ⟨m, _, hl⟩ := hl
      refine parseElems_forall (P := fun e : Extension => OIDFits e.id) ?_ m _ _ hl
      intro bs e rest he
      obtain ⟨ec, _, _, he⟩ := parseField_struct he
      simp only [Res.bind_eq_ok] at he
      obtain ⟨⟨o, _⟩, ho, _, _, _, _, he⟩ := he
      simp only [Res.ok.injEq] at he
      subst he
      exact parsed_oid_fits ho

theorem parseCSRExtensions_fits {raws : List RawValue} {es : List Extension} (h : parseCSRExtensions raws = .ok es) : ∀ e ∈ es, OIDFits e.id := by
  obtain ⟨pieces, rfl, hq⟩ := parseCSRExtensions_split h
  intro e he
  obtain ⟨p, hp, he⟩ := List.mem_flatten.1 he
  clear * - hq hp he
  induction hq with
  | nil => simp at hp
  | cons h1 _ ih =>
    rcases List.mem_cons.1 hp with rfl | hp
    · exact csrExtensionsOf_fits h1 e he
    · exact ih hp

/-- Where the parts of an accepted request are. -/
theorem request_layout {env : Env U} {data : Bytes} {r : CertReq U} (h : parseCertificateRequest env data = .ok r) :
    (∀ e ∈ r.extensions, OIDFits e.id) ∧ (∃ rdns, parseName r.rawSubject = .ok rdns) ∧
    ∃ (v s k c more rest : Bytes), r.rawSubject = elem 0x30 s ∧
      r.rawTBS = elem 0x30 (elem 0x02 v ++ (elem 0x30 s ++ (elem 0x30 k ++ (elem 0xa0 c ++ more)))) ∧ data = elem 0x30 (r.rawTBS ++ rest) := by
  obtain ⟨tc, ac, sc, more, tbs, alg, sig, h0, h1, _, _, hd, h5, _, _, h8⟩ := request_components.1 h
  unfold parseCSR at h8
  rw [Res.bind_eq_ok] at h8
  obtain ⟨_, _, h8⟩ := h8
  rcases ite_ok h8 with ⟨_, h8⟩ | ⟨_, h8⟩
  · simp at h8
  rcases ite_ok h8 with ⟨_, h8⟩ | ⟨_, h8⟩
  · simp at h8
  simp only [Res.bind_eq_ok] at h8
  obtain ⟨_, _, rdns, k2, exts, k4, sans, k5, k3⟩ := h8
  simp only [Res.ok.injEq] at k3
  subst k3
  change (_ : Res _) = _ at h5
  unfold tyTbsCSR tyStruct at h5
  dsimp only at h5
  simp only [Res.bind_eq_ok] at h5
  obtain ⟨⟨ver, q1⟩, f1, ⟨sub, q2⟩, f2, ⟨key, q3⟩, f3, ⟨attrs, q4⟩, f4, f5⟩ := h5
  simp only [Res.ok.injEq] at f5
  subst f5
  dsimp only at k2 k4 f2 f3 f4 ⊢
  refine ⟨parseCSRExtensions_fits k4, ⟨rdns, k2⟩, ?_⟩
  obtain ⟨vc, hv, rfl, _⟩ := parseField_int f1
  obtain ⟨sc', _, hs⟩ := parseName_ok k2
  have hne : q1 ≠ [] := by rintro rfl; simp [parseField] at f2
  obtain ⟨u1, _⟩ := parseField_raw_split rfl rfl hne f2
  rw [hs] at u1
  obtain ⟨kc, _, u2, _⟩ := parseField_struct f3
  obtain ⟨c, hc, u3, hb⟩ := (parseField_iff (p := { tag := some 0 }) rfl rfl rfl rfl (by decide)).1 f4
  refine ⟨vc, sc', kc, c, q4, _, hs, ?_, hd⟩
  rw [u1, u2, u3]; rfl

theorem isElem_extensionRequest {es : List Bytes} (hl : (extensionRequest es).length < 2 ^ 31) : IsElem (extensionRequest es) := by
  have hl' := length_le_elem 0x30 (elem 0x06 [0x2a, 0x86, 0x48, 0x86, 0xf7, 0x0d, 0x01, 0x09, 0x0e] ++ elem 0x31 (elem 0x30 es.flatten))
  unfold extensionRequest at hl
  exact ⟨0, true, 16, _, by decide, by decide, by omega, [0x30], ⟨by decide, .inl ⟨by decide, rfl⟩⟩, rfl⟩

/-- What a request that was made from a template without attributes has to satisfy when it is read. -/
theorem created_read_back {env : Env U} {t : CertReq U} {x y : ℕ} {Q : Sm2.Pt} {pri : Sm2.PrivateKey} {id : Option Bytes} {tape : Sm2.Tape}
    {csr : Bytes} {after : List ATVSET} (hQ : coords Q = some (x, y)) (ha : t.attributes = []) (hx : ∀ e ∈ t.extraExtensions, OidInt e.id)
    (hs : OneElement t.rawSubject) (h : createCertificateRequest env t ⟨x, y⟩ pri id tape = .ok (csr, after)) (hl : csr.length < 2 ^ 31)
    {r : CertReq U} (hr : parseCertificateRequest env csr = .ok r) :
    (∃ b rdns, subjectBytes t.rawSubject t.subject = .ok b ∧ parseName b = .ok rdns) ∧
    ∃ exts, requestedExtensions env t = .ok exts ∧ r.extensions = exts.map plain ∧ ∀ e ∈ exts, e.value.length < 2 ^ 31 := by
  obtain ⟨subject, attrs, sig, exts, es, g1, g2, g3, rfl, g5⟩ := C128_requested env t x y Q pri id tape csr after hQ ha hx h hl
  obtain ⟨_, ⟨rdns, hn⟩, v, s, k, c, more, rest, l1, l2, l3⟩ := request_layout hr
  have e0 := l3.symm.trans g5
  unfold signed at e0
  rw [g5] at hl
  unfold signed at hl
  have hl0 := length_le_elem 0x30 (requestInfo subject (publicKeyInfo (4 :: (Spec.SM2.fe x ++ Spec.SM2.fe y)))
    (if exts = [] then [] else [extensionRequest es]) ++ sm2WithSm3 ++ bitString sig)
  have hl1 := hl0.trans_lt hl
  have e1 := (elem_whole (by rw [e0]; omega) e0).2
  rw [List.append_assoc] at e1 hl1
  rw [List.length_append] at hl1
  rw [l2] at e1
  unfold requestInfo at e1 hl1
  have hl2 := length_le_elem 0x30 ([0x02, 0x01, 0x00] ++ subject ++ publicKeyInfo (4 :: (Spec.SM2.fe x ++ Spec.SM2.fe y)) ++
    elem 0xa0 (if exts = [] then [] else [extensionRequest es]).flatten)
  have p1 := elem_peel e1
  obtain ⟨-, e2, e3⟩ := p1 (by rw [e1, List.length_append]; unfold requestInfo at hl; omega)
  have hsub : subject.length < 2 ^ 31 := by
    simp only [List.length_append] at hl2; omega
  obtain ⟨ks, sc, rfl⟩ := subjectBytes_elem hs g1 hsub
  have hlen : (elem 0x02 v ++ (elem 0x30 s ++ (elem 0x30 k ++ (elem 0xa0 c ++ more)))).length < 2 ^ 32 := by
    rw [e2]; omega
  have e2' : elem 0x02 v ++ (elem 0x30 s ++ (elem 0x30 k ++ (elem 0xa0 c ++ more))) = elem 0x02 [0] ++ (elem ks sc ++
      (publicKeyInfo (4 :: (Spec.SM2.fe x ++ Spec.SM2.fe y)) ++ (elem 0xa0 (if exts = [] then [] else [extensionRequest es]).flatten ++ []))) := by
    rw [e2]
    simp only [List.append_assoc, List.append_nil]
    rfl
  obtain ⟨-, -, e4⟩ := elem_peel e2' hlen
  have hlen' := hlen
  rw [List.length_append] at hlen'
  obtain ⟨e5, e6, e7⟩ := elem_peel e4 (by omega)
  rw [List.length_append] at hlen'
  obtain ⟨-, -, e8⟩ := elem_peel (t' := 0x30) e7 (by omega)
  rw [List.length_append] at hlen'
  obtain ⟨-, e9, -⟩ := elem_peel e8 (by omega)
  subst e5 e6
  refine ⟨⟨_, rdns, g1, by rw [← l1]; exact hn⟩, exts, g2, ?_⟩
  have hc : ∀ w ∈ (if exts = [] then [] else [extensionRequest es]), w.length < 2 ^ 31 := by
    intro w hw
    have a1 := length_le_flatten hw
    have a2 := length_le_elem 0xa0 (if exts = [] then [] else [extensionRequest es]).flatten
    simp only [List.length_append] at hl2
    omega
  have hlist : List.Forall₂ (fun (e : Extension) w => IsExtension e.id e.critical e.value w) (exts.map plain) es := by
    rw [List.forall₂_map_left_iff]
    exact g3.imp fun e w he => extension_is (x := plain e) he
  have htbs : RequestInfo (if exts = [] then [] else [extensionRequest es]).flatten r.rawTBS := ⟨v, s, k, more, by rw [l2, e9]⟩
  obtain ⟨pieces, hp1, hp2⟩ := C142_asked_partial env csr r hr _ (fun w hw => by
    have := hc w hw
    split at hw
    · simp at hw
    · simp only [List.mem_singleton] at hw
      subst hw
      exact isElem_extensionRequest this) htbs
  by_cases he : exts = []
  · rw [if_pos he] at hp2
    cases hp2
    subst he
    exact ⟨hp1, by simp⟩
  · rw [if_neg he] at hp2 hc
    cases hp2 with
    | cons k1 k2 =>
      cases k2
      have := k1 (exts.map plain) (elem 0x30 es.flatten) [] ⟨[], by simp [extensionRequest]⟩ (by simp) ⟨es, rfl, hlist⟩
      refine ⟨by rw [hp1, this]; simp, ?_⟩
      have hes : es.flatten.length < 2 ^ 31 := by
        have b1 := hc _ (List.mem_singleton.2 rfl)
        unfold extensionRequest at b1
        have b2 := length_le_elem 0x30 (elem 0x06 [0x2a, 0x86, 0x48, 0x86, 0xf7, 0x0d, 0x01, 0x09, 0x0e] ++ elem 0x31 (elem 0x30 es.flatten))
        have b3 := length_le_elem 0x31 (elem 0x30 es.flatten)
        have b4 := length_le_elem 0x30 es.flatten
        rw [List.length_append] at b2
        omega
      intro e hee
      obtain ⟨w, hw, o, _, rfl⟩ := forall₂_mem_left g3 e hee
      have b1 := length_le_flatten hw
      unfold extension at b1
      have b2 := length_le_elem 0x30 (o ++ (if false = true then [0x01, 0x01, 0xff] else []) ++ elem 0x04 e.value)
      have b3 := length_le_elem 0x04 e.value
      simp only [List.length_append] at b2
      omega

/-- **C59**, exactly: a request made from a template without attributes of its own (and with a raw subject, if any, that is one element)
can be read if and only if its subject can be read, the numbers in the identifiers of the extra extensions are below 2^31, the subject
alternative names among these can be read, and the addresses and URIs for the extension made of the template's names are of the right
form. -/
theorem C59_exact (env : Env U) (t : CertReq U) (d : ℕ) (pub : Sm2.PublicKey) (hd : ¬ Sm2.n ∣ d)
    (hpub : Sm2.calculatePubKey ⟨d⟩ = .ok pub) (pri : Sm2.PrivateKey) (id : Option Bytes) (tape : Sm2.Tape) (csr : Bytes) (after : List ATVSET)
    (ha : t.attributes = []) (hx : ∀ e ∈ t.extraExtensions, OidInt e.id) (hs : OneElement t.rawSubject)
    (h : createCertificateRequest env t pub pri id tape = .ok (csr, after)) (hl : csr.length < 2 ^ 31) :
    (∃ r, parseCertificateRequest env csr = .ok r) ↔
      (∃ b rdns, subjectBytes t.rawSubject t.subject = .ok b ∧ parseName b = .ok rdns) ∧
      (∀ e ∈ t.extraExtensions, OIDFits e.id ∧ (e.id = [2, 5, 29, 17] → ∃ s, parseSANExtension env e.value = .ok s)) ∧
      (((t.dnsNames ≠ [] ∨ t.emailAddresses ≠ [] ∨ t.ipAddresses ≠ [] ∨ t.uris ≠ []) ∧ ∀ e ∈ t.extraExtensions, e.id ≠ [2, 5, 29, 17]) →
        (∀ ip ∈ t.ipAddresses, ip.length = 4 ∨ ip.length = 16) ∧
        ∀ u ∈ t.uris, ∃ u', env.parseURL (env.urlString u) = some u' ∧ (env.urlHost u' = [] ∨ AcceptedDomain (env.urlHost u'))) := by
  obtain ⟨x, y, hc, _, _⟩ := coords_dG hd
  have hp := pub_of_coords hpub hc
  subst hp
  constructor
  · rintro ⟨r, hr⟩
    obtain ⟨hsub, exts, he, hex, hsmall⟩ := created_read_back hc ha hx hs h hl hr
    obtain ⟨hfit, -, -⟩ := request_layout hr
    have hsans := (C142_names_partial env csr r hr).1
    rw [hex] at hfit hsans
    have key : ∀ e ∈ exts, OIDFits e.id ∧ (e.id = [2, 5, 29, 17] → ∃ s, parseSANExtension env e.value = .ok s) := fun e hee =>
      ⟨hfit (plain e) (List.mem_map_of_mem hee), fun hid => hsans (plain e) (List.mem_map_of_mem hee) hid⟩
    refine ⟨hsub, ?_, ?_⟩
    · intro e hee
      rcases requestedExtensions_ok he with ⟨_, v, _, rfl⟩ | ⟨_, rfl⟩
      · exact key e (by simp [hee])
      · exact key e hee
    · intro hw
      rcases requestedExtensions_ok he with ⟨_, v, hv, rfl⟩ | ⟨hw', _⟩
      · exact (C55_exact env _ _ _ _ _ hv (hsmall _ (List.mem_cons_self ..))).1 ((key _ (List.mem_cons_self ..)).2 rfl)
      · exact absurd hw hw'
  · rintro ⟨⟨b, rdns, hb1, hb2⟩, hext, hsan⟩
    have hne := subjectBytes_ne hb1
    let t' : CertReq U := { t with rawSubject := b, subject := {} }
    have h' : createCertificateRequest env t' ⟨x, y⟩ pri id tape = .ok (csr, after) := by
      have e1 : subjectBytes t'.rawSubject t'.subject = subjectBytes t.rawSubject t.subject := by
        rw [hb1]
        unfold subjectBytes
        rw [if_pos (List.length_pos_iff.2 hne)]
      rw [← h]
      unfold createCertificateRequest
      rw [e1]
      rfl
    obtain ⟨exts, subj, rdns', attrs, tbs, sig, epk, h1, h2, h3, h4, h5, h6, h7, h8⟩ :=
      created_parse hc h' hl (fun _ => ⟨rdns, hb2⟩) (by simp [t']) (by simp [t', ha]) (fun e he => (hext e he).1)
    have hperm := build_exts t'.attributes exts
    have hok := build_ok (attributes := t'.attributes) (by simp [t', ha]) h5
    have hsmall := requestedBy_small h6 hok
    have hsans : ∀ e ∈ requestedBy (buildAttributes t'.attributes exts).1, e.id = oidExtensionSubjectAltName →
        ∃ s, parseSANExtension env e.value = .ok s := by
      intro e he hid
      have hs := hsmall e he
      have hm := hperm.mem_iff.1 he
      rcases List.mem_append.1 hm with hm | hm
      · simp [t', ha, requestedBy] at hm
      · obtain ⟨f, hf, rfl⟩ := List.mem_map.1 hm
        have hf' : f ∈ exts := (List.mem_filter.1 hf).1
        rcases requestedExtensions_ok h1 with ⟨hw, v, hv, rfl⟩ | ⟨hw, rfl⟩
        · rcases List.mem_cons.1 hf' with rfl | hf'
          · exact (C55_exact env _ _ _ _ _ hv hs).2 (hsan hw)
          · exact (hext f hf').2 hid
        · exact (hext f hf').2 hid
    obtain ⟨sans, hsans'⟩ := csrSans_ok env _ {} hsans
    obtain ⟨as, has⟩ := parseRawAttributes_ok attrs
    rw [has, Res.ok_bind, hsans', Res.ok_bind] at h8
    exact ⟨_, h8⟩

/-- **C59** (negation) A request is created, but cannot be read, for an extra extension whose identifier has a number of 2^31; the template
meets the hypotheses of `C59_exact`. -/
theorem C59_number_violated : ∃ (t : CertReq Bytes) (pub : Sm2.PublicKey) (csr : Bytes) (after : List ATVSET),
    t.attributes = [] ∧ t.extraExtensions = [⟨[1, 2, 2 ^ 31], false, []⟩] ∧ (∀ e ∈ t.extraExtensions, OidInt e.id) ∧ OneElement t.rawSubject ∧
    Sm2.calculatePubKey ⟨2⟩ = .ok pub ∧ createCertificateRequest exEnv t pub ⟨2⟩ none [some (toBE 32 3)] = .ok (csr, after) ∧
      ∃ m, parseCertificateRequest exEnv csr = .err m := by
  obtain ⟨pub, csr, after, h1, h2, h3⟩ := exCreate_true (t := { extraExtensions := [⟨[1, 2, 2 ^ 31], false, []⟩] })
    (f := fun r => isErr (parseCertificateRequest exEnv r.1))
    (by set_option maxRecDepth 100000 in decide +kernel)
  refine ⟨_, pub, csr, after, rfl, rfl, ?_, .inl rfl, h1, h2, err_of_isErr h3⟩
  intro e he
  simp only [List.mem_singleton] at he
  subst he
  unfold OidInt
  decide

/-- And one that can be read, with an extra extension and a name. -/
example : ∃ (t : CertReq Bytes) (pub : Sm2.PublicKey) (csr : Bytes) (after : List ATVSET),
    t.attributes = [] ∧ t.extraExtensions = [⟨[1, 2, 2 ^ 31 - 1], false, []⟩] ∧ t.ipAddresses = [[1, 2, 3, 4]] ∧ OneElement t.rawSubject ∧
    Sm2.calculatePubKey ⟨2⟩ = .ok pub ∧ createCertificateRequest exEnv t pub ⟨2⟩ none [some (toBE 32 3)] = .ok (csr, after) ∧
      isErr (parseCertificateRequest exEnv csr) = false := by
  obtain ⟨pub, csr, after, h1, h2, h3⟩ := exCreate_true (t := { extraExtensions := [⟨[1, 2, 2 ^ 31 - 1], false, []⟩], ipAddresses := [[1, 2, 3, 4]] })
    (f := fun r => !isErr (parseCertificateRequest exEnv r.1))
    (by set_option maxRecDepth 100000 in decide +kernel)
  exact ⟨_, pub, csr, after, rfl, rfl, rfl, .inl rfl, h1, h2, by simpa using h3⟩

end Verif.Props
