import Verif.Props.CertAttributes
/-!
# C153: a request made from a request

A parsed request has the type of a template, so it is natural to make the next request from the last one, with a new key or the same.
Property C153: the new request asks for the same as the old one. It holds for the requests that the library makes itself, and then with
the same key the signed part is the same octet by octet. Of requests made elsewhere attributes are lost, and for those that ask for a
critical extension no request can be made.
-/
namespace Verif.Props
open Verif Verif.Der Verif.Cert Verif.Spec.DER Verif.Spec.Cert
open Verif.Spec.SM2 (coords)

variable {U : Type}

/-! ## Lemmas -/

theorem appendToRequest_none : ∀ {as : List ATVSET}, (∃ a ∈ as, a.type = oidExtensionRequest ∧ a.value ≠ []) → appendToRequest [] as = some as := by
  intro as
  induction as with
  | nil => rintro ⟨a, h, _⟩; cases h
  | cons a as ih =>
    rintro ⟨b, hb, h1, h2⟩
    obtain ⟨ty, value⟩ := a
    have tail : ¬ (ty = oidExtensionRequest ∧ value ≠ []) → ∃ a ∈ as, a.type = oidExtensionRequest ∧ a.value ≠ [] := by
      intro hn
      rcases List.mem_cons.1 hb with rfl | hb
      · exact absurd ⟨h1, h2⟩ hn
      · exact ⟨b, hb, h1, h2⟩
    cases value with
    | nil => rw [appendToRequest]; dsimp only; rw [ih (tail (by simp))]; rfl
    | cons v vs =>
      rw [appendToRequest]
      dsimp only
      by_cases ht : ty = oidExtensionRequest
      · rw [if_pos ht, List.append_nil]
      · rw [if_neg ht, ih (tail (by simp [ht]))]; rfl

/-- Extensions that are asked for already change nothing. -/
theorem build_same {as : List ATVSET} {exts : List Extension}
    (h : ∀ e ∈ exts, ∃ a ∈ as, a.type = oidExtensionRequest ∧ ∃ l ∈ a.value, ∃ x ∈ l, x.type = e.id) : buildAttributes as exts = (as, as) := by
  unfold buildAttributes
  split
  · rename_i hpos
    have e1 : (exts.filter fun e => e.id ∉ specifiedExtensions as) = [] := by
      rw [List.filter_eq_nil_iff]
      intro e he
      simp only [decide_not, Bool.not_eq_true, Bool.not_eq_false', decide_eq_true_eq]
      exact (mem_specified _ _).2 (h e he)
    dsimp only
    rw [e1, List.map_nil]
    obtain ⟨e, he⟩ := List.exists_mem_of_length_pos hpos
    obtain ⟨a, ha, ht, l, hl, _⟩ := h e he
    rw [appendToRequest_none ⟨a, ha, ht, List.ne_nil_of_mem hl⟩]
  · rfl

theorem created_tbs {env : Env U} {t : CertReq U} {x y : ℕ} {Q : Sm2.Pt} {pri : Sm2.PrivateKey} {id : Option Bytes} {tape : Sm2.Tape}
    {csr : Bytes} {after : List ATVSET} {r : CertReq U} (hQ : coords Q = some (x, y))
    (h : createCertificateRequest env t ⟨x, y⟩ pri id tape = .ok (csr, after)) (hl : csr.length < 2 ^ 31)
    (hs : ∀ subj, subjectBytes t.rawSubject t.subject = .ok subj → RawOk subj) (hr : parseCertificateRequest env csr = .ok r) :
    ∃ pk exts subj attrs, marshalPublicKey ⟨x, y⟩ = .ok pk ∧ requestedExtensions env t = .ok exts ∧
      subjectBytes t.rawSubject t.subject = .ok subj ∧ newRawAttributes (buildAttributes t.attributes exts).1 = .ok attrs ∧
      marshal tyTbsCSR (tbsOf [] subj pk attrs) = .ok r.rawTBS ∧ after = (buildAttributes t.attributes exts).2 := by
  obtain ⟨pk, exts, subj, attrs, tbs, sig, h1, h2, h3, h4, h5, h6, h7, h8⟩ := create_parts h
  obtain ⟨_, hx, hy⟩ := Sm2.coords_some hQ
  refine ⟨pk, exts, subj, attrs, h1, h2, h3, h4, ?_, h8⟩
  obtain ⟨cc, c1, c2, rfl⟩ := marshalPublicKey_eq (getUnCompressBytes_eq (lt_trans hx Sm2.p_lt) (lt_trans hy Sm2.p_lt)) h1
  have hattrs := newRawAttributes_ok h4
  have hfull : ∀ v ∈ attrs, RawFull v := by
    clear h h5 h7 h4
    generalize (buildAttributes t.attributes exts).1 = as at hattrs
    induction hattrs with
    | nil => simp
    | cons g1 g2 ih =>
      intro v hv
      rcases List.mem_cons.1 hv with rfl | hv
      · exact g1.2.2
      · exact ih v hv
  obtain ⟨s, v, epk, r1, r2, r3⟩ := created_read (hs subj h3) c2 hfull h5 h7 hl
  unfold parseCertificateRequest at hr
  rw [r3, Res.ok_bind] at hr
  simp only [List.length_nil, ne_eq, not_true, if_false] at hr
  unfold parseCSR at hr
  dsimp only at hr
  rw [Res.bind_eq_ok] at hr
  obtain ⟨_, _, hr⟩ := hr
  rw [if_neg (by simp), if_neg (by simp)] at hr
  simp only [Res.bind_eq_ok] at hr
  obtain ⟨_, _, _, _, _, _, _, _, hr⟩ := hr
  obtain rfl := Res.ok.inj hr
  exact h5

theorem rawOk_name {b : Bytes} {rdns : RDNSequence} (h : parseName b = .ok rdns) : RawOk b := by
  obtain ⟨c, hc, rfl⟩ := parseName_ok h
  exact ⟨0, 16, true, c, by decide, by decide, hc, rfl⟩

theorem slice_made {α : Type} {b : Bool} {ty : Ty α} {p : Params} {vs : List α} {e : Bytes} (hp : p.optional = false)
    (h : (tySlice b ty).make p vs = .ok e) : ∃ es, List.Forall₂ (fun v e => ty.make {} v = .ok e) vs es := by
  have h' : makeTagged p (if b then 17 else 16) true false (fun _ => false) (makeElems ty vs) = .ok e := h
  unfold makeTagged at h'
  rw [omitted_mandatory hp, if_neg (by simp)] at h'
  by_cases hs : p.set = true ∧ (if b = true then 17 else 16) ≠ 16
  · rw [if_pos hs] at h'; cases h'
  · rw [if_neg hs, Res.bind_eq_ok] at h'
    obtain ⟨c, h1, -⟩ := h'
    obtain ⟨es, -, h2⟩ := makeElems_ok h1
    exact ⟨es, h2⟩

theorem forall2_left {α β : Type} {R : α → β → Prop} {as : List α} {bs : List β} (h : List.Forall₂ R as bs) {a : α} (ha : a ∈ as) : ∃ b, R a b := by
  induction h with
  | nil => cases ha
  | cons h1 _ ih =>
    rcases List.mem_cons.1 ha with rfl | ha
    · exact ⟨_, h1⟩
    · exact ih ha

/-- No value of the attributes that can be encoded is the nil interface. -/
theorem encoded_not_nil {as : List ATVSET} {l : List RawValue} (h : newRawAttributes as = .ok l) :
    ∀ a ∈ as, ∀ v ∈ a.value, ∀ x ∈ v, x.value ≠ .nil := by
  intro a ha v hv x hx hn
  obtain ⟨w, h1, -, -⟩ := forall2_left (newRawAttributes_ok h) ha
  obtain ⟨c, h2, -⟩ := struct_made h1
  simp only [Res.bind_eq_ok] at h2
  obtain ⟨_, -, b, h3, -⟩ := h2
  obtain ⟨es, h4⟩ := slice_made rfl h3
  obtain ⟨e, h5⟩ := forall2_left h4 hv
  obtain ⟨es', h6⟩ := slice_made rfl h5
  obtain ⟨e', h7⟩ := forall2_left h6 hx
  obtain ⟨c', h8, -⟩ := struct_made h7
  simp only [Res.bind_eq_ok] at h8
  obtain ⟨_, -, _, h9, -⟩ := h8
  rw [hn] at h9
  cases h9

theorem appendToRequest_keeps {atvs : List ATV} : ∀ {as bs : List ATVSET}, appendToRequest atvs as = some bs →
    ∀ a ∈ as, ∀ v ∈ a.value, ∀ x ∈ v, ∃ b ∈ bs, ∃ w ∈ b.value, x ∈ w := by
  intro as
  induction as with
  | nil => intro bs h; simp [appendToRequest] at h
  | cons a as ih =>
    intro bs h a' ha v hv x hx
    have key : ∀ {cs}, appendToRequest atvs as = some cs → ∃ b ∈ a :: cs, ∃ w ∈ b.value, x ∈ w := by
      intro cs hc
      rcases List.mem_cons.1 ha with rfl | ha
      · exact ⟨_, by simp, v, hv, hx⟩
      · obtain ⟨b, hb, h⟩ := ih hc a' ha v hv x hx
        exact ⟨b, by simp [hb], h⟩
    obtain ⟨t, value⟩ := a
    unfold appendToRequest at h
    cases value with
    | nil =>
      simp only [Option.map_eq_some_iff] at h
      obtain ⟨cs, h1, rfl⟩ := h
      exact key h1
    | cons u us =>
      dsimp only at h
      split at h
      · rename_i ht
        simp only [Option.some.injEq] at h
        subst h
        rcases List.mem_cons.1 ha with rfl | ha
        · rcases List.mem_cons.1 hv with rfl | hv
          · exact ⟨_, List.mem_cons_self, v ++ atvs, by simp, by simp [hx]⟩
          · exact ⟨_, List.mem_cons_self, v, by simp [hv], hx⟩
        · exact ⟨a', by simp [ha], v, hv, hx⟩
      · simp only [Option.map_eq_some_iff] at h
        obtain ⟨cs, h1, rfl⟩ := h
        exact key h1

/-- No pair of the template's attributes is lost. -/
theorem build_keeps (attributes : List ATVSET) (exts : List Extension) :
    ∀ a ∈ attributes, ∀ v ∈ a.value, ∀ x ∈ v, ∃ b ∈ (buildAttributes attributes exts).1, ∃ w ∈ b.value, x ∈ w := by
  intro a ha v hv x hx
  unfold buildAttributes
  dsimp only
  split
  · split
    · rename_i as h
      exact appendToRequest_keeps h a ha v hv x hx
    · exact ⟨a, by simp [ha], v, hv, hx⟩
  · exact ⟨a, ha, v, hv, hx⟩

/-! ## C153 -/

/-- **C153** (part) Let a request be made from a template of C59 whose attributes can be encoded, and read. Every request that is made from
the result, for the same or another key pair, does not change it, is accepted, verifies, has the new key and the same subject,
attributes, extensions and names, and for the same key the same signed part. -/
theorem C153_again_partial (env : Env U) (t : CertReq U) (d : ℕ) (pub : Sm2.PublicKey) (hd : ¬ Sm2.n ∣ d)
    (hpub : Sm2.calculatePubKey ⟨d⟩ = .ok pub) (id : Option Bytes) (tape : Sm2.Tape) (csr : Bytes) (after : List ATVSET)
    (h : createCertificateRequest env t pub ⟨d⟩ id tape = .ok (csr, after)) (hl : csr.length < 2 ^ 31)
    (hraw : t.rawSubject ≠ [] → ∃ rdns, parseName t.rawSubject = .ok rdns) (hname : ∀ a ∈ t.subject.extraNames, ATVOk a)
    (hattr : ∀ a ∈ t.attributes, a.Ok) (hatv : ∀ a ∈ t.attributes, ∀ l ∈ a.value, ∀ x ∈ l, ATVOk x)
    (hext : ∀ e ∈ t.extraExtensions, OIDFits e.id) (r : CertReq U) (hr : parseCertificateRequest env csr = .ok r)
    (d' : ℕ) (pub' : Sm2.PublicKey) (hd' : ¬ Sm2.n ∣ d') (hpub' : Sm2.calculatePubKey ⟨d'⟩ = .ok pub') (id' : Option Bytes) (tape' : Sm2.Tape)
    (csr' : Bytes) (after' : List ATVSET) (h' : createCertificateRequest env r pub' ⟨d'⟩ id' tape' = .ok (csr', after'))
    (hl' : csr'.length < 2 ^ 31) :
    after' = r.attributes ∧ ∃ r', parseCertificateRequest env csr' = .ok r' ∧ verifyCSRSign r' id' = .ok true ∧ r'.publicKey = some pub' ∧
      r'.rawSubject = r.rawSubject ∧ r'.subject = r.subject ∧ r'.attributes = r.attributes ∧ r'.extensions = r.extensions ∧
      r'.dnsNames = r.dnsNames ∧ r'.emailAddresses = r.emailAddresses ∧ r'.ipAddresses = r.ipAddresses ∧ r'.uris = r.uris ∧
      (pub' = pub → r'.rawTBS = r.rawTBS) := by
  obtain ⟨x, y, hc, hx, hy⟩ := coords_dG hd
  have hp := pub_of_coords hpub hc
  subst hp
  obtain ⟨x', y', hc', hx', hy'⟩ := coords_dG hd'
  have hp := pub_of_coords hpub' hc'
  subst hp
  have hnames := (C142_names_partial env csr r hr).2.1
  obtain ⟨exts, subj, rdns, attrs, tbs, sig, epk, h1, h2, h3, h4, h5, h6, h7, h8⟩ := created_parse hc h hl hraw hname hattr hext
  have hA := parseRawAttributes_of (newRawAttributes_ok h6) (build_atvs (fun a ha => ⟨(hattr a ha).1, hatv a ha⟩) h5)
  have hrOk := hr
  rw [h8, hA, Res.ok_bind, Res.bind_eq_ok] at hrOk
  obtain ⟨sans, hsans, hrOk⟩ := hrOk
  have hrOk := (Res.ok.inj hrOk).symm
  have okA := build_ok hattr h5
  have hsubj : subj ≠ [] := by
    rintro rfl
    obtain ⟨c, _, e⟩ := parseName_ok h3
    simp [elem] at e
  -- the second creation
  have e1 : r.rawSubject = subj := by rw [hrOk]
  have e2 : r.attributes = (buildAttributes t.attributes exts).1 := by rw [hrOk]
  have e3 : r.extensions = requestedBy (buildAttributes t.attributes exts).1 := by rw [hrOk]
  have e4 : r.extraExtensions = [] := by rw [hrOk]
  have e5 : r.subject = Name.fillFromRDNSequence {} rdns := by rw [hrOk]
  have hbuild : ∀ exts', requestedExtensions env r = .ok exts' → buildAttributes r.attributes exts' = (r.attributes, r.attributes) := by
    intro exts' hx
    apply build_same
    rcases requestedExtensions_ok hx with ⟨hw, v, _, rfl⟩ | ⟨_, rfl⟩
    · rw [e4]
      intro e he
      rw [List.mem_singleton] at he
      subst he
      have : ¬ ∀ e ∈ r.extensions, e.id ≠ [2, 5, 29, 17] := by
        intro hn
        obtain ⟨n1, n2, n3, n4⟩ := hnames hn
        rcases hw.1 with k | k | k | k
        · exact k n1
        · exact k n2
        · exact k n3
        · exact k n4
      push Not at this
      obtain ⟨e, he, hid⟩ := this
      rw [e3, ← e2] at he
      obtain ⟨a, ha, hea⟩ := List.mem_flatMap.1 he
      unfold ATVSET.exts at hea
      split at hea
      · rename_i ht
        obtain ⟨z, hz, rfl⟩ := List.mem_map.1 hea
        cases hv : a.value with
        | nil => rw [hv] at hz; simp at hz
        | cons l ls =>
          rw [hv] at hz
          exact ⟨a, ha, ht, l, by simp [hv], z, by simpa using hz, hid⟩
      · simp at hea
    · rw [e4]; simp
  have hraw' : r.rawSubject ≠ [] → ∃ rdns, parseName r.rawSubject = .ok rdns := fun _ => ⟨rdns, by rw [e1]; exact h3⟩
  have hname' : ∀ a ∈ r.subject.extraNames, ATVOk a := by
    rw [e5, (C80_read rdns).2.2.2.2.2.2.2.2.2.2]; simp
  have hattr' : ∀ a ∈ r.attributes, a.Ok := by rw [e2]; exact okA
  have hext' : ∀ e ∈ r.extraExtensions, OIDFits e.id := by rw [e4]; simp
  obtain ⟨exts', subj', rdns', attrs', tbs', sig', epk', g1, g2, g3, g4, g5, g6, g7, g8⟩ := created_parse hc' h' hl' hraw' hname' hattr' hext'
  have es : subj' = subj := by
    unfold subjectBytes at g2
    rw [e1, if_pos (List.length_pos_of_ne_nil hsubj), Res.ok.injEq] at g2
    exact g2.symm
  subst es
  have er : rdns' = rdns := Res.ok.inj (g3.symm.trans h3)
  subst er
  rw [hbuild exts' g1] at g6 g8
  dsimp only at g6 g8
  have ea : attrs' = attrs := by
    rw [e2, h6] at g6
    exact (Res.ok.inj g6).symm
  subst ea
  rw [hA, Res.ok_bind, e2, hsans, Res.ok_bind] at g8
  have hv : Sm2.verify ⟨x', y'⟩ id' tbs' sig' = .ok true := C35_der_verifies d' _ hpub' id' tbs' tape' sig' g7
  have hs1 : ∀ s, subjectBytes t.rawSubject t.subject = .ok s → RawOk s := by
    intro s hs
    rw [h2] at hs
    obtain rfl := Res.ok.inj hs
    exact rawOk_name h3
  have hs2 : ∀ s, subjectBytes r.rawSubject r.subject = .ok s → RawOk s := by
    intro s hs
    rw [g2] at hs
    obtain rfl := Res.ok.inj hs
    exact rawOk_name h3
  obtain ⟨pk1, ex1, su1, at1, k1, k2, k3, k4, k5, k6⟩ := created_tbs hc h hl hs1 hr
  obtain ⟨pk2, ex2, su2, at2, m1, m2, m3, m4, m5, m6⟩ := created_tbs hc' h' hl' hs2 g8
  rw [hbuild ex2 m2] at m4 m6
  refine ⟨m6, _, g8, hv, rfl, e1.symm, e5.symm, e2.symm, e3.symm, ?_, ?_, ?_, ?_, ?_⟩
  · rw [hrOk]
  · rw [hrOk]
  · rw [hrOk]
  · rw [hrOk]
  · intro hpp
    simp only [Sm2.PublicKey.mk.injEq] at hpp
    rw [hpp.1, hpp.2, k1] at m1
    obtain rfl := Res.ok.inj m1
    rw [k2] at h1
    obtain rfl := Res.ok.inj h1
    rw [k3] at h2
    obtain rfl := Res.ok.inj h2
    rw [m3] at g2
    obtain rfl := Res.ok.inj g2
    rw [e2, k4] at m4
    obtain rfl := Res.ok.inj m4
    rw [k5] at m5
    exact (Res.ok.inj m5).symm

/-- **C153** (negation) From a request one of whose attributes has a pair without a value no request can be made, with any key,
identity and randomness. -/
theorem C153_nil_violated (env : Env U) (r : CertReq U) (a : ATVSET) (ha : a ∈ r.attributes) (l : List ATV) (hl : l ∈ a.value) (x : ATV)
    (hx : x ∈ l) (hn : x.value = .nil) (pub : Sm2.PublicKey) (pri : Sm2.PrivateKey) (id : Option Bytes) (tape : Sm2.Tape)
    (out : Bytes × List ATVSET) : createCertificateRequest env r pub pri id tape ≠ .ok out := by
  intro h
  obtain ⟨csr, after⟩ := out
  obtain ⟨pk, exts, subj, attrs, tbs, sig, h1, h2, h3, h4, h5, h6, h7, h8⟩ := create_parts h
  obtain ⟨b, hb, w, hw, hxw⟩ := build_keeps r.attributes exts a ha l hl x hx
  exact encoded_not_nil h4 b hb w hw x hxw hn

/-- **C153** (negation) An accepted request that asks for critical extensions, from which no request can be made. -/
theorem C153_critical_violated : ∃ r : CertReq Bytes, parseCertificateRequest exEnv (exAsking exAttrs) = .ok r ∧
    (∃ e ∈ r.extensions, e.critical = true) ∧
    ∀ pub pri id tape out, createCertificateRequest exEnv r pub pri id tape ≠ .ok out := by
  have h : (match parseCertificateRequest exEnv (exAsking exAttrs) with
    | .ok r => decide (r.attributes = [⟨[1, 2, 840, 113549, 1, 9, 14], [[⟨[2, 5, 29, 17], .octets (elem 0x30 (elem 0x82 [0x61]))⟩]]⟩,
        ⟨[1, 2, 840, 113549, 1, 9, 14], [[⟨[2, 5, 29, 15], .nil⟩, ⟨[1, 2, 3], .nil⟩]]⟩] ∧ ∃ e ∈ r.extensions, e.critical = true)
    | _ => false) = true := by decide +kernel
  split at h
  · rename_i r h1
    obtain ⟨h, hc⟩ := of_decide_eq_true h
    exact ⟨r, h1, hc, fun pub pri id tape out => C153_nil_violated exEnv r ⟨[1, 2, 840, 113549, 1, 9, 14], [[⟨[2, 5, 29, 15], .nil⟩, ⟨[1, 2, 3], .nil⟩]]⟩
      (by rw [h]; simp) [⟨[2, 5, 29, 15], .nil⟩, ⟨[1, 2, 3], .nil⟩] (by simp) ⟨[1, 2, 3], .nil⟩ (by simp) rfl pub pri id tape out⟩
  · cases h

/-! ## Concrete case -/

set_option maxRecDepth 100000 in
/-- The request of C59's example, and the request that is made from it with the same key: another signature, the same signed part, in
which the name is asked for once. -/
example : exCreate exCsrTemplate (fun c =>
    match parseCertificateRequest exEnv c.1, Sm2.calculatePubKey ⟨2⟩ with
    | .ok r, .ok pub =>
      match createCertificateRequest exEnv r pub ⟨2⟩ none [some (toBE 32 5)] with
      | .ok (csr', after) => c.1 ≠ csr' ∧ after = r.attributes ∧
          (match parseCertificateRequest exEnv csr' with
           | .ok r' => decide (r'.rawTBS = r.rawTBS ∧ r'.extensions.map Extension.id = [[2, 5, 29, 17], [1, 2, 3]])
           | _ => false) = true
      | _ => false
    | _, _ => false) = true := by decide +kernel

end Verif.Props
