import Verif.Props.CertAccept
/-!
# Property C100: what is exposed of a certificate or request is what was signed
-/
namespace Verif.Props
open Verif Verif.Der Verif.Cert Verif.Spec.DER

variable {U : Type}

/-! ## A struct field does not depend on what follows it -/

theorem parseField_struct_iff {α : Type} {zero : α} {isZero : α → Bool} {body : Bytes → Bytes → Res α} {make : α → Res Bytes}
    {bs rest : Bytes} {v : α} : parseField (tyStruct zero isZero body make) {} bs = .ok (v, rest) ↔
      ∃ c, c.length < 2 ^ 31 ∧ bs = elem 0x30 c ++ rest ∧ body c (elem 0x30 c) = .ok v :=
  parseField_iff (p := {}) rfl rfl rfl rfl (by show (16 : Nat) < 31; decide)

theorem parseField_bits_iff {bs rest : Bytes} {v : BitString} : parseField tyBits {} bs = .ok (v, rest) ↔
    ∃ c, c.length < 2 ^ 31 ∧ bs = elem 0x03 c ++ rest ∧ parseBitString c = .ok v :=
  parseField_iff (p := {}) rfl rfl rfl rfl (by decide)

theorem elem_eq {c c' : Bytes} (hc : c'.length < 2 ^ 31) (h : elem 0x30 c = elem 0x30 c') : c = c' :=
  (elem_trailing (tail := []) hc (by rw [List.append_nil]; exact h)).1

/-- The three components of a certificate, whatever octets come after them. -/
theorem certificate_components {env : Env U} {data : Bytes} {r : X509Cert U} : parseCertificate env data = .ok r ↔
    ∃ tc ac sc more tbs alg sig, (elem 0x30 tc ++ (elem 0x30 ac ++ (elem 0x03 sc ++ more))).length < 2 ^ 31 ∧
      tc.length < 2 ^ 31 ∧ ac.length < 2 ^ 31 ∧ sc.length < 2 ^ 31 ∧
      data = elem 0x30 (elem 0x30 tc ++ (elem 0x30 ac ++ (elem 0x03 sc ++ more))) ∧
      tyTbsCert.body ⟨0, true, 16, tc.length⟩ 16 tc (elem 0x30 tc) = .ok tbs ∧
      tyAlgId.body ⟨0, true, 16, ac.length⟩ 16 ac (elem 0x30 ac) = .ok alg ∧
      parseBitString sc = .ok sig ∧ parseCert env ⟨data, tbs, alg, sig⟩ = .ok r := by
  unfold parseCertificate
  rw [Res.bind_eq_ok]
  constructor
  · rintro ⟨⟨inp, rest⟩, h1, h2⟩
    rcases ite_ok h2 with ⟨_, h2⟩ | ⟨hr, h2⟩
    · simp at h2
    have : rest = [] := by cases rest <;> simp_all
    subst this
    obtain ⟨c, hc, rfl, h3⟩ := parseField_struct h1
    simp only [Res.bind_eq_ok] at h3
    obtain ⟨⟨t, r1⟩, g1, ⟨a, r2⟩, g2, ⟨s, r3⟩, g3, g4⟩ := h3
    simp only [Res.ok.injEq] at g4
    subst g4
    obtain ⟨tc, t1, rfl, t3⟩ := parseField_struct_iff.1 g1
    obtain ⟨ac, a1, rfl, a3⟩ := parseField_struct_iff.1 g2
    obtain ⟨sc, s1, rfl, s3⟩ := parseField_bits_iff.1 g3
    exact ⟨tc, ac, sc, r3, t, a, s, hc, t1, a1, s1, by simp, t3, a3, s3, by simpa using h2⟩
  · rintro ⟨tc, ac, sc, more, tbs, alg, sig, h0, h1, h2, h3, rfl, h5, h6, h7, h8⟩
    refine ⟨(⟨_, tbs, alg, sig⟩, []), parseField_struct_iff.2 ⟨_, h0, by rw [List.append_nil], ?_⟩, by simpa using h8⟩
    simp only [Res.bind_eq_ok]
    exact ⟨(tbs, _), parseField_struct_iff.2 ⟨tc, h1, rfl, h5⟩, (alg, _), parseField_struct_iff.2 ⟨ac, h2, rfl, h6⟩, (sig, more),
      parseField_bits_iff.2 ⟨sc, h3, rfl, h7⟩, rfl⟩

/-- The three components of a request, whatever octets come after them. -/
theorem request_components {env : Env U} {data : Bytes} {r : CertReq U} : parseCertificateRequest env data = .ok r ↔
    ∃ tc ac sc more tbs alg sig, (elem 0x30 tc ++ (elem 0x30 ac ++ (elem 0x03 sc ++ more))).length < 2 ^ 31 ∧
      tc.length < 2 ^ 31 ∧ ac.length < 2 ^ 31 ∧ sc.length < 2 ^ 31 ∧
      data = elem 0x30 (elem 0x30 tc ++ (elem 0x30 ac ++ (elem 0x03 sc ++ more))) ∧
      tyTbsCSR.body ⟨0, true, 16, tc.length⟩ 16 tc (elem 0x30 tc) = .ok tbs ∧
      tyAlgId.body ⟨0, true, 16, ac.length⟩ 16 ac (elem 0x30 ac) = .ok alg ∧
      parseBitString sc = .ok sig ∧ parseCSR env ⟨data, tbs, alg, sig⟩ = .ok r := by
  unfold parseCertificateRequest
  rw [Res.bind_eq_ok]
  constructor
  · rintro ⟨⟨inp, rest⟩, h1, h2⟩
    rcases ite_ok h2 with ⟨_, h2⟩ | ⟨hr, h2⟩
    · simp at h2
    have : rest = [] := by cases rest <;> simp_all
    subst this
    obtain ⟨c, hc, rfl, h3⟩ := parseField_struct h1
    simp only [Res.bind_eq_ok] at h3
    obtain ⟨⟨t, r1⟩, g1, ⟨a, r2⟩, g2, ⟨s, r3⟩, g3, g4⟩ := h3
    simp only [Res.ok.injEq] at g4
    subst g4
    obtain ⟨tc, t1, rfl, t3⟩ := parseField_struct_iff.1 g1
    obtain ⟨ac, a1, rfl, a3⟩ := parseField_struct_iff.1 g2
    obtain ⟨sc, s1, rfl, s3⟩ := parseField_bits_iff.1 g3
    exact ⟨tc, ac, sc, r3, t, a, s, hc, t1, a1, s1, by simp, t3, a3, s3, by simpa using h2⟩
  · rintro ⟨tc, ac, sc, more, tbs, alg, sig, h0, h1, h2, h3, rfl, h5, h6, h7, h8⟩
    refine ⟨(⟨_, tbs, alg, sig⟩, []), parseField_struct_iff.2 ⟨_, h0, by rw [List.append_nil], ?_⟩, by simpa using h8⟩
    simp only [Res.bind_eq_ok]
    exact ⟨(tbs, _), parseField_struct_iff.2 ⟨tc, h1, rfl, h5⟩, (alg, _), parseField_struct_iff.2 ⟨ac, h2, rfl, h6⟩, (sig, more),
      parseField_bits_iff.2 ⟨sc, h3, rfl, h7⟩, rfl⟩

theorem tbsCert_raw {tc : Bytes} {t : TagAndLength} {n : Nat} {tbs : TbsCert} (h : tyTbsCert.body t n tc (elem 0x30 tc) = .ok tbs) :
    tbs.raw = elem 0x30 tc := by
  simp only [tyTbsCert, tyStruct, Res.bind_eq_ok] at h
  obtain ⟨_, _, _, _, _, _, _, _, _, _, _, _, _, _, _, _, _, _, _, _, h⟩ := h
  simp only [Res.ok.injEq] at h
  rw [← h]

theorem tbsCSR_raw {tc : Bytes} {t : TagAndLength} {n : Nat} {tbs : TbsCSR} (h : tyTbsCSR.body t n tc (elem 0x30 tc) = .ok tbs) :
    tbs.raw = elem 0x30 tc := by
  simp only [tyTbsCSR, tyStruct, Res.bind_eq_ok] at h
  obtain ⟨_, _, _, _, _, _, _, _, h⟩ := h
  simp only [Res.ok.injEq] at h
  rw [← h]

/-! ## The extensions do not look at the outer parts -/

/-- Another outer part. -/
def X509Cert.outer (c : X509Cert U) (raw sig : Bytes) : X509Cert U := { c with raw := raw, signature := sig }

local macro "outer_case" h:ident : tactic => `(tactic|
  (obtain ⟨w, h1, h2⟩ := $h
   refine ⟨w, h1, ?_⟩
   simp only [Res.ok.injEq, Prod.mk.injEq] at h2 ⊢
   rw [← h2.1, ← h2.2]
   exact ⟨rfl, rfl⟩))

theorem parseExtension_outer (env : Env U) (raw sig : Bytes) (out : X509Cert U) (e : Extension) {o : X509Cert U} {u : Bool}
    (h : parseExtension env out e = .ok (o, u)) : parseExtension env (X509Cert.outer out raw sig) e = .ok (X509Cert.outer o raw sig, u) := by
  unfold parseExtension at h ⊢
  by_cases hc : e.id = oidExtensionKeyUsage
  · rw [if_pos hc, Res.bind_eq_ok] at h ⊢; outer_case h
  rw [if_neg hc] at h ⊢; clear hc
  by_cases hc : e.id = oidExtensionBasicConstraints
  · rw [if_pos hc, Res.bind_eq_ok] at h ⊢; outer_case h
  rw [if_neg hc] at h ⊢; clear hc
  by_cases hc : e.id = oidExtensionSubjectAltName
  · rw [if_pos hc, Res.bind_eq_ok] at h ⊢; outer_case h
  rw [if_neg hc] at h ⊢; clear hc
  by_cases hc : e.id = oidExtensionNameConstraints
  · rw [if_pos hc, Res.bind_eq_ok] at h ⊢; outer_case h
  rw [if_neg hc] at h ⊢; clear hc
  by_cases hc : e.id = oidExtensionCRLDistributionPoints
  · rw [if_pos hc, Res.bind_eq_ok] at h ⊢; outer_case h
  rw [if_neg hc] at h ⊢; clear hc
  by_cases hc : e.id = oidExtensionAuthorityKeyId
  · rw [if_pos hc, Res.bind_eq_ok] at h ⊢; outer_case h
  rw [if_neg hc] at h ⊢; clear hc
  by_cases hc : e.id = oidExtensionExtendedKeyUsage
  · rw [if_pos hc, Res.bind_eq_ok] at h ⊢; outer_case h
  rw [if_neg hc] at h ⊢; clear hc
  by_cases hc : e.id = oidExtensionSubjectKeyId
  · rw [if_pos hc, Res.bind_eq_ok] at h ⊢; outer_case h
  rw [if_neg hc] at h ⊢; clear hc
  by_cases hc : e.id = oidExtensionCertificatePolicies
  · rw [if_pos hc, Res.bind_eq_ok] at h ⊢; outer_case h
  rw [if_neg hc] at h ⊢; clear hc
  by_cases hc : e.id = oidExtensionAuthorityInfoAccess
  · rw [if_pos hc, Res.bind_eq_ok] at h ⊢; outer_case h
  rw [if_neg hc] at h ⊢; clear hc
  simp only [Res.ok.injEq, Prod.mk.injEq] at h ⊢
  obtain ⟨rfl, rfl⟩ := h
  exact ⟨rfl, rfl⟩

theorem parseExtensions_outer (env : Env U) (raw sig : Bytes) : ∀ (es : List Extension) (out o : X509Cert U),
    parseExtensions env es out = .ok o → parseExtensions env es (X509Cert.outer out raw sig) = .ok (X509Cert.outer o raw sig) := by
  intro es
  induction es with
  | nil => intro out o h; simp only [parseExtensions, Res.ok.injEq] at h ⊢; rw [h]
  | cons e es ih =>
    intro out o h
    rw [parseExtensions, Res.bind_eq_ok] at h ⊢
    obtain ⟨⟨o1, u⟩, h1, h2⟩ := h
    refine ⟨_, parseExtension_outer env raw sig _ e h1, ?_⟩
    have := ih _ _ h2
    dsimp only at this ⊢
    rw [← this]
    congr 1
    split <;> rfl

/-! ## C100 -/

theorem cert_outer {env : Env U} {inp : Certificate} {r : X509Cert U} (h : parseCert env inp = .ok r) :
    r.rawTBS = inp.tbs.raw ∧ r.raw = inp.raw ∧ r.signature = inp.sigValue.rightAlign := by
  unfold parseCert at h
  rcases ite_ok h with ⟨_, h⟩ | ⟨_, h⟩
  · simp at h
  rcases ite_ok h with ⟨_, h⟩ | ⟨_, h⟩
  · simp at h
  simp only [Res.bind_eq_ok] at h
  obtain ⟨pub, k1, rdns, k2, rdns2, k3, k4⟩ := h
  have hcore := (parseExtensions_core env _ _ _ k4).1
  simp only [X509Cert.core, Prod.mk.injEq] at hcore
  exact ⟨hcore.2.1, hcore.1, hcore.2.2.2.2.2.1⟩

/-- C100: two accepted certificates with the same signed part differ at most in `Raw` and `Signature`: every other field is
determined by the bytes under the signature. -/
theorem C100_certificate (env : Env U) (data data' : Bytes) (r r' : X509Cert U) (h : parseCertificate env data = .ok r)
    (h' : parseCertificate env data' = .ok r') (ht : r.rawTBS = r'.rawTBS) : r' = { r with raw := r'.raw, signature := r'.signature } := by
  obtain ⟨tc, ac, sc, more, tbs, alg, sig, _, h1, h2, h3, h4, h5, h6, h7, h8⟩ := certificate_components.1 h
  obtain ⟨tc', ac', sc', more', tbs', alg', sig', _, h1', h2', h3', h4', h5', h6', h7', h8'⟩ := certificate_components.1 h'
  unfold parseCert at h8 h8'
  rcases ite_ok h8 with ⟨_, h8⟩ | ⟨_, h8⟩
  · simp at h8
  rcases ite_ok h8 with ⟨_, h8⟩ | ⟨_, h8⟩
  · simp at h8
  rcases ite_ok h8' with ⟨_, h8'⟩ | ⟨_, h8'⟩
  · simp at h8'
  rcases ite_ok h8' with ⟨_, h8'⟩ | ⟨_, h8'⟩
  · simp at h8'
  simp only [Res.bind_eq_ok] at h8 h8'
  obtain ⟨pub, k1, rdns, k2, rdns2, k3, k4⟩ := h8
  obtain ⟨pub', k1', rdns', k2', rdns2', k3', k4'⟩ := h8'
  have hcore := (parseExtensions_core env _ _ _ k4).1
  have hcore' := (parseExtensions_core env _ _ _ k4').1
  simp only [X509Cert.core, Prod.mk.injEq] at hcore hcore'
  have e : tc = tc' := by
    refine elem_eq h1' ?_
    rw [← tbsCert_raw h5, ← tbsCert_raw h5', ← hcore.2.1, ← hcore'.2.1, ht]
  subst e
  rw [h5] at h5'
  cases h5'
  rw [k1] at k1'; rw [k2] at k2'; rw [k3] at k3'
  cases k1'; cases k2'; cases k3'
  have := parseExtensions_outer env data' sig'.rightAlign _ _ _ k4
  have hr := Res.ok.inj (this.symm.trans k4')
  rw [← hr]
  rfl

/-- C100 for requests. -/
theorem C100_request (env : Env U) (data data' : Bytes) (r r' : CertReq U) (h : parseCertificateRequest env data = .ok r)
    (h' : parseCertificateRequest env data' = .ok r') (ht : r.rawTBS = r'.rawTBS) : r' = { r with raw := r'.raw, signature := r'.signature } := by
  obtain ⟨tc, ac, sc, more, tbs, alg, sig, _, h1, h2, h3, h4, h5, h6, h7, h8⟩ := request_components.1 h
  obtain ⟨tc', ac', sc', more', tbs', alg', sig', _, h1', h2', h3', h4', h5', h6', h7', h8'⟩ := request_components.1 h'
  unfold parseCSR at h8 h8'
  rw [Res.bind_eq_ok] at h8 h8'
  obtain ⟨attrs, k0, h8⟩ := h8
  obtain ⟨attrs', k0', h8'⟩ := h8'
  rcases ite_ok h8 with ⟨_, h8⟩ | ⟨_, h8⟩
  · simp at h8
  rcases ite_ok h8 with ⟨_, h8⟩ | ⟨_, h8⟩
  · simp at h8
  rcases ite_ok h8' with ⟨_, h8'⟩ | ⟨_, h8'⟩
  · simp at h8'
  rcases ite_ok h8' with ⟨_, h8'⟩ | ⟨_, h8'⟩
  · simp at h8'
  simp only [Res.bind_eq_ok] at h8 h8'
  obtain ⟨pub, k1, rdns, k2, exts, k3, sans, k4, k5⟩ := h8
  obtain ⟨pub', k1', rdns', k2', exts', k3', sans', k4', k5'⟩ := h8'
  simp only [Res.ok.injEq] at k5 k5'
  subst k5 k5'
  have e : tc = tc' := by
    refine elem_eq h1' ?_
    rw [← tbsCSR_raw h5, ← tbsCSR_raw h5']
    exact ht
  subst e
  rw [h5] at h5'
  cases h5'
  rw [k0] at k0'; rw [k1] at k1'; rw [k2] at k2'; rw [k3] at k3'
  cases k0'; cases k1'; cases k2'; cases k3'
  rw [k4] at k4'
  cases k4'
  rfl

/-- What a verifier concludes: a request with the signed part of an accepted one whose signature is good has the contents that
its holder signed. -/
theorem C100_verified (env : Env U) (data data' : Bytes) (r r' : CertReq U) (id : Option Bytes)
    (h : parseCertificateRequest env data = .ok r) (h' : parseCertificateRequest env data' = .ok r') (ht : r.rawTBS = r'.rawTBS)
    (hs : r.signature = r'.signature) : verifyDERCSRSign env data id = verifyDERCSRSign env data' id := by
  have e := C100_request env data data' r r' h h' ht
  unfold verifyDERCSRSign
  rw [h, h', Res.ok_bind, Res.ok_bind, e]
  unfold verifyCSRSign
  dsimp only
  rw [hs]

/-- `Raw` is not determined by what is signed and the signature: to every accepted certificate there are others, one for each
list of octets, with the same signed part and signature. A fingerprint of `Raw` does not identify a certificate. -/
theorem C100_fingerprint_violated (env : Env U) (data : Bytes) (r : X509Cert U) (h : parseCertificate env data = .ok r) (extra : Bytes)
    (he : extra ≠ []) (hl : data.length + extra.length < 2 ^ 31) : ∃ data' r', data' ≠ data ∧ parseCertificate env data' = .ok r' ∧
      r' = { r with raw := data' } := by
  obtain ⟨tc, ac, sc, more, tbs, alg, sig, h0, h1, h2, h3, h4, h5, h6, h7, h8⟩ := certificate_components.1 h
  have hlen := length_le_elem 0x30 (elem 0x30 tc ++ (elem 0x30 ac ++ (elem 0x03 sc ++ more)))
  rw [← h4] at hlen
  have hc : (elem 0x30 tc ++ (elem 0x30 ac ++ (elem 0x03 sc ++ (more ++ extra)))).length < 2 ^ 31 := by
    simp only [List.length_append] at hlen ⊢; omega
  obtain ⟨r', hr'⟩ : ∃ r', parseCert env ⟨elem 0x30 (elem 0x30 tc ++ (elem 0x30 ac ++ (elem 0x03 sc ++ (more ++ extra)))), tbs, alg, sig⟩ = .ok r' := by
    unfold parseCert at h8 ⊢
    rcases ite_ok h8 with ⟨_, h8⟩ | ⟨g1, h8⟩
    · simp at h8
    rcases ite_ok h8 with ⟨_, h8⟩ | ⟨g2, h8⟩
    · simp at h8
    rw [if_neg g1, if_neg g2]
    simp only [Res.bind_eq_ok] at h8 ⊢
    obtain ⟨pub, k1, rdns, k2, rdns2, k3, k4⟩ := h8
    exact ⟨_, pub, k1, rdns, k2, rdns2, k3, parseExtensions_outer env (elem 0x30 (elem 0x30 tc ++ (elem 0x30 ac ++ (elem 0x03 sc ++ (more ++ extra)))))
      sig.rightAlign _ _ _ k4⟩
  have hp := certificate_components.2 ⟨tc, ac, sc, more ++ extra, tbs, alg, sig, hc, h1, h2, h3, rfl, h5, h6, h7, hr'⟩
  refine ⟨_, r', ?_, hp, ?_⟩
  · rw [h4]
    intro e
    have := congrArg List.length (elem_eq h0 e)
    have := List.length_pos_iff.2 he
    simp only [List.length_append] at *
    omega
  · obtain ⟨c1, c2, c3⟩ : r'.rawTBS = tbs.raw ∧ r'.raw = _ ∧ r'.signature = sig.rightAlign := cert_outer hr'
    obtain ⟨d1, d2, d3⟩ : r.rawTBS = tbs.raw ∧ r.raw = _ ∧ r.signature = sig.rightAlign := cert_outer h8
    have := C100_certificate env _ _ r r' h hp (d1.trans c1.symm)
    rw [this, c2, c3, ← d3]

/-- The same for requests: octets can be put behind the signature of every accepted request, and what was read from it stays,
`Raw` excepted; in particular the signature still verifies. -/
theorem C100_request_raw_violated (env : Env U) (data : Bytes) (r : CertReq U) (h : parseCertificateRequest env data = .ok r) (extra : Bytes)
    (he : extra ≠ []) (hl : data.length + extra.length < 2 ^ 31) : ∃ data', data' ≠ data ∧
      parseCertificateRequest env data' = .ok { r with raw := data' } ∧
      ∀ id, verifyDERCSRSign env data' id = verifyDERCSRSign env data id := by
  obtain ⟨tc, ac, sc, more, tbs, alg, sig, h0, h1, h2, h3, h4, h5, h6, h7, h8⟩ := request_components.1 h
  have hlen := length_le_elem 0x30 (elem 0x30 tc ++ (elem 0x30 ac ++ (elem 0x03 sc ++ more)))
  rw [← h4] at hlen
  have hc : (elem 0x30 tc ++ (elem 0x30 ac ++ (elem 0x03 sc ++ (more ++ extra)))).length < 2 ^ 31 := by
    simp only [List.length_append] at hlen ⊢; omega
  have hr' : parseCSR env ⟨elem 0x30 (elem 0x30 tc ++ (elem 0x30 ac ++ (elem 0x03 sc ++ (more ++ extra)))), tbs, alg, sig⟩ =
      .ok { r with raw := elem 0x30 (elem 0x30 tc ++ (elem 0x30 ac ++ (elem 0x03 sc ++ (more ++ extra)))) } := by
    unfold parseCSR at h8 ⊢
    rw [Res.bind_eq_ok] at h8 ⊢
    obtain ⟨attrs, k0, h8⟩ := h8
    refine ⟨attrs, k0, ?_⟩
    rcases ite_ok h8 with ⟨_, h8⟩ | ⟨g1, h8⟩
    · simp at h8
    rcases ite_ok h8 with ⟨_, h8⟩ | ⟨g2, h8⟩
    · simp at h8
    rw [if_neg g1, if_neg g2]
    simp only [Res.bind_eq_ok, Res.ok.injEq] at h8 ⊢
    obtain ⟨pub, k1, sub, k2, exts, k3, sans, k4, k5⟩ := h8
    exact ⟨pub, k1, sub, k2, exts, k3, sans, k4, by rw [← k5]⟩
  have hp := request_components.2 ⟨tc, ac, sc, more ++ extra, tbs, alg, sig, hc, h1, h2, h3, rfl, h5, h6, h7, hr'⟩
  refine ⟨_, ?_, hp, fun id => (C100_verified env _ _ _ _ id h hp rfl rfl).symm⟩
  rw [h4]
  intro e
  have := congrArg List.length (elem_eq h0 e)
  have := List.length_pos_iff.2 he
  simp only [List.length_append] at *
  omega

/-- An instance of C100: two accepted certificates with the same signed part, different `Raw`. -/
example : (match parseCertificate exEnv (exSigned exOidSig (exCertInfo exVersion exOidSig exGoodKey) []),
      parseCertificate exEnv (exSigned exOidSig (exCertInfo exVersion exOidSig exGoodKey) [1, 2, 3]) with
    | .ok r, .ok r' => decide (r.rawTBS = r'.rawTBS ∧ r.raw ≠ r'.raw ∧ r.publicKey = r'.publicKey ∧ r.publicKey ≠ none)
    | _, _ => false) = true := by decide +kernel

/-- And two accepted requests. -/
example : (match parseCertificateRequest exEnv (exSigned exOidSig (exRequestInfo exGoodKey) []),
      parseCertificateRequest exEnv (exSigned exOidSig (exRequestInfo exGoodKey) [7]) with
    | .ok r, .ok r' => decide (r.rawTBS = r'.rawTBS ∧ r.raw ≠ r'.raw ∧ r.signature = r'.signature ∧ r'.subject.commonName = [0x61])
    | _, _ => false) = true := by decide +kernel

end Verif.Props
