import Verif.Props.CertExtExact
import Verif.Props.CertSigned
/-!
# C144: exactly which byte strings are certificates

The grammar of what `ParseCertificate` accepts, octet by octet, with every field of the result. `C144_exact` says that the function accepts the
words of this grammar and nothing else.
-/
namespace Verif.Props
open Verif Verif.Der Verif.Cert Verif.Spec.DER Verif.Spec.Cert
open Verif.Spec.SM2 (coords fe)

variable {U : Type}

/-! ## Grammar -/

/-- A time of one of the two kinds. -/
def ReadTime (t : Time) (e : Bytes) : Prop :=
  ∃ c : Bytes, c.length < 2 ^ 31 ∧ (e = elem 0x17 c ∧ IsUTCTime t.year t.month t.day t.hour t.min t.sec t.offset c ∨
    e = elem 0x18 c ∧ IsGeneralizedTime t.year t.month t.day t.hour t.min t.sec t.offset c)

/-- The version: nothing, or an integer in an element whose length counts for nothing (it must not be zero). -/
def ReadVersion (v : Int) (pre : Bytes) : Prop :=
  v = 0 ∧ pre = [] ∨ ∃ n c, 0 < n ∧ n < 2 ^ 31 ∧ pre = 0xa0 :: (lenOctets n ++ elem 0x02 c) ∧ IsInt v c ∧ c.length ≤ 8

/-- The parts of a `TBSCertificate` that are looked at. -/
structure CertParts where
  version : Int
  serial : Int
  issuer : Bytes
  notBefore : Time
  notAfter : Time
  subject : Bytes
  key : Bytes
  exts : Option (List Extension)

/-- `TBSCertificate`. The inner algorithm can be any; the unique identifiers are read and dropped. -/
def ReadCertInfo (p : CertParts) (tbs : Bytes) : Prop :=
  ∃ pre sc alg oid params t1 t2 vmore r1 id1 r2 id2 r3 more,
    tbs = elem 0x30 (pre ++ (elem 0x02 sc ++ (alg ++ (p.issuer ++ (elem 0x30 (t1 ++ (t2 ++ vmore)) ++ (p.subject ++ (p.key ++ r1))))))) ∧
    ReadVersion p.version pre ∧ IsInt p.serial sc ∧ ReadAlg oid params alg ∧ ReadTime p.notBefore t1 ∧ ReadTime p.notAfter t2 ∧
    MayBe 0x81 (fun (o : Option BitString) c => ∃ s, o = some s ∧ IsBitString s.bytes s.bitLength c) none id1 r1 r2 ∧
    MayBe 0x82 (fun (o : Option BitString) c => ∃ s, o = some s ∧ IsBitString s.bytes s.bitLength c) none id2 r2 r3 ∧
    MayBeAround 0xa3 0x30 (fun (o : Option (List Extension)) c => ∃ es ws, o = some es ∧ c = ws.flatten ∧ List.Forall₂ ReadExtension es ws)
      none p.exts r3 more

/-- The extensions, one after the other. -/
inductive Effects (env : Env U) : List Extension → X509Cert U → X509Cert U → Prop
  | nil (out : X509Cert U) : Effects env [] out out
  | cons {e : Extension} {es : List Extension} {out mid r : X509Cert U} {u : Bool} :
      Effect env e { out with extensions := out.extensions ++ [e] } mid u →
      Effects env es (if e.critical = true ∧ u = true then
        { mid with unhandledCriticalExtensions := mid.unhandledCriticalExtensions ++ [e.id] } else mid) r →
      Effects env (e :: es) out r

/-- A certificate with the given parts, whatever the extensions say. -/
def CertWord (p : CertParts) (tbs : Bytes) (x y : ℕ) (issuer subject : RDNSequence) (signature data : Bytes) : Prop :=
  ∃ alg params sc more, ReadCertInfo p tbs ∧ ReadName issuer p.issuer ∧ ReadName subject p.subject ∧
    ReadKey x y p.key ∧ ReadAlg sm3WithSM2 params alg ∧ ReadBits signature sc ∧
    data = elem 0x30 (tbs ++ (alg ++ (elem 0x03 sc ++ more))) ∧ (tbs ++ (alg ++ (elem 0x03 sc ++ more))).length < 2 ^ 31

/-- The whole certificate, read as `r`. The version is increased by one, in 64 bits. -/
def ReadCertificate (env : Env U) (r : X509Cert U) (data : Bytes) : Prop :=
  ∃ p tbs x y issuer subject signature, CertWord p tbs x y issuer subject signature data ∧
    Effects env (p.exts.getD []) {
      raw := data, rawTBS := tbs, rawSPKI := p.key, rawSubject := p.subject, rawIssuer := p.issuer, signature := signature
      publicKey := some ⟨x, y⟩, version := (BitVec.ofInt 64 (p.version + 1)).toInt, serialNumber := some p.serial
      issuer := Name.fillFromRDNSequence {} issuer, subject := Name.fillFromRDNSequence {} subject
      notBefore := p.notBefore, notAfter := p.notAfter } r

/-! ## Lemmas -/

theorem parseField_time_exact {bs rest : Bytes} {v : Time} : parseField tyTime {} bs = .ok (v, rest) ↔ ∃ e, bs = e ++ rest ∧ ReadTime v e := by
  constructor
  · intro h
    have hne : bs ≠ [] := by rintro rfl; simp [parseField] at h
    unfold parseField at h
    rw [if_neg hne, Res.bind_eq_ok] at h
    obtain ⟨⟨t, r⟩, h1, h2⟩ := h
    simp only [Bool.false_eq_true, if_false] at h2
    unfold parseInner tyTime at h2
    simp only [true_and, Bool.false_eq_true, if_false] at h2
    rcases ite_ok h2 with ⟨_, h2⟩ | ⟨hm, h2⟩
    · simp at h2
    rcases ite_ok h2 with ⟨_, h2⟩ | ⟨hl, h2⟩
    · simp at h2
    rw [Res.bind_eq_ok] at h2
    obtain ⟨w, h3, h4⟩ := h2
    simp only [Res.ok.injEq, Prod.mk.injEq] at h4
    obtain ⟨rfl, rfl⟩ := h4
    simp only [ne_eq, not_or, not_not] at hm
    obtain ⟨⟨hc, ht⟩, hcm⟩ := hm
    have ht31 : t.tag < 31 := by rw [ht]; split <;> omega
    obtain ⟨c, rest', f1, f2, f3, f4, f5⟩ := header_cases ht31 h1 (by omega)
    subst f1
    rw [← f2, List.take_left' rfl] at h3
    rw [← f2, List.drop_left' rfl]
    by_cases h24 : t.tag = 24 ∧ t.cls = 0
    · rw [if_pos h24] at ht h3
      rw [if_neg (by decide)] at h3
      refine ⟨_, f5, c, f4, .inr ⟨by rw [h24.1, hc, hcm]; rfl, (parseGeneralizedTime_iff _ _).1 h3⟩⟩
    · rw [if_neg h24] at ht h3
      rw [if_pos rfl] at h3
      refine ⟨_, f5, c, f4, .inl ⟨by rw [ht, hc, hcm]; rfl, (parseUTCTime_iff _ _).1 h3⟩⟩
  · rintro ⟨e, rfl, c, hc, ⟨rfl, h⟩ | ⟨rfl, h⟩⟩
    · exact parseField_time (tag := 23) rest (.inl rfl) hc (by rw [if_pos rfl]; exact (parseUTCTime_iff _ _).2 h)
    · exact parseField_time (tag := 24) rest (.inr rfl) hc (by rw [if_neg (by decide)]; exact (parseGeneralizedTime_iff _ _).2 h)

theorem parseField_validity_exact {bs rest : Bytes} {v : Validity} : parseField tyValidity {} bs = .ok (v, rest) ↔
    ∃ t1 t2 more, bs = elem 0x30 (t1 ++ (t2 ++ more)) ++ rest ∧ (t1 ++ (t2 ++ more)).length < 2 ^ 31 ∧ ReadTime v.notBefore t1 ∧ ReadTime v.notAfter t2 := by
  unfold tyValidity
  rw [parseField_struct_iff]
  simp only [Res.bind_eq_ok]
  constructor
  · rintro ⟨c, hc, rfl, ⟨a, r1⟩, h1, ⟨b, r2⟩, h2, h3⟩
    obtain rfl := Res.ok.inj h3
    obtain ⟨t1, rfl, h4⟩ := parseField_time_exact.1 h1
    obtain ⟨t2, h5, h6⟩ := parseField_time_exact.1 h2
    dsimp only at h5
    subst h5
    exact ⟨t1, t2, r2, rfl, hc, h4, h6⟩
  · rintro ⟨t1, t2, more, rfl, hc, h1, h2⟩
    exact ⟨_, hc, rfl, (v.notBefore, _), parseField_time_exact.2 ⟨t1, rfl, h1⟩, (v.notAfter, more), parseField_time_exact.2 ⟨t2, rfl, h2⟩, rfl⟩

theorem version_exact {bs rest : Bytes} {v : Int} :
    parseField tyInt { optional := true, explicit := true, defaultValue := some 0, tag := some 0 } bs = .ok (v, rest) ↔
      MayBeAround 0xa0 0x02 (fun v c => IsInt v c ∧ c.length ≤ 8) 0 v bs rest :=
  parseField_mayBeAround (ty := tyInt) (k := 0) rfl rfl rfl rfl rfl (by decide) rfl (by decide) fun v c _ _ => parseInt64_iff c v

theorem extensionsField_exact {bs rest : Bytes} {v : Option (List Extension)} :
    parseField (tyOptSlice tyExtension) { optional := true, explicit := true, tag := some 3 } bs = .ok (v, rest) ↔
      MayBeAround 0xa3 0x30 (fun (o : Option (List Extension)) c => ∃ es ws, o = some es ∧ c = ws.flatten ∧ List.Forall₂ ReadExtension es ws) none v bs rest :=
  parseField_mayBeAround (ty := tyOptSlice tyExtension) (k := 3) rfl rfl rfl rfl rfl (by decide) rfl (show 16 < 31 by decide) fun v c full hc => by
    rw [optSlice_body]
    refine exists_congr fun es => ?_
    rw [parseSequenceOf_extensions hc]
    simp only [exists_and_left]

/-- Before the serial number, the version is there or it is not. -/
theorem version_before {v : Int} {bs sc r : Bytes} (hs : sc.length < 2 ^ 31) (hn : sc ≠ []) :
    MayBeAround 0xa0 0x02 (fun v c => IsInt v c ∧ c.length ≤ 8) 0 v bs (elem 0x02 sc ++ r) ↔ ∃ pre, bs = pre ++ (elem 0x02 sc ++ r) ∧ ReadVersion v pre := by
  constructor
  · rintro (⟨n, c, h1, h2, _, rfl, h4⟩ | ⟨rfl, rfl, _⟩)
    · exact ⟨0xa0 :: (lenOctets n ++ elem 0x02 c), by simp, .inr ⟨n, c, h1, h2, rfl, h4⟩⟩
    · exact ⟨[], rfl, .inl ⟨rfl, rfl⟩⟩
  · rintro ⟨pre, rfl, ⟨rfl, rfl⟩ | ⟨n, c, h1, h2, rfl, h4⟩⟩
    · refine .inr ⟨rfl, rfl, .inr (.inl ⟨sc.length, sc ++ r, someHeader_iff.2 ⟨⟨0, false, 2, sc.length⟩, ?_, rfl⟩, by simp [hn], ?_, ?_⟩)⟩
      · exact (parseTagAndLength_iff (t := ⟨0, false, 2, sc.length⟩) (show 2 < 31 by decide)).2 ⟨hs, show 0 < 4 by decide, by simp [elem]; rfl⟩
      · simp [elem]
      · simp [elem]
    · exact .inl ⟨n, c, h1, h2, by omega, by simp, h4⟩

theorem isInt_ne {v : Int} {c : Bytes} (h : IsInt v c) : c ≠ [] := by
  rintro rfl
  rw [← parseBigInt_iff] at h
  simp [parseBigInt, checkInteger] at h

theorem mayBe_length {α : Type} {t : Byte} {P : α → Bytes → Prop} {a v : α} {bs rest : Bytes} (h : MayBe t P a v bs rest) : rest.length ≤ bs.length := by
  rcases h with ⟨c, _, rfl, _⟩ | ⟨_, rfl, _⟩
  · rw [List.length_append]; omega
  · exact le_rfl

theorem mayBeAround_length {α : Type} {t t' : Byte} {P : α → Bytes → Prop} {a v : α} {bs rest : Bytes} (h : MayBeAround t t' P a v bs rest) :
    rest.length ≤ bs.length := by
  rcases h with ⟨n, c, _, _, _, rfl, _⟩ | ⟨_, rfl, _⟩
  · simp only [List.length_cons, List.length_append]; omega
  · exact le_rfl

theorem effects_iff (env : Env U) (es : List Extension) : ∀ out r : X509Cert U, parseExtensions env es out = .ok r ↔ Effects env es out r := by
  induction es with
  | nil =>
    intro out r
    rw [parseExtensions]
    constructor
    · intro h; obtain rfl := Res.ok.inj h; exact .nil _
    · rintro ⟨⟩; rfl
  | cons e es ih =>
    intro out r
    rw [parseExtensions, Res.bind_eq_ok]
    constructor
    · rintro ⟨⟨mid, u⟩, h1, h2⟩
      exact .cons ((C144_extension _ _ _ _ _).1 h1) ((ih _ _).1 h2)
    · intro h
      cases h with
      | cons h1 h2 => exact ⟨(_, _), (C144_extension _ _ _ _ _).2 h1, (ih _ _).2 h2⟩

/-- The signed part, field by field. -/
theorem tbsCert_exact {tc : Bytes} {t : TagAndLength} {n : ℕ} {tbs : TbsCert} : tyTbsCert.body t n tc (elem 0x30 tc) = .ok tbs ↔
    ∃ sc r1 r2 r3 t1 t2 vmore r5 r6 r7 r8 r9 : Bytes,
      MayBeAround 0xa0 0x02 (fun v c => IsInt v c ∧ c.length ≤ 8) 0 tbs.version tc (elem 0x02 sc ++ r1) ∧ IsInt tbs.serial sc ∧ sc.length < 2 ^ 31 ∧
      parseField tyAlgId {} r1 = .ok (tbs.sigAlg, r2) ∧
      ReadTLV tbs.issuer.cls tbs.issuer.isCompound tbs.issuer.tag tbs.issuer.bytes tbs.issuer.fullBytes ∧ r2 = tbs.issuer.fullBytes ++ r3 ∧
      r3 = elem 0x30 (t1 ++ (t2 ++ vmore)) ++ (tbs.subject.fullBytes ++ r5) ∧ (t1 ++ (t2 ++ vmore)).length < 2 ^ 31 ∧
      ReadTime tbs.validity.notBefore t1 ∧ ReadTime tbs.validity.notAfter t2 ∧
      ReadTLV tbs.subject.cls tbs.subject.isCompound tbs.subject.tag tbs.subject.bytes tbs.subject.fullBytes ∧
      parseField tyPublicKeyInfo {} r5 = .ok (tbs.publicKey, r6) ∧
      MayBe 0x81 (fun (o : Option BitString) c => ∃ s, o = some s ∧ IsBitString s.bytes s.bitLength c) none tbs.uniqueId r6 r7 ∧
      MayBe 0x82 (fun (o : Option BitString) c => ∃ s, o = some s ∧ IsBitString s.bytes s.bitLength c) none tbs.subjectUniqueId r7 r8 ∧
      MayBeAround 0xa3 0x30 (fun (o : Option (List Extension)) c => ∃ es ws, o = some es ∧ c = ws.flatten ∧ List.Forall₂ ReadExtension es ws)
        none tbs.extensions r8 r9 ∧ tbs.raw = elem 0x30 tc := by
  have h' : tyTbsCert.body t n tc (elem 0x30 tc) = (do
    let a ← parseField tyInt { optional := true, explicit := true, defaultValue := some 0, tag := some 0 } tc
    let b ← parseField tyBig {} a.2
    let c ← parseField tyAlgId {} b.2
    let d ← parseField tyRaw {} c.2
    let e ← parseField tyValidity {} d.2
    let f ← parseField tyRaw {} e.2
    let g ← parseField tyPublicKeyInfo {} f.2
    let h ← parseField tyOptBits { optional := true, tag := some 1 } g.2
    let i ← parseField tyOptBits { optional := true, tag := some 2 } h.2
    let j ← parseField (tyOptSlice tyExtension) { optional := true, explicit := true, tag := some 3 } i.2
    Res.ok (⟨elem 0x30 tc, a.1, b.1, c.1, d.1, e.1, f.1, g.1, h.1, i.1, j.1⟩ : TbsCert)) := rfl
  rw [h']
  simp only [Res.bind_eq_ok]
  have eb : ∀ (bs r : Bytes) (v : Int), parseField tyBig {} bs = .ok (v, r) ↔ ∃ c, c.length < 2 ^ 31 ∧ bs = elem 0x02 c ++ r ∧ IsInt v c := by
    intro bs r v
    simp only [← parseBigInt_iff]
    exact parseField_iff (ty := tyBig) (p := {}) rfl rfl rfl rfl (by decide)
  have e1 := optBits_mayBe (t := 0x81) (k := 1) (by decide) (by decide)
  have e2 := optBits_mayBe (t := 0x82) (k := 2) (by decide) (by decide)
  constructor
  · rintro ⟨⟨v0, r0⟩, g0, ⟨v1, r1⟩, g1, ⟨v2, r2⟩, g2, ⟨v3, r3⟩, g3, ⟨v4, r4⟩, g4, ⟨v5, r5⟩, g5, ⟨v6, r6⟩, g6, ⟨v7, r7⟩, g7, ⟨v8, r8⟩, g8, ⟨v9, r9⟩, g9, g10⟩
    obtain rfl := Res.ok.inj g10
    dsimp only at *
    obtain ⟨sc, k1, rfl, k2⟩ := (eb _ _ _).1 g1
    obtain ⟨k3, k4⟩ := (parseField_raw_exact _ _ _).1 g3
    obtain ⟨t1, t2, vmore, k5, k6, k7, k8⟩ := parseField_validity_exact.1 g4
    obtain ⟨k9, rfl⟩ := (parseField_raw_exact _ _ _).1 g5
    exact ⟨sc, r1, r2, r3, t1, t2, vmore, r5, r6, r7, r8, r9, version_exact.1 g0, k2, k1, g2, k3, k4, k5, k6, k7, k8, k9, g6, (e1 _ _ _).1 g7, (e2 _ _ _).1 g8,
      extensionsField_exact.1 g9, rfl⟩
  · rintro ⟨sc, r1, r2, r3, t1, t2, vmore, r5, r6, r7, r8, r9, h0, h1, h2, h3, h4, h5, h6, h7, h8, h9, h10, h11, h12, h13, h14, h15⟩
    refine ⟨(tbs.version, _), version_exact.2 h0, (tbs.serial, r1), (eb _ _ _).2 ⟨sc, h2, rfl, h1⟩, (tbs.sigAlg, r2), h3, (tbs.issuer, r3),
      (parseField_raw_exact _ _ _).2 ⟨h4, h5⟩, (tbs.validity, tbs.subject.fullBytes ++ r5), parseField_validity_exact.2 ⟨t1, t2, vmore, h6, h7, h8, h9⟩,
      (tbs.subject, r5), (parseField_raw_exact _ _ _).2 ⟨h10, rfl⟩, (tbs.publicKey, r6), h11, (tbs.uniqueId, r7), (e1 _ _ _).2 h12,
      (tbs.subjectUniqueId, r8), (e2 _ _ _).2 h13, (tbs.extensions, r9), extensionsField_exact.2 h14, ?_⟩
    rw [← h15]

/-! ## The property -/

/-- **C144** `ParseCertificate` accepts exactly the words of the grammar, and returns what they say. -/
theorem C144_exact (env : Env U) (data : Bytes) (r : X509Cert U) : parseCertificate env data = .ok r ↔ ReadCertificate env r data := by
  rw [certificate_components]
  constructor
  · rintro ⟨tc, ac, sc, more, t, alg, sig, h0, h1, h2, h3, rfl, h5, h6, h7, h8⟩
    unfold parseCert at h8
    rcases ite_ok h8 with ⟨_, h8⟩ | ⟨ha, h8⟩
    · simp at h8
    rcases ite_ok h8 with ⟨_, h8⟩ | ⟨hb, h8⟩
    · simp at h8
    simp only [Res.bind_eq_ok] at h8
    obtain ⟨pub, k1, srdns, k2, irdns, k3, k4⟩ := h8
    rw [ne_eq, not_not] at ha hb
    dsimp only at ha hb k1 k2 k3 k4
    obtain ⟨sn, r1, r2, r3, t1, t2, vmore, r5, r6, r7, r8, r9, g0, g1, g2, g3, g4, g5, g6, g7, g8, g9, g10, g11, g12, g13, g14, g15⟩ := tbsCert_exact.1 h5
    have h0' := h0
    simp only [List.length_append] at h0'
    have l0 := mayBeAround_length g0
    rw [List.length_append] at l0
    obtain ⟨ae, q, rfl, q1, -⟩ := (readAlg_exact (by omega)).1 ⟨t.sigAlg, g3, rfl, rfl⟩
    rw [List.length_append] at l0
    have l5 : r5.length ≤ r2.length := by
      rw [g5, g6]; simp only [List.length_append]; omega
    obtain ⟨x, y, rfl⟩ : ∃ x y : ℕ, pub = ⟨x, y⟩ := by
      obtain ⟨Q, x', y', cc, _, hp, _⟩ := parsePublicKey_ok k1
      exact ⟨x', y', hp⟩
    obtain ⟨e1, e2⟩ := (keyInfo_exact (by omega)).1 ⟨t.publicKey, g11, hb, k1, rfl⟩
    obtain ⟨aa, p, z1, z2, -⟩ := (readAlg_exact (bs := elem 0x30 ac) (rest := []) (by omega)).1 ⟨alg, parseField_algId_exact.2 ⟨ac, h2, by simp, h6⟩, rfl, rfl⟩
    rw [List.append_nil] at z1
    subst z1
    rw [ha] at z2
    obtain ⟨pre, v1, v2⟩ := (version_before g2 (isInt_ne g1)).1 g0
    refine ⟨⟨t.version, t.serial, t.issuer.fullBytes, t.validity.notBefore, t.validity.notAfter, t.subject.fullBytes, t.publicKey.raw, t.extensions⟩,
      elem 0x30 tc, x, y, irdns, srdns, sig.rightAlign, ⟨elem 0x30 ac, p, sc, more,
      ⟨pre, sn, ae, _, q, t1, t2, vmore, r6, t.uniqueId, r7, t.subjectUniqueId, r8, r9, ?_, v2, g1, q1, g8, g9, g12, g13, g14⟩,
      (C83_exact _ _).1 k3, (C83_exact _ _).1 k2, e2, z2, bits_exact.1 ⟨sig, h7, rfl⟩, rfl, h0⟩, ?_⟩
    · rw [v1, g5, g6, e1]
    · rw [g15] at k4
      exact (effects_iff _ _ _ _).1 k4
  · rintro ⟨p, tbs, x, y, irdns, srdns, signature, ⟨alg, params, sc, more,
      ⟨pre, sn, ae, oid, ap, t1, t2, vmore, r1, id1, r2, id2, r3, r4, rfl, v2, g1, g2, g3, g4, g5, g6, g7⟩, h1, h2, h3, h4, h5, rfl, h7⟩, h8⟩
    generalize hbody : pre ++ (elem 0x02 sn ++ (ae ++ (p.issuer ++ (elem 0x30 (t1 ++ (t2 ++ vmore)) ++ (p.subject ++ (p.key ++ r1)))))) = body at *
    obtain ⟨ci, hi⟩ := readName_any h1
    obtain ⟨cs, hs⟩ := readName_any h2
    have h7' := h7
    simp only [List.length_append] at h7'
    have l0 := length_le_elem 0x30 body
    have l1 := congrArg List.length hbody
    have l2 := length_le_elem 0x30 (t1 ++ (t2 ++ vmore))
    have l3 := length_le_elem 0x03 sc
    have l4 := length_le_elem 0x02 sn
    have l1' := l1
    simp only [List.length_append] at l1'
    have l2' := l2
    simp only [List.length_append] at l2'
    have g0 := (version_before (by omega) (isInt_ne g1)).2 ⟨pre, hbody.symm, v2⟩
    obtain ⟨k, k1, k2, k3, k4⟩ := (keyInfo_exact (bs := p.key ++ r1) (by simp only [List.length_append]; omega)).2 ⟨rfl, h3⟩
    obtain ⟨ia, ia1, -, -⟩ := (readAlg_exact (bs := ae ++ (p.issuer ++ (elem 0x30 (t1 ++ (t2 ++ vmore)) ++ (p.subject ++ (p.key ++ r1)))))
      (by simp only [List.length_append]; omega)).2 ⟨ae, ap, rfl, g2, rfl⟩
    obtain ⟨a, a1, a2, -⟩ := (readAlg_exact (bs := alg ++ []) (rest := []) (by rw [List.append_nil]; omega)).2 ⟨alg, params, rfl, h4, rfl⟩
    obtain ⟨ac, ha, a3, a4⟩ := parseField_algId_exact.1 a1
    rw [List.append_nil, List.append_nil] at a3
    subst a3
    obtain ⟨b, b1, b2⟩ := bits_exact.2 h5
    refine ⟨body, ac, sc, more, ⟨elem 0x30 body, p.version, p.serial, ia, ⟨0, 16, true, ci, p.issuer⟩, ⟨p.notBefore, p.notAfter⟩, ⟨0, 16, true, cs, p.subject⟩,
      k, id1, id2, p.exts⟩, a, b, h7, by omega, ha, by omega, rfl,
      tbsCert_exact.2 ⟨sn, _, _, _, t1, t2, vmore, p.key ++ r1, r1, r2, r3, r4, g0, g1, by omega, ia1, hi, rfl, rfl, by simp only [List.length_append]; omega,
        g3, g4, hs, k1, g5, g6, g7, rfl⟩, a4, b1, ?_⟩
    unfold parseCert
    dsimp only
    rw [if_neg (by rw [a2]; exact fun h => h rfl), if_neg (by rw [k2]; exact fun h => h rfl), k3, Res.ok_bind, (C83_exact _ _).2 h2, Res.ok_bind,
      (C83_exact _ _).2 h1, Res.ok_bind, effects_iff, b2, k4]
    exact h8

/-- **C144** Whether a certificate is accepted depends on the extensions one by one. -/
theorem C144_accepts (env : Env U) (data : Bytes) : (∃ r, parseCertificate env data = .ok r) ↔
    ∃ p tbs x y issuer subject signature, CertWord p tbs x y issuer subject signature data ∧ ∀ e ∈ p.exts.getD [], Readable env e := by
  constructor
  · rintro ⟨r, h⟩
    obtain ⟨p, tbs, x, y, issuer, subject, signature, h1, h2⟩ := (C144_exact ..).1 h
    exact ⟨p, tbs, x, y, issuer, subject, signature, h1, (parseExtensions_readable _ _ _).1 ⟨_, (effects_iff _ _ _ _).2 h2⟩⟩
  · rintro ⟨p, tbs, x, y, issuer, subject, signature, h1, h2⟩
    obtain ⟨r, hr⟩ := (parseExtensions_readable env (p.exts.getD []) {
      raw := data, rawTBS := tbs, rawSPKI := p.key, rawSubject := p.subject, rawIssuer := p.issuer, signature := signature
      publicKey := some ⟨x, y⟩, version := (BitVec.ofInt 64 (p.version + 1)).toInt, serialNumber := some p.serial
      issuer := Name.fillFromRDNSequence {} issuer, subject := Name.fillFromRDNSequence {} subject
      notBefore := p.notBefore, notAfter := p.notAfter }).2 h2
    exact ⟨r, (C144_exact ..).2 ⟨p, tbs, x, y, issuer, subject, signature, h1, (effects_iff _ _ _ _).1 hr⟩⟩

/-- **C144** Everything else is answered with an error. -/
theorem C144_rejects (env : Env U) (data : Bytes) (h : ¬ ∃ r, ReadCertificate env r data) : ∃ m, parseCertificate env data = .err m := by
  have hr := C68_certificate env data
  cases hp : parseCertificate env data with
  | ok r => exact absurd ⟨r, (C144_exact ..).1 hp⟩ h
  | err m => exact ⟨m, rfl⟩
  | panic => rw [hp] at hr; simp [Res.returned] at hr
  | loop => rw [hp] at hr; simp [Res.returned] at hr

/-- **C144** What is read is determined by the octets. -/
theorem C144_unique (env : Env U) (data : Bytes) {r r' : X509Cert U} (h : ReadCertificate env r data) (h' : ReadCertificate env r' data) : r = r' := by
  rw [← C144_exact] at h h'
  rw [h] at h'
  exact Res.ok.inj h'

/-! ## What is not looked at -/

theorem effect_raw {env : Env U} {e : Extension} {out out' : X509Cert U} {u : Bool} (a b : Bytes) (h : Effect env e out out' u) :
    Effect env e { out with raw := a, rawTBS := b } { out' with raw := a, rawTBS := b } u := by
  unfold Effect at h ⊢
  rcases h with ⟨h, k, h1, h2, rfl⟩ | ⟨h, k, n, h1, h2, rfl⟩ | ⟨h, k, h1, h2, rfl⟩ | ⟨h, k, n, h1, h2, rfl⟩ | ⟨h, k, h1, h2, rfl⟩ | ⟨h, k, h1, h2, rfl⟩ |
    ⟨h, k, h1, h2, rfl⟩ | ⟨h, k, h1, h2, rfl⟩ | ⟨h, k, h1, h2, rfl⟩ | ⟨h, k, h1, h2, rfl⟩ | ⟨h, h1, rfl⟩
  · exact .inl ⟨h, k, h1, h2, rfl⟩
  · exact .inr (.inl ⟨h, k, n, h1, h2, rfl⟩)
  · exact .inr (.inr (.inl ⟨h, k, h1, h2, rfl⟩))
  · exact .inr (.inr (.inr (.inl ⟨h, k, n, h1, h2, rfl⟩)))
  · exact .inr (.inr (.inr (.inr (.inl ⟨h, k, h1, h2, rfl⟩))))
  · exact .inr (.inr (.inr (.inr (.inr (.inl ⟨h, k, h1, h2, rfl⟩)))))
  · exact .inr (.inr (.inr (.inr (.inr (.inr (.inl ⟨h, k, h1, h2, rfl⟩))))))
  · exact .inr (.inr (.inr (.inr (.inr (.inr (.inr (.inl ⟨h, k, h1, h2, rfl⟩)))))))
  · exact .inr (.inr (.inr (.inr (.inr (.inr (.inr (.inr (.inl ⟨h, k, h1, h2, rfl⟩))))))))
  · exact .inr (.inr (.inr (.inr (.inr (.inr (.inr (.inr (.inr (.inl ⟨h, k, h1, h2, rfl⟩)))))))))
  · exact .inr (.inr (.inr (.inr (.inr (.inr (.inr (.inr (.inr (.inr ⟨h, h1, rfl⟩)))))))))

theorem effects_raw {env : Env U} {es : List Extension} {out r : X509Cert U} (a b : Bytes) (h : Effects env es out r) :
    Effects env es { out with raw := a, rawTBS := b } { r with raw := a, rawTBS := b } := by
  induction h with
  | nil out => exact .nil _
  | @cons e es out mid r u h1 _ ih =>
    refine .cons (effect_raw a b h1) ?_
    by_cases hc : e.critical = true ∧ u = true
    · rw [if_pos hc] at ih ⊢; exact ih
    · rw [if_neg hc] at ih ⊢; exact ih

theorem effects_tbs {env : Env U} {es : List Extension} {out r : X509Cert U} (h : Effects env es out r) : r.rawTBS = out.rawTBS := by
  have := (parseExtensions_core env _ _ _ ((effects_iff _ _ _ _).2 h)).1
  unfold X509Cert.core at this
  simp only [Prod.mk.injEq] at this
  exact this.2.1

/-- **C70** In every certificate that is accepted the inner algorithm can be replaced by any other, with any parameters: the result is accepted
too, and is read as the same certificate but for the octets themselves. `RFC 5280` wants it to be equal to the outer one. -/
theorem C70_inner_algorithm_ignored (env : Env U) (data : Bytes) (r : X509Cert U) (h : parseCertificate env data = .ok r) :
    ∃ pre sc alg oid params before after,
      (∃ v, ReadVersion v pre) ∧ before = pre ++ elem 0x02 sc ∧ ReadAlg oid params alg ∧ r.rawTBS = elem 0x30 (before ++ (alg ++ after)) ∧
      ∃ outer, data = elem 0x30 (elem 0x30 (before ++ (alg ++ after)) ++ outer) ∧
        ∀ oid' params' alg', ReadAlg oid' params' alg' → (elem 0x30 (before ++ (alg' ++ after)) ++ outer).length < 2 ^ 31 →
          parseCertificate env (elem 0x30 (elem 0x30 (before ++ (alg' ++ after)) ++ outer)) = .ok { r with
            raw := elem 0x30 (elem 0x30 (before ++ (alg' ++ after)) ++ outer), rawTBS := elem 0x30 (before ++ (alg' ++ after)) } := by
  have hr := h
  obtain ⟨p, tbs, x, y, irdns, srdns, signature, ⟨alg, params, sc, more,
      ⟨pre, sn, ae, oid, ap, t1, t2, vmore, r1, id1, r2, id2, r3, r4, rfl, v2, g1, g2, g3, g4, g5, g6, g7⟩, h1, h2, h3, h4, h5, h6, h7⟩, h8⟩ := (C144_exact ..).1 h
  have ht := effects_tbs h8
  refine ⟨pre, sn, ae, oid, ap, pre ++ elem 0x02 sn, p.issuer ++ (elem 0x30 (t1 ++ (t2 ++ vmore)) ++ (p.subject ++ (p.key ++ r1))), ⟨_, v2⟩, rfl, g2, ?_, alg ++ (elem 0x03 sc ++ more), ?_, ?_⟩
  rotate_left
  · rw [h6, List.append_assoc]
  · intro oid' params' alg' ha hl
    rw [C144_exact]
    refine ⟨p, _, x, y, irdns, srdns, signature, ⟨alg, params, sc, more,
      ⟨pre, sn, alg', oid', params', t1, t2, vmore, r1, id1, r2, id2, r3, r4, ?_, v2, g1, ha, g3, g4, g5, g6, g7⟩, h1, h2, h3, h4, h5, rfl, hl⟩, effects_raw _ _ h8⟩
    rw [List.append_assoc]
  · rw [List.append_assoc]
    exact ht

/-- **C71** After the signature of every certificate that is accepted any octets can be added. -/
theorem C71_trailing_octets_ignored (env : Env U) (content extra : Bytes) (r : X509Cert U) (h : parseCertificate env (elem 0x30 content) = .ok r)
    (hc : content.length < 2 ^ 31) (hl : (content ++ extra).length < 2 ^ 31) :
    parseCertificate env (elem 0x30 (content ++ extra)) = .ok { r with raw := elem 0x30 (content ++ extra) } := by
  obtain ⟨p, tbs, x, y, irdns, srdns, signature, ⟨alg, params, sc, more, h0, h1, h2, h3, h4, h5, h6, h7⟩, h8⟩ := (C144_exact ..).1 h
  obtain rfl := elem_small_inj (by omega) (by omega) h6
  have e : r.rawTBS = tbs := effects_tbs h8
  rw [C144_exact]
  refine ⟨p, tbs, x, y, irdns, srdns, signature, ⟨alg, params, sc, more ++ extra, h0, h1, h2, h3, h4, h5, by simp, by simpa using hl⟩, ?_⟩
  have := effects_raw (elem 0x30 (tbs ++ (alg ++ (elem 0x03 sc ++ more)) ++ extra)) tbs h8
  have e2 : ({ r with raw := elem 0x30 (tbs ++ (alg ++ (elem 0x03 sc ++ more)) ++ extra), rawTBS := tbs } : X509Cert U) =
      { r with raw := elem 0x30 (tbs ++ (alg ++ (elem 0x03 sc ++ more)) ++ extra) } := by rw [← e]
  rw [e2] at this
  exact this

/-! ## Cases -/

/-- A certificate with three extensions is a word of the grammar. -/
example : ∃ r, ReadCertificate exEnv r (exCertAfter (elem 0xa3 (elem 0x30 ([exNotCA, exUsage, exIsCA].flatten)))) ∧ r.isCA = true ∧ r.serialNumber = some 5 ∧
    r.version = 3 := by
  have h : (match parseCertificate exEnv (exCertAfter (elem 0xa3 (elem 0x30 ([exNotCA, exUsage, exIsCA].flatten)))) with
    | .ok r => decide (r.isCA = true ∧ r.serialNumber = some 5 ∧ r.version = 3)
    | _ => false) = true := by decide +kernel
  cases hp : parseCertificate exEnv (exCertAfter (elem 0xa3 (elem 0x30 ([exNotCA, exUsage, exIsCA].flatten)))) with
  | ok r =>
    rw [hp] at h
    exact ⟨r, (C144_exact ..).1 hp, of_decide_eq_true h⟩
  | err m => rw [hp] at h; simp at h
  | panic => rw [hp] at h; simp at h
  | loop => rw [hp] at h; simp at h

/-- The empty sequence is not. -/
example : ¬ ∃ r, ReadCertificate exEnv r [0x30, 0x00] := by
  rintro ⟨r, h⟩
  rw [← C144_exact] at h
  have : (parseCertificate exEnv [0x30, 0x00]) matches .err _ := by decide +kernel
  rw [h] at this
  exact absurd this (by simp)

example : ReadVersion 2 (elem 0xa0 (elem 0x02 [2])) := .inr ⟨3, [2], by decide, by decide, by decide, (parseBigInt_iff _ _).1 (by decide), by decide⟩

end Verif.Props
