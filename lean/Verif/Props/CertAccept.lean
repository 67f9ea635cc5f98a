import Verif.Cert.ExtLemmas
import Verif.Props.CertTotal
import Verif.Props.Sm2Cipher
/-!
# Property C60: what certificate and request parsing accepts
-/
namespace Verif.Props
open Verif Verif.Der Verif.Cert Verif.Spec.DER Verif.Spec.Cert
open Verif.Spec.SM2 (coords Accepts)

variable {U : Type}

attribute [local irreducible] Spec.SM2.fe

/-- The signature's bit string. -/
theorem bitsOf_rightAlign {b : BitString} {c : Bytes} (h : IsBitString b.bytes b.bitLength c) : IsBitsOf b.rightAlign c := by
  obtain ⟨pad, rfl, p1, p2, p3⟩ := h
  obtain ⟨h1, h2⟩ := rightAlign_spec p1 p2 p3
  exact ⟨pad, b.bytes, rfl, p1, h1.symm, h2⟩

/-- C60: whatever `ParseCertificateRequest` accepts is one request structure and nothing else, signed with SM3 and SM2,
for a key on the SM2 curve; and the parsed request has its parts. -/
theorem C60_request (env : Env U) (data : Bytes) (r : CertReq U) (h : parseCertificateRequest env data = .ok r) :
    ∃ x y subject sig, IsPoint x y ∧ IsKeyInfo x y r.rawSPKI ∧ IsRequestInfo subject r.rawSPKI r.rawTBS ∧
      IsSigned r.rawTBS sig data ∧ IsBitsOf r.signature sig ∧
      r.raw = data ∧ r.publicKey = some ⟨x, y⟩ ∧ r.rawSubject = elem 0x30 subject := by
  unfold parseCertificateRequest at h
  rw [Res.bind_eq_ok] at h
  obtain ⟨⟨inp, rest⟩, h1, h2⟩ := h
  rcases ite_ok h2 with ⟨_, h2⟩ | ⟨hr, h2⟩
  · simp at h2
  have : rest = [] := by cases rest <;> simp_all
  subst this
  obtain ⟨c, _, rfl, h3⟩ := parseField_struct h1
  simp only [Res.bind_eq_ok] at h3
  obtain ⟨⟨t, r1⟩, g1, ⟨a, r2⟩, g2, ⟨s, r3⟩, g3, g4⟩ := h3
  simp only [Res.ok.injEq] at g4
  subst g4
  dsimp only at g2 g3 h2
  unfold parseCSR at h2
  obtain ⟨as, has⟩ := parseRawAttributes_ok t.rawAttributes
  dsimp only at h2
  rw [has, Res.ok_bind] at h2
  rcases ite_ok h2 with ⟨_, h2⟩ | ⟨halg, h2⟩
  · simp at h2
  rcases ite_ok h2 with ⟨_, h2⟩ | ⟨hkey, h2⟩
  · simp at h2
  simp only [ne_eq, not_not] at halg hkey
  simp only [Res.bind_eq_ok] at h2
  obtain ⟨pub, k1, rdns, k2, exts, _, sans, _, k3⟩ := h2
  simp only [Res.ok.injEq] at k3
  subst k3
  dsimp only
  obtain ⟨oc, params, e1, e2, _⟩ := parseField_algId g2
  obtain ⟨sc, _, e3, e4⟩ := parseField_bits g3
  obtain ⟨tc, _, e5, e6⟩ := parseField_struct g1
  simp only [Res.bind_eq_ok] at e6
  obtain ⟨⟨ver, q1⟩, f1, ⟨sub, q2⟩, f2, ⟨key, q3⟩, f3, ⟨attrs, q4⟩, f4, f5⟩ := e6
  simp only [Res.ok.injEq] at f5
  subst f5
  dsimp only at k1 k2 hkey f2 f3 f4 ⊢
  obtain ⟨Q, x, y, w1, rfl, w2, w3⟩ := parseKeyInfo_ok f3 hkey k1
  obtain ⟨vc, _, rfl, _⟩ := parseField_int f1
  obtain ⟨subc, _, hsub⟩ := parseName_ok k2
  have hne : q1 ≠ [] := by
    rintro rfl
    simp [parseField] at f2
  obtain ⟨u1, _⟩ := parseField_raw_split rfl rfl hne f2
  obtain ⟨ac, _, u2, _⟩ := (parseField_iff (ty := tySlice false tyRaw) (p := { tag := some 0 }) rfl rfl rfl rfl (by decide)).1 f4
  refine ⟨x, y, subc, sc, ⟨Q, w1⟩, w3, ⟨vc, ac, q4, ?_⟩, ⟨elem 0x30 (elem 0x06 oc ++ params), params, r3,
    ⟨oc, by rw [halg] at e2; exact namesOID e2, rfl⟩, ?_⟩, bitsOf_rightAlign e4, by simp, rfl, hsub⟩
  · congr 1
    have : idOctet (wireCls { tag := some 0 }) (wireTag (tySlice false tyRaw) { tag := some 0 }) (tySlice false tyRaw).compound = 0xa0 := by decide
    rw [this] at u2
    rw [u1, hsub, w2, u2]
    simp only [List.append_assoc]
  · rw [e5, e1, e3]
    simp only [List.append_assoc, List.append_nil]

/-- C60: whatever `ParseCertificate` accepts is one certificate structure and nothing else, signed with SM3 and SM2, for
a key on the SM2 curve; and the parsed certificate has its parts. -/
theorem C60_certificate (env : Env U) (data : Bytes) (r : X509Cert U) (h : parseCertificate env data = .ok r) :
    ∃ x y issuer subject sig, IsPoint x y ∧ IsKeyInfo x y r.rawSPKI ∧ IsCertInfo issuer subject r.rawSPKI r.rawTBS ∧
      IsSigned r.rawTBS sig data ∧ IsBitsOf r.signature sig ∧
      r.raw = data ∧ r.publicKey = some ⟨x, y⟩ ∧ r.rawSubject = elem 0x30 subject ∧ r.rawIssuer = elem 0x30 issuer := by
  unfold parseCertificate at h
  rw [Res.bind_eq_ok] at h
  obtain ⟨⟨inp, rest⟩, h1, h2⟩ := h
  rcases ite_ok h2 with ⟨_, h2⟩ | ⟨hr, h2⟩
  · simp at h2
  have : rest = [] := by cases rest <;> simp_all
  subst this
  obtain ⟨c, _, rfl, h3⟩ := parseField_struct h1
  simp only [Res.bind_eq_ok] at h3
  obtain ⟨⟨t, r1⟩, g1, ⟨a, r2⟩, g2, ⟨s, r3⟩, g3, g4⟩ := h3
  simp only [Res.ok.injEq] at g4
  subst g4
  dsimp only at g2 g3 h2
  unfold parseCert at h2
  rcases ite_ok h2 with ⟨_, h2⟩ | ⟨halg, h2⟩
  · simp at h2
  rcases ite_ok h2 with ⟨_, h2⟩ | ⟨hkey, h2⟩
  · simp at h2
  simp only [ne_eq, not_not] at halg hkey
  simp only [Res.bind_eq_ok] at h2
  obtain ⟨pub, k1, rdns, k2, rdns2, k3, k4⟩ := h2
  have hcore := (parseExtensions_core env _ _ _ k4).1
  simp only [X509Cert.core, Prod.mk.injEq] at hcore
  obtain ⟨c1, c2, c3, c4, c5, c6, c7, _⟩ := hcore
  rw [c1, c2, c3, c4, c5, c6, c7]
  obtain ⟨oc, params, e1, e2, _⟩ := parseField_algId g2
  obtain ⟨sc, _, e3, e4⟩ := parseField_bits g3
  obtain ⟨tc, _, e5, e6⟩ := parseField_struct g1
  simp only [Res.bind_eq_ok] at e6
  obtain ⟨⟨ver, q1⟩, f1, ⟨ser, q2⟩, f2, ⟨alg, q3⟩, f3, ⟨iss, q4⟩, f4, ⟨val, q5⟩, f5, ⟨sub, q6⟩, f6, ⟨key, q7⟩, f7,
    ⟨u8, q8⟩, f8, ⟨u9, q9⟩, f9, ⟨ex, q10⟩, f10, f11⟩ := e6
  simp only [Res.ok.injEq] at f11
  subst f11
  dsimp only at k1 k2 k3 hkey f2 f3 f4 f5 f6 f7 ⊢
  obtain ⟨Q, x, y, w1, rfl, w2, w3⟩ := parseKeyInfo_ok f7 hkey k1
  obtain ⟨pre, rfl⟩ := parseField_suffix f1
  obtain ⟨serc, _, rfl, _⟩ := parseField_big f2
  obtain ⟨algc, algp, rfl, _, _⟩ := parseField_algId f3
  obtain ⟨subc, _, hsub⟩ := parseName_ok k2
  obtain ⟨issc, _, hiss⟩ := parseName_ok k3
  have hne4 : q3 ≠ [] := by rintro rfl; simp [parseField] at f4
  have hne6 : q5 ≠ [] := by rintro rfl; simp [parseField] at f6
  obtain ⟨v4, _⟩ := parseField_raw_split rfl rfl hne4 f4
  obtain ⟨v6, _⟩ := parseField_raw_split rfl rfl hne6 f6
  obtain ⟨valc, _, v5, _⟩ := parseField_struct f5
  refine ⟨x, y, issc, subc, sc, ⟨Q, w1⟩, w3, ⟨pre, serc, elem 0x06 algc ++ algp, valc, q7, ?_⟩, ⟨elem 0x30 (elem 0x06 oc ++ params), params, r3,
    ⟨oc, by rw [halg] at e2; exact namesOID e2, rfl⟩, ?_⟩, bitsOf_rightAlign e4, by simp, rfl, hsub, hiss⟩
  · rw [v4, v5, v6, hsub, hiss, w2]
    simp only [List.append_assoc]
  · rw [e5, e1, e3]
    simp only [List.append_assoc, List.append_nil]

/-- C60: everything else is an error, neither a panic nor a request. -/
theorem C60_request_rejects (env : Env U) (data : Bytes) (h : ¬ IsRequest data) :
    ∃ m, parseCertificateRequest env data = .err m := by
  have hr := C68_request env data
  cases hp : parseCertificateRequest env data with
  | ok r =>
    obtain ⟨x, y, subject, sig, h1, h2, h3, h4, _⟩ := C60_request env data r hp
    exact absurd ⟨x, y, subject, _, _, sig, h1, h2, h3, h4⟩ h
  | err m => exact ⟨m, rfl⟩
  | panic => rw [hp] at hr; cases hr
  | loop => rw [hp] at hr; cases hr

/-- C60: everything else is an error, neither a panic nor a certificate. -/
theorem C60_certificate_rejects (env : Env U) (data : Bytes) (h : ¬ IsCertificate data) :
    ∃ m, parseCertificate env data = .err m := by
  have hr := C68_certificate env data
  cases hp : parseCertificate env data with
  | ok r =>
    obtain ⟨x, y, issuer, subject, sig, h1, h2, h3, h4, _⟩ := C60_certificate env data r hp
    exact absurd ⟨x, y, issuer, subject, _, _, sig, h1, h2, h3, h4⟩ h
  | err m => exact ⟨m, rfl⟩
  | panic => rw [hp] at hr; cases hr
  | loop => rw [hp] at hr; cases hr

theorem request_outer {env : Env U} {data : Bytes} {r : CertReq U} (h : parseCertificateRequest env data = .ok r) :
    ∃ c, c.length < 2 ^ 31 ∧ data = elem 0x30 c := by
  unfold parseCertificateRequest at h
  rw [Res.bind_eq_ok] at h
  obtain ⟨⟨inp, rest⟩, h1, h2⟩ := h
  rcases ite_ok h2 with ⟨_, h2⟩ | ⟨hr, h2⟩
  · simp at h2
  have : rest = [] := by cases rest <;> simp_all
  subst this
  obtain ⟨c, hc, rfl, _⟩ := parseField_struct h1
  exact ⟨c, hc, by simp⟩

theorem certificate_outer {env : Env U} {data : Bytes} {r : X509Cert U} (h : parseCertificate env data = .ok r) :
    ∃ c, c.length < 2 ^ 31 ∧ data = elem 0x30 c := by
  unfold parseCertificate at h
  rw [Res.bind_eq_ok] at h
  obtain ⟨⟨inp, rest⟩, h1, h2⟩ := h
  rcases ite_ok h2 with ⟨_, h2⟩ | ⟨hr, h2⟩
  · simp at h2
  have : rest = [] := by cases rest <;> simp_all
  subst this
  obtain ⟨c, hc, rfl, _⟩ := parseField_struct h1
  exact ⟨c, hc, by simp⟩

/-- A short element followed by something is not an element. -/
theorem elem_trailing {t : Byte} {c c' tail : Bytes} (hc : c'.length < 2 ^ 31) (h : elem t c ++ tail = elem t c') : c = c' ∧ tail = [] := by
  have hl := congrArg List.length h
  have h1 : (elem t c').length < 2 ^ 32 := CB.length_elem_small (by omega)
  have h2 := length_le_elem t c
  rw [List.length_append] at hl
  have := CB.elem_append_inj (CB.byteLen_lt_127 (by omega)) (CB.byteLen_lt_127 (by omega))
    (show elem t c ++ tail = elem t c' ++ [] by rw [h, List.append_nil])
  exact ⟨this.2.1, this.2.2⟩

/-- C60: bytes after the outer structure make an error. -/
theorem C60_trailing (env : Env U) (c tail : Bytes) (ht : tail ≠ []) :
    (∃ m, parseCertificateRequest env (elem 0x30 c ++ tail) = .err m) ∧ (∃ m, parseCertificate env (elem 0x30 c ++ tail) = .err m) := by
  constructor
  · have hr := C68_request env (elem 0x30 c ++ tail)
    cases hp : parseCertificateRequest env (elem 0x30 c ++ tail) with
    | ok r =>
      obtain ⟨c', h1, h2⟩ := request_outer hp
      exact absurd (elem_trailing h1 h2).2 ht
    | err m => exact ⟨m, rfl⟩
    | panic => rw [hp] at hr; cases hr
    | loop => rw [hp] at hr; cases hr
  · have hr := C68_certificate env (elem 0x30 c ++ tail)
    cases hp : parseCertificate env (elem 0x30 c ++ tail) with
    | ok r =>
      obtain ⟨c', h1, h2⟩ := certificate_outer hp
      exact absurd (elem_trailing h1 h2).2 ht
    | err m => exact ⟨m, rfl⟩
    | panic => rw [hp] at hr; cases hr
    | loop => rw [hp] at hr; cases hr

/-! ## Verification of requests -/

theorem unmarshalSign_returned (sig : Bytes) : (Sm2.unmarshalSign sig).returned = true := by
  unfold Sm2.unmarshalSign
  exact returned_bind (fieldSequence_returned _) fun _ _ => returned_bind (Der.fieldInt_returned _) fun _ _ =>
    returned_bind (Der.fieldInt_returned _) fun _ _ => rfl

theorem request_tbs {env : Env U} {data : Bytes} {r : CertReq U} (h : parseCertificateRequest env data = .ok r) :
    r.rawTBS ≠ [] ∧ r.rawTBS.length < 2 ^ 31 := by
  obtain ⟨x, y, subject, sig, _, _, ⟨_, _, _, h3⟩, ⟨_, _, _, _, h4⟩, _⟩ := C60_request env data r h
  obtain ⟨c, h5, h6⟩ := request_outer h
  refine ⟨by rw [h3]; simp [elem], ?_⟩
  rw [h6] at h4
  have h7 := (elem_trailing (tail := []) h5 (by rw [← h4, List.append_nil])).1
  rw [← h7] at h5
  simp only [List.length_append] at h5
  omega

/-- C69: verifying a request gives true exactly when the request is well formed and its signature is a DER encoding of
a pair that the SM2 standard accepts for the signed part, under the key in the request. -/
theorem C69_exact (env : Env U) (data : Bytes) (id : Option Bytes) (hid : (id.getD Sm2.defaultUserId).length < 8192) :
    verifyDERCSRSign env data id = .ok true ↔ ∃ (q : CertReq U) (Q : Sm2.Pt) (x y : ℕ) (r s : ℤ) (cr cs t1 t2 : Bytes),
      parseCertificateRequest env data = .ok q ∧ coords Q = some (x, y) ∧ q.publicKey = some ⟨x, y⟩ ∧
      IsInt r cr ∧ IsInt s cs ∧ q.signature = elem 0x30 (elem 0x02 cr ++ elem 0x02 cs ++ t1) ++ t2 ∧
      (elem 0x02 cr ++ elem 0x02 cs ++ t1).length < 2 ^ 31 ∧
      Accepts Q (id.getD Sm2.defaultUserId) q.rawTBS r s := by
  unfold verifyDERCSRSign
  rw [Res.bind_eq_ok]
  refine exists_congr fun q => ?_
  constructor
  · rintro ⟨hp, hv⟩
    obtain ⟨x, y, _, _, ⟨Q, hQ⟩, _, _, _, _, _, hpub, _⟩ := C60_request env data q hp
    rw [verifyCSRSign, hpub] at hv
    dsimp only at hv
    unfold Sm2.verify at hv
    cases hs : Sm2.unmarshalSign q.signature with
    | ok rs =>
      rw [hs] at hv
      obtain ⟨r, s⟩ := rs
      obtain ⟨cr, cs, t1, t2, h1, h2, h3, h4⟩ := (unmarshalSign_iff _ _ _).1 hs
      exact ⟨Q, x, y, r, s, cr, cs, t1, t2, hp, hQ, hpub, h1, h2, h4, h3, C36_sound Q x y hQ id hid _ _ _ hv⟩
    | err m => rw [hs] at hv; simp at hv
    | panic => rw [hs] at hv; simp at hv
    | loop => rw [hs] at hv; simp at hv
  · rintro ⟨Q, x, y, r, s, cr, cs, t1, t2, hp, hQ, hpub, h1, h2, h3, h4, h5⟩
    refine ⟨hp, ?_⟩
    rw [verifyCSRSign, hpub]
    dsimp only
    unfold Sm2.verify
    rw [(unmarshalSign_iff _ r s).2 ⟨cr, cs, t1, t2, h1, h2, h4, h3⟩]
    dsimp only
    obtain ⟨n1, n2⟩ := request_tbs hp
    obtain ⟨b, hb, hb'⟩ := C36_exact Q x y hQ id hid q.rawTBS n1 n2 r s
    rw [hb, hb'.2 h5]

/-- C69: and a verified request is one in the sense of the standards, whose signed part is a part of the given bytes. -/
theorem C69_shape (env : Env U) (data : Bytes) (id : Option Bytes) (b : Bool) (h : verifyDERCSRSign env data id = .ok b) :
    IsRequest data := by
  unfold verifyDERCSRSign at h
  rw [Res.bind_eq_ok] at h
  obtain ⟨q, hp, _⟩ := h
  obtain ⟨x, y, subject, sig, h1, h2, h3, h4, _⟩ := C60_request env data q hp
  exact ⟨x, y, subject, _, _, sig, h1, h2, h3, h4⟩

/-- C68: `VerifyDERCSRSign` returns a verdict or an error, for every byte string (and user ids the signature scheme
allows for). -/
theorem C68_verify (env : Env U) (data : Bytes) (id : Option Bytes) (hid : (id.getD Sm2.defaultUserId).length < 8192) :
    (verifyDERCSRSign env data id).returned = true := by
  unfold verifyDERCSRSign
  refine returned_bind (C68_request env data) fun q hp => ?_
  obtain ⟨x, y, _, _, ⟨Q, hQ⟩, _, _, _, _, _, hpub, _⟩ := C60_request env data q hp
  obtain ⟨n1, n2⟩ := request_tbs hp
  rw [verifyCSRSign, hpub]
  dsimp only
  unfold Sm2.verify
  have hu := unmarshalSign_returned q.signature
  cases hs : Sm2.unmarshalSign q.signature with
  | ok rs =>
    obtain ⟨b, hb, _⟩ := C36_exact Q x y hQ id hid q.rawTBS n1 n2 rs.1 rs.2
    dsimp only
    rw [hb]; rfl
  | err m => rfl
  | panic => rw [hs] at hu; cases hu
  | loop => rw [hs] at hu; cases hu

/-! ## Concrete cases -/

/-- An environment in which every URL parses. -/
def exEnv : Env Bytes := ⟨some, id, id, fun _ => false, fun _ _ => 64⟩

def exOidEC : Bytes := [0x2a, 0x86, 0x48, 0xce, 0x3d, 0x02, 0x01]
def exOidCurve : Bytes := [0x2a, 0x81, 0x1c, 0xcf, 0x55, 0x01, 0x82, 0x2d]
def exOidSig : Bytes := [0x2a, 0x81, 0x1c, 0xcf, 0x55, 0x01, 0x83, 0x75]
def exPoint : Bytes := 4 :: (toBE 32 Spec.SM2.gx ++ toBE 32 Spec.SM2.gy)
/-- A key info; with `exOidEC`, `exOidCurve`, `exPoint` for the base point as key. -/
def exKeyInfo (alg curve point : Bytes) : Bytes := elem 0x30 (elem 0x30 (elem 0x06 alg ++ elem 0x06 curve) ++ elem 0x03 (0 :: point))
/-- The subject CN=a. -/
def exSubject : Bytes := elem 0x30 (elem 0x31 (elem 0x30 (elem 0x06 [0x55, 0x04, 0x03] ++ elem 0x13 [0x61])))
def exRequestInfo (key : Bytes) : Bytes := elem 0x30 (elem 0x02 [0] ++ exSubject ++ key ++ elem 0xa0 [])
def exSig : Bytes := elem 0x30 (elem 0x02 [1] ++ elem 0x02 [1])
def exSigned (alg info extra : Bytes) : Bytes := elem 0x30 (info ++ elem 0x30 (elem 0x06 alg) ++ elem 0x03 (0 :: exSig) ++ extra)
def exGoodKey : Bytes := exKeyInfo exOidEC exOidCurve exPoint
def exTime : Bytes := [0x31, 0x39, 0x30, 0x31, 0x30, 0x31, 0x30, 0x30, 0x30, 0x30, 0x30, 0x30, 0x5a]
def exCertInfo (version alg key : Bytes) : Bytes :=
  elem 0x30 (version ++ elem 0x02 [5] ++ elem 0x30 (elem 0x06 alg) ++ exSubject ++ elem 0x30 (elem 0x17 exTime ++ elem 0x17 exTime) ++
    exSubject ++ key)
def exVersion : Bytes := elem 0xa0 (elem 0x02 [2])

theorem ok_of_matches {α : Type} {r : Res α} (h : (match r with | .ok _ => true | _ => false) = true) : ∃ q, r = .ok q := by
  cases r <;> simp_all

/-- C60 has instances. -/
example : (match parseCertificateRequest exEnv (exSigned exOidSig (exRequestInfo exGoodKey) []) with
    | .ok q => decide (q.rawTBS = exRequestInfo exGoodKey ∧ q.signature = exSig ∧ q.subject.commonName = [0x61])
    | _ => false) = true := by decide +kernel

example : (match parseCertificate exEnv (exSigned exOidSig (exCertInfo exVersion exOidSig exGoodKey) []) with
    | .ok q => decide (q.rawTBS = exCertInfo exVersion exOidSig exGoodKey ∧ q.signature = exSig ∧ q.serialNumber = some 5 ∧ q.version = 3)
    | _ => false) = true := by decide +kernel

/-- The faults that C60 names, one at a time: trailing byte, signature algorithm, key algorithm, curve, point. -/
example : (parseCertificateRequest exEnv (exSigned exOidSig (exRequestInfo exGoodKey) [] ++ [0])) matches .err _ := by decide +kernel
example : (parseCertificateRequest exEnv (exSigned exOidCurve (exRequestInfo exGoodKey) [])) matches .err _ := by decide +kernel
example : (parseCertificateRequest exEnv (exSigned exOidSig (exRequestInfo (exKeyInfo exOidSig exOidCurve exPoint)) [])) matches .err _ := by
  decide +kernel
example : (parseCertificateRequest exEnv (exSigned exOidSig (exRequestInfo (exKeyInfo exOidEC exOidSig exPoint)) [])) matches .err _ := by
  decide +kernel
example : (parseCertificateRequest exEnv (exSigned exOidSig (exRequestInfo (exKeyInfo exOidEC exOidCurve (4 :: toBE 64 1))) []))
    matches .err _ := by decide +kernel
example : (parseCertificate exEnv (exSigned exOidSig (exCertInfo exVersion exOidSig exGoodKey) [] ++ [0])) matches .err _ := by
  decide +kernel
example : (parseCertificate exEnv (exSigned exOidCurve (exCertInfo exVersion exOidSig exGoodKey) [])) matches .err _ := by decide +kernel

/-! ## C70: the two signature algorithms -/

/-- C70, what is wrong: the algorithm inside the signed part (which RFC 5280 4.1.1.2 requires to be the same as the one
outside) is not looked at; here it says SM2 curve. -/
theorem C70_inner_algorithm_violated : ∃ (alg : Bytes), ¬ NamesOID sm3WithSM2 alg ∧
    ∃ q, parseCertificate exEnv (exSigned exOidSig (exCertInfo exVersion alg exGoodKey) []) = .ok q := by
  refine ⟨exOidCurve, ?_, ?_⟩
  · rintro ⟨gs, h1, h2⟩
    have hs : subids sm3WithSM2 = [42, 156, 10197, 1, 501] := by decide
    rw [hs] at h2
    simp only [List.forall₂_cons_left_iff] at h2
    obtain ⟨g1, _, _, ⟨g2, _, _, ⟨g3, _, _, ⟨g4, _, _, ⟨g5, l, ⟨⟨init, last, hg, _, _⟩, hv⟩, hl, rfl⟩, rfl⟩, rfl⟩, rfl⟩, rfl⟩ := h2
    have hnil : l = [] := by cases hl; rfl
    subst hnil hg
    have h5 := congrArg List.getLast? h1
    simp [exOidCurve] at h5
    rw [subValue, List.foldl_append] at hv
    simp only [List.foldl_cons, List.foldl_nil] at hv
    rw [← h5] at hv
    have h6 : (0x2d#8).toNat = 45 := rfl
    rw [h6] at hv
    omega
  · exact ok_of_matches (by decide +kernel)

/-! ## C71: one encoding only -/

/-- C71, what is wrong: octets after the last component are accepted, in the outer structure and in the request info. -/
theorem C71_extra_octets_violated : ∃ extra : Bytes, extra ≠ [] ∧
    (∃ q, parseCertificate exEnv (exSigned exOidSig (exCertInfo exVersion exOidSig exGoodKey) extra) = .ok q) ∧
    (∃ q, parseCertificateRequest exEnv (exSigned exOidSig (exRequestInfo exGoodKey) extra) = .ok q) := by
  refine ⟨[1, 2, 3], by simp, ?_, ?_⟩
  · exact ok_of_matches (by decide +kernel)
  · exact ok_of_matches (by decide +kernel)

/-- C71, what is wrong: the length of the `[0]` around the version is not compared with the version's. -/
theorem C71_version_length_violated : ∃ v : Bytes, (¬ ∃ c, v = elem 0xa0 c) ∧
    ∃ q, parseCertificate exEnv (exSigned exOidSig (exCertInfo v exOidSig exGoodKey) []) = .ok q := by
  refine ⟨[0xa0, 0x04, 0x02, 0x01, 0x02], ?_, ?_⟩
  · rintro ⟨c, h⟩
    unfold elem lenOctets at h
    split at h
    · simp only [List.cons_append, List.nil_append, List.cons.injEq] at h
      obtain ⟨_, h1, h2⟩ := h
      rw [← h2] at h1
      revert h1; decide
    · simp only [List.cons_append, List.cons.injEq] at h
      obtain ⟨_, _, h1⟩ := h
      have := congrArg List.length h1
      simp at this
      omega
  · exact ok_of_matches (by decide +kernel)

/-- C71, what is wrong: padding septets in object identifiers are accepted. -/
theorem C71_oid_padding_violated : ∃ c : Bytes, c ≠ exOidSig ∧
    ∃ q, parseCertificate exEnv (exSigned c (exCertInfo exVersion exOidSig exGoodKey) []) = .ok q := by
  refine ⟨[0x2a, 0x81, 0x1c, 0xcf, 0x55, 0x80, 0x01, 0x83, 0x75], by decide, ?_⟩
  exact ok_of_matches (by decide +kernel)

end Verif.Props
