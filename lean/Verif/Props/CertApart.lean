import Verif.Props.CertWire
import Verif.Props.CertSubject
import Verif.Props.CertSigned
/-!
# Property C140: certificates and requests cannot be taken for each other

Both are signed with the same algorithm over the bytes of their first component, with nothing that says what is signed. What keeps
them apart is their syntax.
-/
namespace Verif.Props
open Verif Verif.Der Verif.Cert Verif.Spec.DER Verif.Spec.Cert
open Verif.Spec.SM2 (coords)

variable {U V : Type}

theorem elem_injective {t t' : Byte} {c c' : Bytes} (hc : c.length < 2 ^ 31) (hc' : c'.length < 2 ^ 31) (h : elem t c = elem t' c') : c = c' :=
  (CB.elem_append_inj (x := []) (y := []) (CB.byteLen_lt_127 (by omega)) (CB.byteLen_lt_127 (by omega)) (by rw [h])).2.1

/-- The signed part of an accepted request: an INTEGER, then a SEQUENCE that is empty or starts with a SET. -/
theorem request_start {env : Env U} {data : Bytes} {r : CertReq U} (h : parseCertificateRequest env data = .ok r) :
    ∃ (c v : Bytes) (sets : List Bytes) (rest more : Bytes), c.length < 2 ^ 31 ∧ r.rawTBS = elem 0x30 c ∧ (elem 0x30 c ++ more).length < 2 ^ 31 ∧
      data = elem 0x30 (elem 0x30 c ++ more) ∧ v.length < 2 ^ 31 ∧ (sets.flatMap (elem 0x31)).length < 2 ^ 31 ∧
      c = elem 0x02 v ++ (elem 0x30 (sets.flatMap (elem 0x31)) ++ rest) := by
  obtain ⟨tc, ac, sc, more, tbs, alg, sig, h0, h1, _, _, hd, h5, _, _, h8⟩ := request_components.1 h
  unfold parseCSR at h8
  rw [Res.bind_eq_ok] at h8
  obtain ⟨_, _, h8⟩ := h8
  rcases ite_ok h8 with ⟨_, h8⟩ | ⟨_, h8⟩
  · simp at h8
  rcases ite_ok h8 with ⟨_, h8⟩ | ⟨_, h8⟩
  · simp at h8
  simp only [Res.bind_eq_ok] at h8
  obtain ⟨_, _, rdns, k2, _, _, _, _, k3⟩ := h8
  simp only [Res.ok.injEq] at k3
  subst k3
  change (_ : Res _) = _ at h5
  unfold tyTbsCSR tyStruct at h5
  dsimp only at h5
  simp only [Res.bind_eq_ok] at h5
  obtain ⟨⟨ver, q1⟩, f1, ⟨sub, q2⟩, f2, ⟨key, q3⟩, f3, ⟨attrs, q4⟩, f4, f5⟩ := h5
  simp only [Res.ok.injEq] at f5
  subst f5
  dsimp only at k2 f2 ⊢
  obtain ⟨vc, hv, rfl, _⟩ := parseField_int f1
  obtain ⟨sets, hs, _⟩ := C83_sound _ _ k2
  have hne : q1 ≠ [] := by rintro rfl; simp [parseField] at f2
  obtain ⟨u1, _⟩ := parseField_raw_split rfl rfl hne f2
  have e : (sets.flatMap fun s => elem 0x31 s.flatten) = (sets.map List.flatten).flatMap (elem 0x31) := by
    rw [List.flatMap_map]
  rw [e] at hs
  rw [hs] at u1
  refine ⟨_, vc, sets.map List.flatten, q2, _, h1, rfl, h0, hd, hv, ?_, by rw [u1]⟩
  have := length_le_elem 0x30 ((sets.map List.flatten).flatMap (elem 0x31))
  rw [u1, List.length_append, List.length_append] at h1
  omega

/-- The signed part of an accepted certificate, if it starts with an INTEGER: then follows a SEQUENCE that starts with an OBJECT IDENTIFIER. -/
theorem certificate_start {env : Env U} {data : Bytes} {r : X509Cert U} (h : parseCertificate env data = .ok r) :
    ∃ c more, c.length < 2 ^ 31 ∧ r.rawTBS = elem 0x30 c ∧ (elem 0x30 c ++ more).length < 2 ^ 31 ∧ data = elem 0x30 (elem 0x30 c ++ more) ∧
      ((∃ x, c = 0xa0 :: x) ∨ ∃ v oid params rest, v.length < 2 ^ 31 ∧
      (elem 0x06 oid ++ params).length < 2 ^ 31 ∧ c = elem 0x02 v ++ (elem 0x30 (elem 0x06 oid ++ params) ++ rest)) := by
  obtain ⟨tc, ac, sc, more, tbs, alg, sig, h0, h1, _, _, hd, h5, _, _, h8⟩ := certificate_components.1 h
  unfold parseCert at h8
  rcases ite_ok h8 with ⟨_, h8⟩ | ⟨_, h8⟩
  · simp at h8
  rcases ite_ok h8 with ⟨_, h8⟩ | ⟨_, h8⟩
  · simp at h8
  simp only [Res.bind_eq_ok] at h8
  obtain ⟨_, _, _, _, _, _, k4⟩ := h8
  have hcore := (parseExtensions_core env _ _ _ k4).1
  simp only [X509Cert.core, Prod.mk.injEq] at hcore
  obtain ⟨_, c2, _⟩ := hcore
  unfold tyTbsCert tyStruct at h5
  dsimp only at h5
  simp only [Res.bind_eq_ok] at h5
  obtain ⟨⟨ver, q1⟩, f1, ⟨ser, q2⟩, f2, ⟨alg', q3⟩, f3, _, _, _, _, _, _, _, _, _, _, _, _, _, _, f11⟩ := h5
  simp only [Res.ok.injEq] at f11
  subst f11
  dsimp only at f2 f3 c2
  refine ⟨tc, _, h1, c2, h0, hd, ?_⟩
  rcases parseField_optional_explicit (ty := tyInt) (k := 0) rfl rfl rfl rfl rfl (by decide) rfl (by decide) f1 with
    ⟨n, c, full, _, _, _, e, _⟩ | ⟨_, e, _⟩
  · exact .inl ⟨_, e⟩
  · right
    subst e
    obtain ⟨v, hv, rfl, _⟩ := parseField_big f2
    obtain ⟨oc, params, rfl, _, _⟩ := parseField_algId f3
    refine ⟨v, oc, params, q3, hv, ?_, rfl⟩
    have := length_le_elem 0x30 (elem 0x06 oc ++ params)
    rw [List.length_append, List.length_append (bs := q3)] at h1
    omega

/-- **C140** What is signed in an accepted certificate is never what is signed in an accepted request: a signature made for the one
cannot be moved to the other. -/
theorem C140_apart (env : Env U) (env' : Env V) (data data' : Bytes) (r : X509Cert U) (q : CertReq V) (h : parseCertificate env data = .ok r)
    (h' : parseCertificateRequest env' data' = .ok q) : r.rawTBS ≠ q.rawTBS := by
  intro he
  obtain ⟨c, _, h1, e1, _, _, h2⟩ := certificate_start h
  obtain ⟨c', v, sets, rest, _, h3, e2, _, _, h4, h5, rfl⟩ := request_start h'
  rw [e1, e2] at he
  have hc := elem_injective h1 h3 he
  subst hc
  rcases h2 with ⟨x, hx⟩ | ⟨v', oid, params, rest', h6, h7, hx⟩
  · have := congrArg List.head? hx
    simp [elem] at this
  · obtain ⟨_, _, hx⟩ := CB.elem_append_inj (CB.byteLen_lt_127 (by omega)) (CB.byteLen_lt_127 (by omega)) hx
    obtain ⟨_, hx, _⟩ := CB.elem_append_inj (CB.byteLen_lt_127 (by omega)) (CB.byteLen_lt_127 (by omega)) hx
    cases sets with
    | nil => simp [elem] at hx
    | cons s ss =>
      have := congrArg List.head? hx
      simp [elem] at this

/-- **C140** No bytes are accepted both as certificate and as request; those accepted as the one are an error for the other. -/
theorem C140_either (env : Env U) (env' : Env V) (data : Bytes) :
    (∀ r, parseCertificate env data = .ok r → ∃ m, parseCertificateRequest env' data = .err m) ∧
    (∀ q, parseCertificateRequest env' data = .ok q → ∃ m, parseCertificate env data = .err m) := by
  have hno : ∀ (r : X509Cert U) (q : CertReq V), parseCertificate env data = .ok r → ¬ parseCertificateRequest env' data = .ok q := by
    intro r q h h'
    obtain ⟨c, more, h1, e1, h2, hd, _⟩ := certificate_start h
    obtain ⟨c', _, _, _, more', h3, e2, h4, hd', _⟩ := request_start h'
    rw [hd] at hd'
    have hc := elem_injective h2 h4 hd'
    obtain ⟨_, hc, _⟩ := CB.elem_append_inj (CB.byteLen_lt_127 (by omega)) (CB.byteLen_lt_127 (by omega)) hc
    exact C140_apart env env' data data r q h h' (by rw [e1, e2, hc])
  refine ⟨fun r h => ?_, fun q h => ?_⟩
  · have hr := C68_request env' data
    cases hp : parseCertificateRequest env' data with
    | ok q => exact absurd hp (hno r q h)
    | err m => exact ⟨m, rfl⟩
    | panic => rw [hp] at hr; cases hr
    | loop => rw [hp] at hr; cases hr
  · have hr := C68_certificate env data
    cases hp : parseCertificate env data with
    | ok r => exact absurd h (hno r q hp)
    | err m => exact ⟨m, rfl⟩
    | panic => rw [hp] at hr; cases hr
    | loop => rw [hp] at hr; cases hr

/-- **C140** What the code signs when it issues a certificate is never the signed part of an accepted request, whatever template, parent
and request it is issued for. -/
theorem C140_issued (env : Env U) (env' : Env V) (t p : X509Cert U) (csr : CertReq U) (tbs : TbsCert) (data : Bytes) (q : CertReq V)
    (h : createCertificateInfo env t p csr = .ok tbs) (hl : tbs.raw.length < 2 ^ 31) (h' : parseCertificateRequest env' data = .ok q) :
    tbs.raw ≠ q.rawTBS := by
  intro he
  obtain ⟨serial, exts, spki, issuer, subject, raw, _, _, _, _, _, g6, rfl⟩ := createCertificateInfo_ok h
  dsimp only at hl he
  obtain ⟨c, g1, g2, rfl⟩ := struct_wire g6 hl
  obtain ⟨c', v, sets, rest, _, h3, e2, _, _, h4, h5, rfl⟩ := request_start h'
  rw [e2] at he
  have hc := elem_injective g2 h3 he
  unfold withRaw at g1
  rw [if_neg (by simp)] at g1
  simp only [Res.bind_eq_ok, Res.ok.injEq] at g1
  obtain ⟨x1, k1, _, _, _, _, _, _, _, _, _, _, _, _, _, _, _, _, _, _, rfl⟩ := g1
  have e1 : tyInt.make { optional := true, explicit := true, defaultValue := some 0, tag := some 0 } 2 = .ok (elem 0xa0 [0x02, 0x01, 0x02]) := by decide +kernel
  rw [e1] at k1
  simp only [Res.ok.injEq] at k1
  subst k1
  have := congrArg List.head? hc
  simp [elem] at this

/-- What stands between the serial number and the key in a certificate: algorithm, issuer, validity and subject. -/
def exMiddle : Bytes := elem 0x30 (elem 0x06 exOidSig) ++ exSubject ++ elem 0x30 (elem 0x17 exTime ++ elem 0x17 exTime) ++ exSubject

/-- **C140** (negation) The raw subject of a template is written without looking at it, so that a created request can be a certificate:
one with the requester's key, the issuer, validity and subject that the raw subject brings, and a valid signature by the requester. -/
theorem C140_raw_violated : ∃ (t : CertReq Bytes) (pub : Sm2.PublicKey) (csr : Bytes) (after : List ATVSET) (r : X509Cert Bytes),
    Sm2.calculatePubKey ⟨2⟩ = .ok pub ∧ createCertificateRequest exEnv t pub ⟨2⟩ none [some (toBE 32 3)] = .ok (csr, after) ∧
      parseCertificate exEnv csr = .ok r ∧ r.version = 1 ∧ r.serialNumber = some 0 ∧ r.issuer.commonName = [0x61] ∧ r.subject.commonName = [0x61] ∧
      r.publicKey = some pub ∧ Sm2.verify pub none r.rawTBS r.signature = .ok true := by
  obtain ⟨pub, csr, after, h1, h2, h3⟩ := exCreate_true (t := { rawSubject := exMiddle, dnsNames := [[0x62]] })
    (f := fun r => match parseCertificate exEnv r.1 with
      | .ok q => decide (q.version = 1 ∧ q.serialNumber = some 0 ∧ q.issuer.commonName = [0x61] ∧ q.subject.commonName = [0x61] ∧
          (match q.publicKey with
            | some k => decide (Sm2.calculatePubKey ⟨2⟩ = .ok k ∧ Sm2.verify k none q.rawTBS q.signature = .ok true)
            | none => false) = true)
      | _ => false)
    (by set_option maxRecDepth 100000 in decide +kernel)
  split at h3
  · rename_i r hr
    obtain ⟨g1, g2, g3, g4, g5⟩ := of_decide_eq_true h3
    split at g5
    · rename_i k hk
      obtain ⟨g6, g7⟩ := of_decide_eq_true g5
      obtain rfl : pub = k := Res.ok.inj (h1.symm.trans g6)
      exact ⟨_, pub, csr, after, r, h1, h2, hr, g1, g2, g3, g4, hk, g7⟩
    · cases g5
  · cases h3

-- A request and a certificate that are accepted, and what is signed in them is not the same.
example : (match parseCertificate exEnv (exSigned exOidSig (exCertInfo exVersion exOidSig exGoodKey) []),
      parseCertificateRequest exEnv (exSigned exOidSig (exRequestInfo exGoodKey) []) with
    | .ok r, .ok q => decide (r.rawTBS ≠ q.rawTBS)
    | _, _ => false) = true := by decide +kernel

-- Certificates without a version, which start like requests, are accepted.
example : (match parseCertificate exEnv (exSigned exOidSig (exCertInfo [] exOidSig exGoodKey) []) with
    | .ok r => decide (r.version = 1)
    | _ => false) = true := by decide +kernel

end Verif.Props
