import Verif.Cert.CsrLemmas
import Verif.Cert.High
/-!
# What `CreateCertificateRequest` makes, and how it is read: helper lemmas
-/
namespace Verif.Cert
open Verif Verif.Der Verif.Spec.DER

variable {U : Type} {α : Type}

theorem lenOctets_length {n : Nat} (h : n < 2 ^ 31) : (lenOctets n).length ≤ 5 := by
  rw [CB.length_lenOctets]
  have : byteLen n ≤ 4 := (byteLen_le_iff _ _).2 (by omega)
  split <;> omega

/-- A marshalled structure that was put into another one as `RawContent` is not longer than that one. -/
theorem raw_small {c : Bytes} (h : (makeElem 0 16 true (stripTagAndLength (makeElem 0 16 true c))).length < 2 ^ 31) :
    (makeElem 0 16 true c).length < 2 ^ 31 := by
  have h1 := length_le_makeElem 0 16 true (stripTagAndLength (makeElem 0 16 true c))
  have key : ∀ {t r}, parseTagAndLength (makeElem 0 16 true c) = .ok (t, r) → r.length < 2 ^ 31 → r = c := by
    intro t r hp hr
    obtain ⟨h2, id, h3, h4⟩ := parseTagAndLength_sound hp
    have hd : (makeElem 0 16 true c).head? = some 0x30 := by
      unfold makeElem; simp only; split <;> rfl
    have hid : id = [0x30] := by
      obtain ⟨_, ⟨h5, rfl⟩ | ⟨h5, g, rfl, _⟩⟩ := h3
      · rw [h4] at hd
        simp only [List.cons_append, List.nil_append, List.head?_cons, Option.some.injEq] at hd
        rw [hd]
      · rw [h4] at hd
        simp only [List.cons_append, List.append_assoc, List.head?_cons, Option.some.injEq] at hd
        have := congrArg BitVec.toNat hd
        have e : BitVec.toNat (48 : Byte) = 48 := rfl
        rw [e, BitVec.toNat_ofNat] at this
        split at this <;> omega
    subst hid
    have h6 := lenOctets_length h2
    have h7 := congrArg List.length h4
    simp only [List.length_append, List.length_cons, List.length_nil] at h7
    have h8 := length_le_makeElem 0 16 true c
    rw [makeElem_eq (by omega)] at h4
    have h9 : lenOctets c.length ++ c = lenOctets t.length ++ r := by
      have := List.cons.inj (show elem 0x30 c = 0x30 :: (lenOctets t.length ++ r) by
        rw [show (elem 0x30 c) = elem (idOctet 0 16 true) c from rfl, h4]; simp)
      exact this.2
    exact (CB.lenOctets_append_inj (CB.byteLen_lt_127 (by omega)) (CB.byteLen_lt_127 (by omega)) h9).2.symm
  unfold stripTagAndLength at h h1
  cases hp : parseTagAndLength (makeElem 0 16 true c) with
  | ok r =>
    rw [hp] at h h1
    dsimp only at h h1
    have := key (t := r.1) (r := r.2) hp (by omega)
    rwa [this] at h
  | err m => rw [hp] at h1 h; dsimp only at h1 h; omega
  | panic => rw [hp] at h1 h; dsimp only at h1 h; omega
  | loop => rw [hp] at h1 h; dsimp only at h1 h; omega

/-- What `marshal` writes for a struct. -/
theorem struct_made {zero : α} {isZero : α → Bool} {body : Bytes → Bytes → Res α} {make : α → Res Bytes} {v : α} {e : Bytes}
    (h : (tyStruct zero isZero body make).make {} v = .ok e) : ∃ c, make v = .ok c ∧ e = makeElem 0 16 true c := by
  have h' : makeTagged {} 16 true (isZero v) (fun _ => false) (make v) = .ok e := h
  unfold makeTagged at h'
  rw [omitted_mandatory rfl, if_neg (by simp), if_neg (by simp), Res.bind_eq_ok] at h'
  obtain ⟨c, h1, h2⟩ := h'
  simp only [Res.ok.injEq] at h2
  exact ⟨c, h1, h2.symm⟩

/-- The structure inside is not longer than the whole. -/
theorem struct_raw_small {zero : α} {isZero : α → Bool} {body : Bytes → Bytes → Res α} {fields : α → Res Bytes} {raw : α → Bytes}
    {v v' : α} {b e : Bytes} (hb : (tyStruct zero isZero body (fun v => withRaw (raw v) (fields v))).make {} v' = .ok b)
    (hr : raw v = b) (h : (tyStruct zero isZero body (fun v => withRaw (raw v) (fields v))).make {} v = .ok e)
    (hl : e.length < 2 ^ 31) : b.length < 2 ^ 31 := by
  obtain ⟨c, _, rfl⟩ := struct_made hb
  obtain ⟨c', h1, rfl⟩ := struct_made h
  have hpos := length_le_makeElem 0 16 true c
  unfold withRaw at h1
  rw [hr, if_pos (by omega)] at h1
  simp only [Res.ok.injEq] at h1
  subst h1
  exact raw_small hl

/-- The attributes of a created request are read back, if their values survive. -/
theorem atvset_rt {a : ATVSET} {e : Bytes} (hf : OIDFits a.type) (hv : ∀ l ∈ a.value, ∀ x ∈ l, ATVOk x) (h : tyATVSET.make {} a = .ok e)
    (hl : e.length < 2 ^ 31) : ElemOk tyATVSET e a := by
  obtain ⟨c, h1, h2, h3, h4⟩ := struct_rt' h hl
  apply h4
  simp only [Res.bind_eq_ok, Res.ok.injEq] at h1
  obtain ⟨x, hx, y, hy, rfl⟩ := h1
  rw [List.length_append] at h2
  rw [fieldRT_oid (p := {}) rfl rfl (by decide) hf x hx (by omega), Res.ok_bind]
  dsimp only
  have := fieldRT_slice (s := false) (p := { set := true }) rfl rfl (by decide)
    (forall₂_self fun l hl => rdn_rt (s := false) (hv l hl)) y hy (by omega) []
  rw [List.append_nil] at this
  rw [this]; rfl

theorem parseRawAttributes_of {as : List ATVSET} {vs : List RawValue}
    (h : List.Forall₂ (fun a v => tyATVSET.make {} a = .ok v.fullBytes ∧ v.fullBytes.length < 2 ^ 31 ∧ RawFull v) as vs)
    (ha : ∀ a ∈ as, OIDFits a.type ∧ ∀ l ∈ a.value, ∀ x ∈ l, ATVOk x) : parseRawAttributes vs = .ok as := by
  induction h with
  | nil => rfl
  | @cons a v as vs h1 h2 ih =>
    obtain ⟨g1, g2⟩ := ha a (by simp)
    have hu := (atvset_rt g1 g2 h1.1 h1.2.1).2 []
    rw [List.append_nil] at hu
    have hu' : unmarshal tyATVSET v.fullBytes = .ok (a, []) := hu
    rw [parseRawAttributes, hu', ih fun a ha' => ha a (by simp [ha'])]
    rfl

/-- The signed part as `CreateCertificateRequest` fills it in. -/
def tbsOf (raw subj : Bytes) (pk : Bytes × AlgId) (attrs : List RawValue) : TbsCSR :=
  ⟨raw, 0, { fullBytes := subj }, ⟨[], pk.2, ⟨pk.1, pk.1.length * 8⟩⟩, attrs⟩

/-- What is known of the parts of a created request. -/
theorem create_parts {env : Env U} {t : CertReq U} {pub : Sm2.PublicKey} {pri : Sm2.PrivateKey} {id : Option Bytes} {tape : Sm2.Tape}
    {csr : Bytes} {after : List ATVSET} (h : createCertificateRequest env t pub pri id tape = .ok (csr, after)) :
    ∃ pk exts subj attrs tbs sig, marshalPublicKey pub = .ok pk ∧ requestedExtensions env t = .ok exts ∧
      subjectBytes t.rawSubject t.subject = .ok subj ∧ newRawAttributes (buildAttributes t.attributes exts).1 = .ok attrs ∧
      marshal tyTbsCSR (tbsOf [] subj pk attrs) = .ok tbs ∧
      Sm2.sign pri id tbs tape = .ok sig ∧
      marshal tyCSR { tbs := tbsOf tbs subj pk attrs, sigAlg := sigAlgSM3WithSM2, sigValue := ⟨sig, sig.length * 8⟩ } = .ok csr ∧
      after = (buildAttributes t.attributes exts).2 := by
  unfold createCertificateRequest at h
  simp only [Res.bind_eq_ok, Res.ok.injEq, Prod.mk.injEq] at h
  obtain ⟨pk, h1, exts, h2, subj, h3, attrs, h4, tbs, h5, sig, h6, e, h7, h8, h9⟩ := h
  subst h8
  exact ⟨pk, exts, subj, attrs, tbs, sig, h1, h2, h3, h4, h5, h6, h7, h9.symm⟩

/-- The key info of a created request. -/
theorem marshalPublicKey_eq {x y : ℕ} {pk : Bytes × AlgId} 
    (hu : Sm2.PublicKey.getUnCompressBytes ⟨x, y⟩ = .ok (4 :: (Spec.SM2.fe x ++ Spec.SM2.fe y)))
    (h : marshalPublicKey ⟨x, y⟩ = .ok pk) :
    ∃ cc, OIDContent oidSM2P256V1 cc ∧ cc.length < 2 ^ 31 ∧
      pk = (4 :: (Spec.SM2.fe x ++ Spec.SM2.fe y), ⟨oidPublicKeyECDSA, { fullBytes := elem 0x06 cc }⟩) := by
  unfold marshalPublicKey at h
  rw [hu, Res.ok_bind] at h
  have hm : ∃ b, marshal tyOID oidSM2P256V1 = .ok b ∧ b.length < 2 ^ 31 := ⟨_, rfl, by decide⟩
  obtain ⟨b, hb, hbl⟩ := hm
  rw [hb] at h
  simp only [Res.ok.injEq] at h
  obtain ⟨c, h1, h2, h3⟩ := makeTagged_elem (p := {}) (tag := 6) (cmp := false) (z := decide (oidSM2P256V1 = [])) (d := fun _ => false)
    (body := makeObjectIdentifier oidSM2P256V1) rfl (omitted_mandatory rfl _ _) hb hbl
  exact ⟨c, makeObjectIdentifier_content (by unfold OIDFits; decide) h1, h2, by rw [← h, h3]; rfl⟩

theorem elemOk_unique {ty : Ty α} {e : Bytes} {v w : α} (hv : ElemOk ty e v) (hw : ElemOk ty e w) : v = w := by
  have := (hv.2 []).symm.trans (hw.2 [])
  simp only [Res.ok.injEq, Prod.mk.injEq] at this
  exact this.1

/-- How a created request is read. -/
theorem created_read {subj tbs sig csr pt cc : Bytes} {attrs : List RawValue} (hs : RawOk subj)
    (hcc : cc.length < 2 ^ 31) (ha : ∀ v ∈ attrs, RawFull v)
    (ht : marshal tyTbsCSR (tbsOf [] subj (pt, ⟨oidPublicKeyECDSA, { fullBytes := elem 0x06 cc }⟩) attrs) = .ok tbs)
    (hc : marshal tyCSR { tbs := tbsOf tbs subj (pt, ⟨oidPublicKeyECDSA, { fullBytes := elem 0x06 cc }⟩) attrs, sigAlg := sigAlgSM3WithSM2, sigValue := ⟨sig, sig.length * 8⟩ } = .ok csr)
    (hl : csr.length < 2 ^ 31) :
    ∃ (s v : RawValue) (epk : Bytes), s.fullBytes = subj ∧ v.fullBytes = elem 0x06 cc ∧
      unmarshal tyCSR csr = .ok (⟨csr, ⟨tbs, 0, s, ⟨epk, ⟨oidPublicKeyECDSA, v⟩, ⟨pt, pt.length * 8⟩⟩, attrs⟩,
        ⟨oidSignatureSM3WithSM2, {}⟩, ⟨sig, sig.length * 8⟩⟩, []) := by
  have htl : tbs.length < 2 ^ 31 := by
    obtain ⟨c', h1, h2, h3, _⟩ := struct_rt' hc hl
    unfold withRaw at h1
    rw [if_neg (by simp)] at h1
    simp only [Res.bind_eq_ok, Res.ok.injEq] at h1
    obtain ⟨x1, g1, x2, g2, x3, g3, rfl⟩ := h1
    simp only [List.length_append] at h2
    exact struct_raw_small (raw := TbsCSR.raw) ht rfl g1 (by omega)
  have hraw : RawOk (elem 0x06 cc) := ⟨0, 6, false, cc, by decide, by decide, hcc, rfl⟩
  have hpk : ∀ e, tyPublicKeyInfo.make {} ⟨[], ⟨oidPublicKeyECDSA, { fullBytes := elem 0x06 cc }⟩, ⟨pt, pt.length * 8⟩⟩ = .ok e →
      e.length < 2 ^ 31 → ∃ v : RawValue, v.fullBytes = elem 0x06 cc ∧
        ElemOk tyPublicKeyInfo e ⟨e, ⟨oidPublicKeyECDSA, v⟩, ⟨pt, pt.length * 8⟩⟩ :=
    fun e he hel => pki_rt (by unfold OIDFits; decide) hraw rfl (bitsOk_bytes pt) he hel
  obtain ⟨c, s, epk, w, h1, h2, h3, h4, h5, h6, h7⟩ := tbsCSR_rt (pk := ⟨[], ⟨oidPublicKeyECDSA, { fullBytes := elem 0x06 cc }⟩, ⟨pt, pt.length * 8⟩⟩)
    hs (fun e he hel => by obtain ⟨v, _, hv⟩ := hpk e he hel; exact ⟨_, hv⟩) ha ht htl
  obtain ⟨v, hv1, hv2⟩ := hpk epk h4 h5
  have := elemOk_unique h6 hv2
  subst this
  refine ⟨s, v, epk, h3, hv1, ?_⟩
  rw [h2] at hc h7 ⊢
  exact csr_rt (tbs := tbsOf (elem 0x30 c) subj (pt, ⟨oidPublicKeyECDSA, { fullBytes := elem 0x06 cc }⟩) attrs) rfl h1 h7 hc hl

end Verif.Cert
