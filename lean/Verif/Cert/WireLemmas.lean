import Verif.Cert.WireSpec
import Verif.Cert.CertRT
import Verif.Cert.CreateLemmas
import Verif.Der.OidInt
/-!
# What the types of gmx509.go are marshalled to
-/
namespace Verif.Cert
open Verif Verif.Der Verif.Spec.DER Verif.Spec.Wire

variable {U : Type} {α : Type}

theorem makeBase128_subid {n : ℕ} (h : n < 2 ^ 63) : IsSubid n (makeBase128 n) := by
  have e : (BitVec.ofNat 64 n).toNat = n := by rw [BitVec.toNat_ofNat, Nat.mod_eq_of_lt (by omega)]
  have h1 := CB.addBase128Int_spec (BitVec.ofNat 64 n) (by omega)
  rw [addBase128Int_nat _ (by omega), e] at h1
  exact h1

theorem makeOid_isOID {oid : List ℕ} {c : Bytes} (hs : ∀ n ∈ subids oid, n < 2 ^ 63) (h : makeObjectIdentifier oid = .ok c) : IsOID oid c := by
  match oid, h with
  | a :: b :: tl, h =>
    rw [makeObjectIdentifier_cons] at h
    split at h
    · simp at h
    · rename_i hv
      simp only [Res.ok.injEq] at h
      refine ⟨⟨by omega, fun _ => by omega⟩, ((a * 40 + b) :: tl).map makeBase128, ?_, ?_⟩
      · rw [← h]; simp [List.flatMap_def]
      · have e : subids (a :: b :: tl) = (a * 40 + b) :: tl := by unfold subids; rw [Nat.mul_comm]
        rw [e, List.forall₂_map_right_iff, List.forall₂_same]
        intro n hn
        exact makeBase128_subid (hs n (by rw [e]; exact hn))

theorem oid_wire {oid : OID} {e : Bytes} (hs : ∀ n ∈ subids oid, n < 2 ^ 63) (h : tyOID.make {} oid = .ok e) (hl : e.length < 2 ^ 31) : IsOidElem oid e := by
  obtain ⟨c, h1, h2, h3⟩ := makeTagged_elem (p := {}) (tag := 6) (cmp := false) (z := decide (oid = [])) (d := fun _ => false) rfl (omitted_mandatory rfl _ _) h hl
  exact ⟨c, makeOid_isOID hs h1, h3⟩

theorem struct_wire {zero : α} {isZero : α → Bool} {body : Bytes → Bytes → Res α} {make : α → Res Bytes} {v : α} {e : Bytes}
    (h : (tyStruct zero isZero body make).make {} v = .ok e) (hl : e.length < 2 ^ 31) :
    ∃ c, make v = .ok c ∧ c.length < 2 ^ 31 ∧ e = elem 0x30 c := by
  obtain ⟨c, h1, rfl⟩ := struct_made h
  obtain ⟨h2, h3⟩ := makeElem_lt hl
  exact ⟨c, h1, h2, h3⟩

theorem slice_wire {ty : Ty α} {vs : List α} {e : Bytes} (h : (tySlice false ty).make {} vs = .ok e) (hl : e.length < 2 ^ 31) :
    ∃ es, List.Forall₂ (fun v e => ty.make {} v = .ok e) vs es ∧ es.flatten.length < 2 ^ 31 ∧ e = elem 0x30 es.flatten := by
  obtain ⟨c, h1, h2, h3⟩ := makeTagged_elem (p := {}) (tag := 16) (cmp := true) (z := false) (d := fun _ => false) rfl (omitted_mandatory rfl _ _) h hl
  obtain ⟨es, rfl, h4⟩ := makeElems_ok h1
  exact ⟨es, h4, h2, h3⟩

/-- Elements that are known one by one. -/
theorem forall₂_flatMap {ty : Ty α} {β : Type} {g : β → α} {f : β → Bytes} : ∀ {vs : List β} {es : List Bytes},
    List.Forall₂ (fun v e => ty.make {} v = .ok e) (vs.map g) es → es.flatten.length < 2 ^ 31 →
    (∀ v ∈ vs, ∀ e, ty.make {} (g v) = .ok e → e.length < 2 ^ 31 → e = f v) → es.flatten = vs.flatMap f := by
  intro vs
  induction vs with
  | nil => intro es h _ _; cases h; rfl
  | cons v vs ih =>
    intro es h hl hf
    cases h with
    | cons h1 h2 =>
      rw [List.flatten_cons, List.length_append] at hl
      rw [List.flatten_cons, List.flatMap_cons, hf v (by simp) _ h1 (by omega), ih h2 (by omega) fun v hv => hf v (by simp [hv])]

/-! ## Parts -/

theorem sigAlg_wire : tyAlgId.make {} sigAlgSM3WithSM2 = .ok sm2WithSm3 := by decide +kernel

theorem raw_wire {b : Bytes} (h : b ≠ []) : tyRaw.make {} { fullBytes := b } = .ok b := raw_make h

theorem bits_wire {b e : Bytes} (h : tyBits.make {} ⟨b, b.length * 8⟩ = .ok e) (hl : e.length < 2 ^ 31) : e = bitString b := by
  obtain ⟨c, h1, h2, h3⟩ := makeTagged_elem (p := {}) (tag := 3) (cmp := false) (z := decide ((⟨b, b.length * 8⟩ : BitString) = {})) (d := fun _ => false) rfl (omitted_mandatory rfl _ _) h hl
  simp only [Res.ok.injEq] at h1
  subst h1
  rw [h3]
  unfold makeBitString
  dsimp only
  rw [Nat.mul_mod_left]
  rfl

theorem extension_wire {v : Extension} {e : Bytes} (hf : ∀ n ∈ subids v.id, n < 2 ^ 63) (h : tyExtension.make {} v = .ok e) (hl : e.length < 2 ^ 31) :
    ∃ o, IsOidElem v.id o ∧ e = extension o v.critical v.value := by
  obtain ⟨c, h1, h2, h3⟩ := struct_wire h hl
  simp only [Res.bind_eq_ok, Res.ok.injEq] at h1
  obtain ⟨a, ha, b, hb, d, hd, rfl⟩ := h1
  simp only [List.length_append] at h2
  refine ⟨a, oid_wire hf ha (by omega), ?_⟩
  obtain ⟨_, rfl⟩ := bytes_make hd (by omega)
  rw [h3]
  unfold extension
  obtain ⟨id, crit, val⟩ := v
  cases crit with
  | true =>
    have : tyBool.make { optional := true } true = .ok [0x01, 0x01, 0xff] := by decide +kernel
    rw [this] at hb
    simp only [Res.ok.injEq] at hb
    rw [← hb, if_pos rfl, List.append_assoc]; rfl
  | false =>
    have : tyBool.make { optional := true } false = .ok [] := rfl
    rw [this] at hb
    simp only [Res.ok.injEq] at hb
    rw [← hb, if_neg (by simp), List.append_nil]; rfl

/-! ## Extensions -/

theorem akid_wire {k e : Bytes} (h : marshal tyAuthKeyId (some k) = .ok e) (hl : e.length < 2 ^ 31) : e = authorityKeyIdentifier k := by
  obtain ⟨c, h1, h2, rfl⟩ := struct_wire h hl
  obtain ⟨c', h3, h4, rfl⟩ := makeTagged_elem (p := { optional := true, tag := some 0 }) (tag := 4) (cmp := false) (z := decide (some k = none)) (d := fun _ => false)
    (body := .ok ((some k).getD [])) rfl (by simp [omitted]) h1 h2
  simp only [Option.getD_some, Res.ok.injEq] at h3
  subst h3
  rfl

theorem basicConstraints_wire {ca : Bool} {m : Int} {e : Bytes} (hm : Int64Range m) (h : marshal tyBasicConstraints ⟨ca, m⟩ = .ok e) (hl : e.length < 2 ^ 31) :
    (m = -1 ∧ e = basicConstraints ca none) ∨ (m ≠ -1 ∧ ∃ c, IsInt m c ∧ e = basicConstraints ca (some c)) := by
  obtain ⟨c, h1, h2, rfl⟩ := struct_wire h hl
  simp only [Res.bind_eq_ok, Res.ok.injEq] at h1
  obtain ⟨a, ha, b, hb, rfl⟩ := h1
  simp only [List.length_append] at h2
  have ha' : a = if ca then [0x01, 0x01, 0xff] else [] := by
    have h1 : tyBool.make { optional := true } true = .ok [0x01, 0x01, 0xff] := by decide +kernel
    have h0 : tyBool.make { optional := true } false = .ok [] := rfl
    cases ca
    · rw [h0] at ha; simpa using ha.symm
    · rw [h1] at ha; simpa using ha.symm
  by_cases h1 : m = -1
  · left
    subst h1
    have : tyInt.make { optional := true, defaultValue := some (-1) } (-1) = .ok [] := rfl
    rw [this] at hb
    simp only [Res.ok.injEq] at hb
    subst hb
    refine ⟨rfl, ?_⟩
    rw [ha']; rfl
  · right
    obtain ⟨c', h3, h4, rfl⟩ := makeTagged_elem (p := { optional := true, defaultValue := some (-1) }) (tag := 2) (cmp := false) (z := decide (m = 0))
      (d := fun d => decide (m = d)) (body := .ok (makeInt64 m)) rfl (by simp [omitted, h1]) hb (by omega)
    simp only [Res.ok.injEq] at h3
    subst h3
    refine ⟨h1, _, makeInt64_isInt hm, ?_⟩
    rw [ha']; rfl

theorem aia_wire {ocsp issuers : List Bytes} {e : Bytes} (h : aiaValue ocsp issuers = .ok e) (hl : e.length < 2 ^ 31) :
    e = authorityInfoAccess ocsp issuers := by
  obtain ⟨es, h1, h2, rfl⟩ := slice_wire h hl
  have one : ∀ (oid : OID) (k : Byte), tyOID.make {} oid = .ok (elem 0x06 [0x2b, 0x06, 0x01, 0x05, 0x05, 0x07, 0x30, k]) → ∀ b e,
      tyAIA.make {} ⟨oid, { tag := 6, cls := 2, bytes := b }⟩ = .ok e → e.length < 2 ^ 31 → e = accessDescription k b := by
    intro oid k ho b e he hl
    obtain ⟨c, h1, h2, rfl⟩ := struct_wire he hl
    simp only [Res.bind_eq_ok, Res.ok.injEq] at h1
    obtain ⟨a, ha, d, hd, rfl⟩ := h1
    simp only [List.length_append] at h2
    rw [ho] at ha
    rw [raw_parts_make rfl] at hd
    simp only [Res.ok.injEq] at ha hd
    subst ha hd
    rw [(makeElem_lt (c := b) (by omega)).2]
    rfl
  have o1 : tyOID.make {} oidAuthorityInfoAccessOcsp = .ok (elem 0x06 [0x2b, 0x06, 0x01, 0x05, 0x05, 0x07, 0x30, 1]) := by decide +kernel
  have o2 : tyOID.make {} oidAuthorityInfoAccessIssuers = .ok (elem 0x06 [0x2b, 0x06, 0x01, 0x05, 0x05, 0x07, 0x30, 2]) := by decide +kernel
  have hsplit : ocsp.map (fun name => (⟨oidAuthorityInfoAccessOcsp, { tag := 6, cls := 2, bytes := name }⟩ : AIA)) ++
      issuers.map (fun name => (⟨oidAuthorityInfoAccessIssuers, { tag := 6, cls := 2, bytes := name }⟩ : AIA)) =
      (ocsp.map (fun b => (true, b)) ++ issuers.map (fun b => (false, b))).map fun x =>
        (⟨if x.1 then oidAuthorityInfoAccessOcsp else oidAuthorityInfoAccessIssuers, { tag := 6, cls := 2, bytes := x.2 }⟩ : AIA) := by
    simp [Function.comp_def]
  rw [hsplit] at h1
  rw [forall₂_flatMap (f := fun x : Bool × Bytes => accessDescription (if x.1 then 1 else 2) x.2) h1 h2]
  · unfold authorityInfoAccess
    simp [List.flatMap_map]
  · rintro ⟨b, x⟩ _ e he hl
    cases b
    · exact one _ 2 o2 x e he hl
    · exact one _ 1 o1 x e he hl

theorem crl_wire {uris : List Bytes} {e : Bytes} (h : crlValue uris = .ok e) (hl : e.length < 2 ^ 31) : e = crlDistributionPoints uris := by
  obtain ⟨es, h1, h2, rfl⟩ := slice_wire h hl
  rw [forall₂_flatMap (f := fun u => elem 0x30 (elem 0xa0 (elem 0xa0 (elem 0x86 u)))) h1 h2]
  · rfl
  intro b _ e he hl
  obtain ⟨c, h1, h2, rfl⟩ := struct_wire he hl
  simp only [Res.bind_eq_ok, Res.ok.injEq] at h1
  obtain ⟨x, hx, y, hy, z, hz, rfl⟩ := h1
  have hy' : tyOptBits.make { optional := true, tag := some 1 } none = .ok [] := rfl
  have hz' : tyRaw.make { optional := true, tag := some 2 } {} = .ok [] := rfl
  rw [hy'] at hy
  rw [hz'] at hz
  simp only [Res.ok.injEq] at hy hz
  subst hy hz
  simp only [List.append_nil] at h2 ⊢
  obtain ⟨c', g1, g2, rfl⟩ := makeTagged_elem (p := { optional := true, tag := some 0 }) (tag := 16) (cmp := true)
    (z := decide (({ fullName := some [{ tag := 6, cls := 2, bytes := b }] } : DPName) = {})) (d := fun _ => false) rfl (by simp [omitted]) hx h2
  simp only [Res.bind_eq_ok, Res.ok.injEq] at g1
  obtain ⟨x', hx', y', hy', rfl⟩ := g1
  have hn : (tyOptSlice (tySlice true tyATV)).make { optional := true, tag := some 1 } none = .ok [] := rfl
  rw [hn] at hy'
  simp only [Res.ok.injEq] at hy'
  subst hy'
  simp only [List.append_nil] at g2 ⊢
  obtain ⟨c'', k1, k2, rfl⟩ := makeTagged_elem (p := { optional := true, tag := some 0 }) (tag := 16) (cmp := true)
    (z := decide (some [({ tag := 6, cls := 2, bytes := b } : RawValue)] = none)) (d := fun _ => false) rfl (by simp [omitted]) hx' g2
  simp only [Option.getD_some, makeElems, raw_parts_make, Res.ok_bind, Res.ok.injEq, List.append_nil] at k1
  subst k1
  rw [(makeElem_lt k2).2]
  rfl

theorem policies_wire {oids : List OID} {e : Bytes} (hf : ∀ o ∈ oids, ∀ n ∈ subids o, n < 2 ^ 63) (h : marshal (tySlice false tyPolicyInformation) oids = .ok e)
    (hl : e.length < 2 ^ 31) : ∃ os, List.Forall₂ IsOidElem oids os ∧ e = certificatePolicies os := by
  obtain ⟨es, h1, h2, rfl⟩ := slice_wire h hl
  suffices ∃ os, List.Forall₂ IsOidElem oids os ∧ es = os.map (elem 0x30) by
    obtain ⟨os, g1, rfl⟩ := this
    refine ⟨os, g1, ?_⟩
    unfold certificatePolicies
    rw [List.flatMap_def]
  clear h hl
  induction h1 with
  | nil => exact ⟨[], .nil, rfl⟩
  | @cons o e oids es h3 _ ih =>
    rw [List.flatten_cons, List.length_append] at h2
    obtain ⟨os, g1, rfl⟩ := ih (fun o ho => hf o (by simp [ho])) (by omega)
    obtain ⟨c, k1, k2, rfl⟩ := struct_wire h3 (by omega)
    exact ⟨c :: os, .cons (oid_wire (hf o (by simp)) k1 k2) g1, rfl⟩

theorem oids_wire {oids : List OID} {e : Bytes} (hf : ∀ o ∈ oids, ∀ n ∈ subids o, n < 2 ^ 63) (h : marshal (tySlice false tyOID) oids = .ok e)
    (hl : e.length < 2 ^ 31) : ∃ os, List.Forall₂ IsOidElem oids os ∧ e = elem 0x30 os.flatten := by
  obtain ⟨es, h1, h2, rfl⟩ := slice_wire h hl
  refine ⟨es, ?_, rfl⟩
  clear h hl
  induction h1 with
  | nil => exact .nil
  | @cons o e oids es h3 _ ih =>
    rw [List.flatten_cons, List.length_append] at h2
    exact .cons (oid_wire (hf o (by simp)) h3 (by omega)) (ih (fun o ho => hf o (by simp [ho])) (by omega))

/-! ## Whole structures -/

theorem tbsCert_wire {serial : Int} {issuer subj nb na spki e : Bytes} {val : Validity} {pk : PublicKeyInfo} {exts : List Extension}
    (hi : issuer ≠ []) (hs : subj ≠ []) (h1 : tyTime.make {} val.notBefore = .ok nb) (h2 : tyTime.make {} val.notAfter = .ok na)
    (hpk : tyPublicKeyInfo.make {} pk = .ok spki) (hf : ∀ x ∈ exts, ∀ n ∈ subids x.id, n < 2 ^ 63)
    (h : marshal tyTbsCert { version := 2, serial := serial, sigAlg := sigAlgSM3WithSM2, issuer := { fullBytes := issuer }, validity := val, subject := { fullBytes := subj }, publicKey := pk, extensions := some exts } = .ok e) (hl : e.length < 2 ^ 31) :
    ∃ s es, IsInt serial s ∧ List.Forall₂ (fun (x : Extension) w => ∃ o, IsOidElem x.id o ∧ w = extension o x.critical x.value) exts es ∧
      e = tbsCertificate s issuer nb na subj spki es := by
  obtain ⟨c, g1, g2, rfl⟩ := struct_wire h hl
  unfold withRaw at g1
  rw [if_neg (by simp)] at g1
  simp only [Res.bind_eq_ok, Res.ok.injEq] at g1
  obtain ⟨x1, k1, x2, k2, x3, k3, x4, k4, x5, k5, x6, k6, x7, k7, x8, k8, x9, k9, x10, k10, rfl⟩ := g1
  simp only [List.length_append] at g2
  have e1 : tyInt.make { optional := true, explicit := true, defaultValue := some 0, tag := some 0 } 2 = .ok (elem 0xa0 [0x02, 0x01, 0x02]) := by decide +kernel
  rw [e1] at k1
  obtain ⟨s, m1, m2, rfl⟩ := makeTagged_elem (p := {}) (tag := 2) (cmp := false) (z := false) (d := fun _ => false) rfl (omitted_mandatory rfl _ _) k2 (by omega)
  simp only [Res.ok.injEq] at m1
  rw [sigAlg_wire] at k3
  rw [raw_wire hi] at k4
  rw [raw_wire hs] at k6
  rw [hpk] at k7
  have e8 : tyOptBits.make { optional := true, tag := some 1 } none = .ok [] := rfl
  have e9 : tyOptBits.make { optional := true, tag := some 2 } none = .ok [] := rfl
  rw [e8] at k8
  rw [e9] at k9
  simp only [Res.ok.injEq] at k1 k3 k4 k6 k7 k8 k9
  subst k1 k3 k4 k6 k7 k8 k9 m1
  obtain ⟨c5, n1, n2, rfl⟩ := struct_wire k5 (by omega)
  rw [h1, h2] at n1
  simp only [Res.ok_bind, Res.ok.injEq] at n1
  subst n1
  obtain ⟨c10, q1, q2, rfl⟩ := makeTagged_explicit (p := { optional := true, explicit := true, tag := some 3 }) (tag := 16) (cmp := true) (k := 3)
    (z := decide (some exts = none)) (d := fun _ => false) rfl rfl rfl
    (by simp [omitted]) k10 (by omega)
  obtain ⟨es, rfl, q3⟩ := makeElems_ok q1
  refine ⟨_, es, makeBigInt_isInt serial, ?_, ?_⟩
  · have : es.flatten.length < 2 ^ 31 := lt_of_le_of_lt (by have := CB.length_elem (idOctet 0 16 true) es.flatten; omega) q2
    clear h hl k10 q1 q2 g2
    rw [Option.getD_some] at q3
    clear k5 hpk h1 h2
    induction q3 with
    | nil => exact .nil
    | @cons o e oids es h3 _ ih =>
      rw [List.flatten_cons, List.length_append] at this
      exact .cons (extension_wire (hf o (by simp)) h3 (by omega)) (ih (fun o ho => hf o (by simp [ho])) (by omega))
  · unfold tbsCertificate
    simp only [List.nil_append, List.append_assoc]
    rfl

theorem signed_cert_wire {tbs : TbsCert} {c sig e : Bytes} (hr : tbs.raw = elem 0x30 c) (hc : c.length < 2 ^ 31)
    (h : createCertificate tbs sig = .ok e) (hl : e.length < 2 ^ 31) : e = signed tbs.raw sig := by
  obtain ⟨c', g1, g2, rfl⟩ := struct_wire h hl
  unfold withRaw at g1
  rw [if_neg (by simp)] at g1
  simp only [Res.bind_eq_ok, Res.ok.injEq] at g1
  obtain ⟨x1, k1, x2, k2, x3, k3, rfl⟩ := g1
  simp only [List.length_append] at g2
  have k1' : tyTbsCert.make {} tbs = .ok (elem 0x30 c) := struct_raw_make hr hc
  rw [k1'] at k1
  rw [sigAlg_wire] at k2
  simp only [Res.ok.injEq] at k1 k2
  subst k1 k2
  rw [bits_wire k3 (by omega), hr]
  unfold signed
  rw [List.append_assoc]

theorem signed_csr_wire {tbs : TbsCSR} {c sig e : Bytes} (hr : tbs.raw = elem 0x30 c) (hc : c.length < 2 ^ 31)
    (h : marshal tyCSR { tbs := tbs, sigAlg := sigAlgSM3WithSM2, sigValue := ⟨sig, sig.length * 8⟩ } = .ok e) (hl : e.length < 2 ^ 31) :
    e = signed tbs.raw sig := by
  obtain ⟨c', g1, g2, rfl⟩ := struct_wire h hl
  unfold withRaw at g1
  rw [if_neg (by simp)] at g1
  simp only [Res.bind_eq_ok, Res.ok.injEq] at g1
  obtain ⟨x1, k1, x2, k2, x3, k3, rfl⟩ := g1
  simp only [List.length_append] at g2
  have k1' : tyTbsCSR.make {} tbs = .ok (elem 0x30 c) := struct_raw_make hr hc
  rw [k1'] at k1
  rw [sigAlg_wire] at k2
  simp only [Res.ok.injEq] at k1 k2
  subst k1 k2
  rw [bits_wire k3 (by omega), hr]
  unfold signed
  rw [List.append_assoc]

theorem publicKeyInfo_wire {pt e : Bytes} {pk : Bytes × AlgId}
    (hpk : pk = (pt, ⟨oidPublicKeyECDSA, { fullBytes := elem 0x06 [0x2a, 0x81, 0x1c, 0xcf, 0x55, 0x01, 0x82, 0x2d] }⟩))
    (h : tyPublicKeyInfo.make {} ⟨[], pk.2, ⟨pk.1, pk.1.length * 8⟩⟩ = .ok e) (hl : e.length < 2 ^ 31) : e = publicKeyInfo pt := by
  subst hpk
  obtain ⟨c, g1, g2, rfl⟩ := struct_wire h hl
  unfold withRaw at g1
  rw [if_neg (by simp)] at g1
  simp only [Res.bind_eq_ok, Res.ok.injEq] at g1
  obtain ⟨x1, k1, x2, k2, rfl⟩ := g1
  simp only [List.length_append] at g2
  have e1 : tyAlgId.make {} ⟨oidPublicKeyECDSA, { fullBytes := elem 0x06 [0x2a, 0x81, 0x1c, 0xcf, 0x55, 0x01, 0x82, 0x2d] }⟩ =
    .ok (elem 0x30 (elem 0x06 [0x2a, 0x86, 0x48, 0xce, 0x3d, 0x02, 0x01] ++ elem 0x06 [0x2a, 0x81, 0x1c, 0xcf, 0x55, 0x01, 0x82, 0x2d])) := by decide +kernel
  rw [e1] at k1
  simp only [Res.ok.injEq] at k1
  subst k1
  rw [bits_wire k2 (by omega)]
  rfl

theorem tbsCSR_wire {subj spki e : Bytes} {pk : PublicKeyInfo} {attrs : List RawValue} (hs : subj ≠ []) (hpk : ∀ e, tyPublicKeyInfo.make {} pk = .ok e →
      e.length < 2 ^ 31 → e = spki) (ha : ∀ v ∈ attrs, v.fullBytes ≠ [])
    (h : marshal tyTbsCSR { version := 0, subject := { fullBytes := subj }, publicKey := pk, rawAttributes := attrs } = .ok e) (hl : e.length < 2 ^ 31) :
    e = requestInfo subj spki (attrs.map RawValue.fullBytes) := by
  obtain ⟨c, g1, g2, rfl⟩ := struct_wire h hl
  unfold withRaw at g1
  rw [if_neg (by simp)] at g1
  simp only [Res.bind_eq_ok, Res.ok.injEq] at g1
  obtain ⟨x1, k1, x2, k2, x3, k3, x4, k4, rfl⟩ := g1
  simp only [List.length_append] at g2
  have e1 : tyInt.make {} 0 = .ok [0x02, 0x01, 0x00] := by decide +kernel
  rw [e1] at k1
  rw [raw_wire hs] at k2
  simp only [Res.ok.injEq] at k1 k2
  subst k1 k2
  rw [hpk x3 k3 (by omega)]
  obtain ⟨c', m1, m2, rfl⟩ := makeTagged_elem (p := { tag := some 0 }) (tag := 16) (cmp := true) (z := false) (d := fun _ => false) rfl (omitted_mandatory rfl _ _) k4 (by omega)
  have : makeElems tyRaw attrs = .ok (attrs.map RawValue.fullBytes).flatten := by
    clear m1 k4 h hl
    induction attrs with
    | nil => rfl
    | cons v l ih =>
      rw [makeElems, raw_make (ha v (by simp)), ih fun v hv => ha v (by simp [hv])]
      rfl
  rw [this] at m1
  simp only [Res.ok.injEq] at m1
  subst m1
  unfold requestInfo
  simp only [List.append_assoc]
  rfl

theorem extensionRequest_wire {exts : List Extension} {e : Bytes} (hf : ∀ x ∈ exts, ∀ n ∈ subids x.id, n < 2 ^ 63)
    (h : tyATVSET.make {} ⟨oidExtensionRequest, [exts.map fun x => ⟨x.id, .octets x.value⟩]⟩ = .ok e) (hl : e.length < 2 ^ 31) :
    ∃ es, List.Forall₂ (fun (x : Extension) w => ∃ o, IsOidElem x.id o ∧ w = extension o false x.value) exts es ∧ e = extensionRequest es := by
  obtain ⟨c, g1, g2, rfl⟩ := struct_wire h hl
  simp only [Res.bind_eq_ok, Res.ok.injEq] at g1
  obtain ⟨a, ha, b, hb, rfl⟩ := g1
  simp only [List.length_append] at g2
  have e1 : tyOID.make {} oidExtensionRequest = .ok (elem 0x06 [0x2a, 0x86, 0x48, 0x86, 0xf7, 0x0d, 0x01, 0x09, 0x0e]) := by decide +kernel
  rw [e1] at ha
  simp only [Res.ok.injEq] at ha
  subst ha
  obtain ⟨c, h1, h2, rfl⟩ := makeTagged_elem (p := { set := true }) (tag := 16) (cmp := true) (z := false) (d := fun _ => false) rfl (omitted_mandatory rfl _ _) hb (by omega)
  obtain ⟨es, rfl, h4⟩ := makeElems_ok h1
  cases h4 with
  | cons h5 h6 =>
    cases h6
    simp only [List.flatten_cons, List.flatten_nil, List.append_nil] at h2 ⊢
    obtain ⟨es, k1, k2, rfl⟩ := slice_wire h5 (by omega)
    refine ⟨es, ?_, rfl⟩
    rw [List.forall₂_map_left_iff] at k1
    clear h hl hb h1 h5 h2 g2
    induction k1 with
    | nil => exact .nil
    | @cons x w l l' h7 _ ih =>
      rw [List.flatten_cons, List.length_append] at k2
      refine .cons ?_ (ih (fun x hx => hf x (by simp [hx])) (by omega))
      obtain ⟨c, m1, m2, rfl⟩ := struct_wire h7 (by omega)
      simp only [Res.bind_eq_ok, Res.ok.injEq] at m1
      obtain ⟨a, ha, b, hb, rfl⟩ := m1
      simp only [List.length_append] at m2
      obtain ⟨_, rfl⟩ := bytes_make (show tyBytes.make {} x.value = .ok b from hb) (by omega)
      refine ⟨a, oid_wire (hf x (by simp)) ha (by omega), ?_⟩
      unfold extension
      simp
      rfl

end Verif.Cert
