import Verif.Cert.CreateLemmas
import Verif.Cert.SectionLemmas
/-!
# Round trips of the types of certificates: helper lemmas
-/
namespace Verif.Cert
open Verif Verif.Der Verif.Spec.DER

variable {U : Type} {α : Type}

theorem make_omitted {ty : Ty α} {p : Params} {v : α} {tag : Nat} {cmp z : Bool} {d : Int → Bool} {body : Res Bytes}
    (hmk : ty.make p v = makeTagged p tag cmp z d body) (ho : omitted p z d = true) : ty.make p v = .ok [] := by
  rw [hmk]; unfold makeTagged; rw [ho]; rfl

/-! ## Basic constraints -/

theorem basicConstraints_rt {v : BasicConstraints} (h : Int64Range v.maxPathLen) : ElemRT tyBasicConstraints v v := by
  intro e he hl
  obtain ⟨c, h1, h2, h3, h4⟩ := struct_rt' he hl
  apply h4
  simp only [Res.bind_eq_ok, Res.ok.injEq] at h1
  obtain ⟨a, ha, b, hb, rfl⟩ := h1
  rw [List.length_append] at h2
  obtain ⟨ca, m⟩ := v
  have hint : parseField tyInt { optional := true, defaultValue := some (-1) } b = .ok (m, []) := by
    by_cases hm : m = -1
    · subst hm
      have : tyInt.make { optional := true, defaultValue := some (-1) } (-1) = .ok [] := rfl
      rw [this] at hb
      simp only [Res.ok.injEq] at hb
      subst hb
      rfl
    · have := fieldRT_int (p := { optional := true, defaultValue := some (-1) }) (z := m) rfl (by simp [omitted, hm]) (by decide) h b hb (by omega) []
      rwa [List.append_nil] at this
  cases ca with
  | true =>
    rw [(bool_true_make (p := { optional := true }) rfl rfl rfl rfl ha (by omega)).2, Res.ok_bind]
    dsimp only
    rw [hint]; rfl
  | false =>
    have : a = [] := by
      have : tyBool.make { optional := true } false = .ok [] := rfl
      rw [this] at ha; simp at ha; exact ha
    subst this
    rw [List.nil_append]
    have hskip : parseField tyBool { optional := true } b = .ok (false, b) := by
      by_cases hm : m = -1
      · subst hm
        have : tyInt.make { optional := true, defaultValue := some (-1) } (-1) = .ok [] := rfl
        rw [this] at hb
        simp only [Res.ok.injEq] at hb
        subst hb
        rfl
      · obtain ⟨c, _, h6, rfl⟩ := makeTagged_elem (p := { optional := true, defaultValue := some (-1) }) (tag := 2) (cmp := false) (z := decide (m = 0))
          (d := fun d => decide (m = d)) (body := .ok (makeInt64 m)) rfl (by simp [omitted, hm]) hb (by omega)
        have := parseField_skip (ty := tyBool) (p := { optional := true }) (cls := 0) (tag := 2) (cmp := false) (c := c) [] rfl rfl rfl rfl
          (by decide) (by decide) h6 (.inr (by decide))
        rw [List.append_nil] at this
        exact this
    rw [hskip, Res.ok_bind]
    dsimp only
    rw [hint]; rfl

/-! ## Authority key identifier -/

theorem authKeyId_rt (b : Bytes) : ElemRT tyAuthKeyId (some b) (some b) := by
  intro e he hl
  obtain ⟨c, h1, h2, h3, h4⟩ := struct_rt' he hl
  apply h4
  have := fieldRT_of (ty := tyOptBytes) (p := { optional := true, tag := some 0 }) (v := some b) (w := some b) (z := false) (d := fun _ => false)
    (body := .ok b) rfl rfl rfl rfl rfl (by decide) (fun c hc _ _ _ _ => by simp only [Res.ok.injEq] at hc; subst hc; rfl) c h1 h2 []
  rw [List.append_nil] at this
  rw [this]; rfl

/-! ## Authority information access -/

theorem aia_rt {v : AIA} (hf : OIDFits v.method) (hv : v.location.fullBytes = []) (hc : v.location.cls < 4) (ht : v.location.tag < 31) :
    ElemRT tyAIA v ⟨v.method, v.location.filled⟩ := by
  intro e he hl
  obtain ⟨c, h1, h2, h3, h4⟩ := struct_rt' he hl
  apply h4
  simp only [Res.bind_eq_ok, Res.ok.injEq] at h1
  obtain ⟨a, ha, b, hb, rfl⟩ := h1
  rw [List.length_append] at h2
  rw [fieldRT_oid (p := {}) rfl rfl (by decide) hf a ha (by omega), Res.ok_bind]
  dsimp only
  have := (elemRT_raw_parts hv hc ht b hb (by omega)).2 []
  rw [List.append_nil] at this
  rw [this]; rfl

/-! ## Policies -/

theorem policy_rt {v : OID} (hf : OIDFits v) : ElemRT tyPolicyInformation v v := by
  intro e he hl
  obtain ⟨c, h1, h2, h3, h4⟩ := struct_rt' he hl
  apply h4
  have := fieldRT_oid (p := {}) rfl rfl (by decide) hf c h1 h2 []
  rw [List.append_nil] at this
  rw [this]; rfl

/-! ## Distribution points -/

theorem fieldRT_optSlice {ty : Ty α} {p : Params} {vs ws : List α} (hx : p.explicit = false) (hd : p.defaultValue = none)
    (ht : wireTag (tyOptSlice ty) p < 31) (h : List.Forall₂ (ElemRT ty) vs ws) : FieldRT (tyOptSlice ty) p (some vs) (some ws) :=
  fieldRT_of (ty := tyOptSlice ty) (z := false) (d := fun _ => false) rfl rfl rfl hx (by simp [omitted, hd]) ht
    (fun c hc hl _ _ _ => by
      show (do let l ← parseSequenceOf ty c; Res.ok (some l)) = _
      rw [parseSequenceOf_make h hc hl]; rfl)

theorem dp_rt (b : Bytes) : ElemRT tyDP { name := { fullName := some [{ tag := 6, cls := 2, bytes := b }] } }
    { name := { fullName := some [RawValue.filled { tag := 6, cls := 2, bytes := b }] } } := by
  intro e he hl
  obtain ⟨c, h1, h2, h3, h4⟩ := struct_rt' he hl
  apply h4
  simp only [Res.bind_eq_ok, Res.ok.injEq] at h1
  obtain ⟨x1, g1, x2, g2, x3, g3, rfl⟩ := h1
  have e2 : x2 = [] := by
    have : tyOptBits.make { optional := true, tag := some 1 } none = .ok [] := rfl
    rw [this] at g2; simp at g2; exact g2
  have e3 : x3 = [] := by
    have : tyRaw.make { optional := true, tag := some 2 } {} = .ok [] := rfl
    rw [this] at g3; simp at g3; exact g3
  subst e2 e3
  rw [List.append_nil, List.append_nil] at *
  obtain ⟨c, k1, k2, k3, k4⟩ := struct_rt (p := { optional := true, tag := some 0 }) rfl (by simp [omitted]) (by decide) g1 h2
  simp only [Res.bind_eq_ok, Res.ok.injEq] at k1
  obtain ⟨y1, m1, y2, m2, rfl⟩ := k1
  have e2 : y2 = [] := by
    have : (tyOptSlice (tySlice true tyATV)).make { optional := true, tag := some 1 } none = .ok [] := rfl
    rw [this] at m2; simp at m2; exact m2
  subst e2
  rw [List.append_nil] at *
  have := k4 { fullName := some [RawValue.filled { tag := 6, cls := 2, bytes := b }] } [] (by
    have := fieldRT_optSlice (ty := tyRaw) (p := { optional := true, tag := some 0 }) rfl rfl (by decide)
      (List.Forall₂.cons (elemRT_raw_parts (v := { tag := 6, cls := 2, bytes := b }) rfl (show 2 < 4 by decide) (show 6 < 31 by decide)) .nil) y1 m1 k2 []
    rw [List.append_nil] at this
    rw [this, Res.ok_bind]
    rfl)
  rw [List.append_nil] at this
  have hty : parseField tyDPName { optional := true, tag := some 0 } x1 = .ok ({ fullName := some [RawValue.filled { tag := 6, cls := 2, bytes := b }] }, []) := this
  rw [hty, Res.ok_bind]
  rfl

/-! ## Certificates -/

theorem validity_rt {v : Validity} {u1 u2 : Time} (h1 : FieldRT tyTime {} v.notBefore u1) (h2 : FieldRT tyTime {} v.notAfter u2) :
    ElemRT tyValidity v ⟨u1, u2⟩ := by
  intro e he hl
  obtain ⟨c, k1, k2, k3, k4⟩ := struct_rt' he hl
  apply k4
  simp only [Res.bind_eq_ok, Res.ok.injEq] at k1
  obtain ⟨a, ha, b, hb, rfl⟩ := k1
  rw [List.length_append] at k2
  rw [h1 a ha (by omega), Res.ok_bind]
  dsimp only
  have := h2 b hb (by omega) []
  rw [List.append_nil] at this
  rw [this]; rfl

/-- The signed part of a certificate as `CreateCertificateInfo` makes it. -/
theorem tbsCert_rt {serial : Int} {issuer subj e : Bytes} {val : Validity} {u1 u2 : Time} {pk w : PublicKeyInfo} {spki : Bytes} {exts : List Extension}
    (hi : RawOk issuer) (hs : RawOk subj) (h1 : FieldRT tyTime {} val.notBefore u1) (h2 : FieldRT tyTime {} val.notAfter u2)
    (hpk : tyPublicKeyInfo.make {} pk = .ok spki) (hw : ElemOk tyPublicKeyInfo spki w) (hx : ∀ e ∈ exts, OIDFits e.id)
    (h : tyTbsCert.make {} { version := 2, serial := serial, sigAlg := sigAlgSM3WithSM2, issuer := { fullBytes := issuer }, validity := val, subject := { fullBytes := subj }, publicKey := pk, extensions := some exts } = .ok e) (hl : e.length < 2 ^ 31) :
    ∃ c i s, c.length < 2 ^ 31 ∧ e = elem 0x30 c ∧ i.fullBytes = issuer ∧ s.fullBytes = subj ∧
      (∃ x, makeElems tyExtension exts = .ok x ∧ x.length < 2 ^ 31) ∧
      ElemOk tyTbsCert e ⟨e, 2, serial, sigAlgSM3WithSM2, i, ⟨u1, u2⟩, s, w, none, none, some exts⟩ := by
  obtain ⟨c, k1, k2, k3, k4⟩ := struct_rt' h hl
  unfold withRaw at k1
  rw [if_neg (by simp)] at k1
  simp only [Res.bind_eq_ok, Res.ok.injEq] at k1
  obtain ⟨x1, g1, x2, g2, x3, g3, x4, g4, x5, g5, x6, g6, x7, g7, x8, g8, x9, g9, x10, g10, rfl⟩ := k1
  simp only [List.length_append] at k2
  rw [raw_make hi.ne_nil] at g4
  rw [raw_make hs.ne_nil] at g6
  rw [hpk] at g7
  simp only [Res.ok.injEq] at g4 g6 g7
  subst g4 g6 g7
  obtain ⟨i, hi1, hi2⟩ := raw_rt hi
  obtain ⟨s, hs1, hs2⟩ := raw_rt hs
  have e8 : x8 = [] := by
    have : tyOptBits.make { optional := true, tag := some 1 } none = .ok [] := rfl
    rw [this] at g8; simp at g8; exact g8
  have e9 : x9 = [] := by
    have : tyOptBits.make { optional := true, tag := some 2 } none = .ok [] := rfl
    rw [this] at g9; simp at g9; exact g9
  subst e8 e9
  obtain ⟨x, m1, m2, m3⟩ := makeTagged_explicit (p := { optional := true, explicit := true, tag := some 3 }) (tag := 16) (cmp := true) (z := false) (d := fun _ => false)
    (body := makeElems tyExtension exts) rfl rfl rfl (by simp [omitted]) g10 (by omega)
  have m4 := length_le_elem (idOctet 0 16 true) x
  refine ⟨_, i, s, by simp only [List.length_append]; omega, k3, hi1, hs1, ⟨x, m1, by omega⟩, k4 _ ?_⟩
  rw [fieldRT_explicit (ty := tyInt) (p := { optional := true, explicit := true, defaultValue := some 0, tag := some 0 }) (v := 2) (w := 2)
    (z := false) (d := fun d => 2 = d) (body := .ok (makeInt64 2)) rfl rfl rfl rfl rfl (by decide) rfl (by decide) (by decide)
    (fun c hc _ _ _ _ => by simp only [Res.ok.injEq] at hc; subst hc; exact int_body (by unfold Int64Range; omega)) x1 g1 (by omega), Res.ok_bind]
  dsimp only
  rw [fieldRT_big (p := {}) rfl rfl (by decide) x2 g2 (by omega), Res.ok_bind]
  dsimp only
  rw [(algId_rt_none sigAlg_fits g3 (by omega)).2, Res.ok_bind]
  dsimp only
  rw [hi2 {} rfl rfl, Res.ok_bind]
  dsimp only
  rw [(validity_rt h1 h2 x5 g5 (by omega)).2, Res.ok_bind]
  dsimp only
  rw [hs2 {} rfl rfl, Res.ok_bind]
  dsimp only
  rw [hw.2, Res.ok_bind]
  dsimp only
  rw [List.nil_append, List.nil_append]
  have hskip : ∀ k, k ≠ 3 → parseField tyOptBits { optional := true, tag := some k } x10 = .ok (none, x10) := by
    intro k hk
    rw [m3]
    have := parseField_skip (ty := tyOptBits) (p := { optional := true, tag := some k }) (cls := 2) (tag := 3) (cmp := true) (c := elem (idOctet 0 16 true) x) [] rfl rfl rfl rfl
          (by decide) (by decide) m2 (.inr (by simpa [wireTag] using hk.symm))
    rw [List.append_nil] at this
    exact this
  rw [hskip 1 (by decide), Res.ok_bind]
  dsimp only
  rw [hskip 2 (by decide), Res.ok_bind]
  dsimp only
  have := fieldRT_explicit (ty := tyOptSlice tyExtension) (p := { optional := true, explicit := true, tag := some 3 }) (v := some exts) (w := some exts)
    (z := false) (d := fun _ => false) (body := makeElems tyExtension exts) rfl rfl rfl rfl rfl (by decide) rfl (by simp [omitted]) (by show (16 : Nat) < 31; decide)
    (fun c hc hl _ _ _ => by
      show (do let l ← parseSequenceOf tyExtension c; Res.ok (some l)) = _
      rw [parseSequenceOf_make (forall₂_self fun a ha _ he hl => extension_rt (hx a ha) he hl) hc hl]; rfl) x10 g10 (by omega) []
  rw [List.append_nil] at this
  rw [this]; rfl

/-- A signed certificate. -/
theorem cert_rt {tbs w : TbsCert} {c sig e : Bytes} (hr : tbs.raw = elem 0x30 c) (hc : c.length < 2 ^ 31)
    (hw : ElemOk tyTbsCert (elem 0x30 c) w) (h : createCertificate tbs sig = .ok e) (hl : e.length < 2 ^ 31) :
    unmarshal tyCertificate e = .ok (⟨e, w, ⟨oidSignatureSM3WithSM2, {}⟩, ⟨sig, sig.length * 8⟩⟩, []) := by
  obtain ⟨c', h1, h2, h3, h4⟩ := struct_rt' (show tyCertificate.make {} { tbs := tbs, sigAlg := sigAlgSM3WithSM2, sigValue := ⟨sig, sig.length * 8⟩ } = .ok e from h) hl
  unfold withRaw at h1
  rw [if_neg (by simp)] at h1
  simp only [Res.bind_eq_ok, Res.ok.injEq] at h1
  obtain ⟨x1, g1, x2, g2, x3, g3, rfl⟩ := h1
  simp only [List.length_append] at h2
  have g1' : tyTbsCert.make {} tbs = .ok (elem 0x30 c) := struct_raw_make hr hc
  rw [g1'] at g1
  simp only [Res.ok.injEq] at g1
  subst g1
  have := (h4 _ (by
    rw [hw.2, Res.ok_bind]
    dsimp only
    rw [(algId_rt_none sigAlg_fits g2 (by omega)).2, Res.ok_bind]
    dsimp only
    have := fieldRT_bits (p := {}) rfl rfl (by decide) (bitsOk_bytes sig) x3 g3 (by omega) []
    rw [List.append_nil] at this
    rw [this, Res.ok_bind])).2 []
  rw [List.append_nil] at this
  exact this

/-- The signed part is not longer than the certificate. -/
theorem cert_tbs_small {tbs tbs' : TbsCert} {sig e : Bytes} (ht : marshal tyTbsCert tbs' = .ok tbs.raw)
    (h : createCertificate tbs sig = .ok e) (hl : e.length < 2 ^ 31) : tbs.raw.length < 2 ^ 31 := by
  obtain ⟨c', h1, h2, h3, h4⟩ := struct_rt' (show tyCertificate.make {} { tbs := tbs, sigAlg := sigAlgSM3WithSM2, sigValue := ⟨sig, sig.length * 8⟩ } = .ok e from h) hl
  unfold withRaw at h1
  rw [if_neg (by simp)] at h1
  simp only [Res.bind_eq_ok, Res.ok.injEq] at h1
  obtain ⟨x1, g1, x2, g2, x3, g3, rfl⟩ := h1
  simp only [List.length_append] at h2
  exact struct_raw_small (raw := TbsCert.raw) ht rfl g1 (by omega)

end Verif.Cert
