import Verif.Der.Total
import Verif.Cert.Parse
/-!
# Certificate parsing always returns: helper lemmas
-/
namespace Verif.Cert
open Verif Verif.Der

variable {U : Type}

theorem total_struct {α : Type} {zero : α} {isZero : α → Bool} {body : Bytes → Bytes → Res α} {make : α → Res Bytes}
    (h : ∀ c full, (body c full).returned = true) : (tyStruct zero isZero body make).Total := fun _ _ c full => h c full

theorem total_algId : tyAlgId.Total := total_struct fun _ _ =>
  returned_bind (parseField_returned total_oid _ _) fun _ _ =>
  returned_bind (parseField_returned total_raw _ _) fun _ _ => rfl
theorem total_extension : tyExtension.Total := total_struct fun _ _ =>
  returned_bind (parseField_returned total_oid _ _) fun _ _ =>
  returned_bind (parseField_returned total_bool _ _) fun _ _ =>
  returned_bind (parseField_returned total_bytes _ _) fun _ _ => rfl
theorem total_atv : tyATV.Total := total_struct fun _ _ =>
  returned_bind (parseField_returned total_oid _ _) fun _ _ =>
  returned_bind (parseAny_returned _) fun _ _ => rfl
theorem total_rdn : tyRDNSequence.Total := total_slice (total_slice total_atv)
theorem total_atvset : tyATVSET.Total := total_struct fun _ _ =>
  returned_bind (parseField_returned total_oid _ _) fun _ _ =>
  returned_bind (parseField_returned (total_slice (total_slice total_atv)) _ _) fun _ _ => rfl
theorem total_pki : tyPublicKeyInfo.Total := total_struct fun _ _ =>
  returned_bind (parseField_returned total_algId _ _) fun _ _ =>
  returned_bind (parseField_returned total_bits _ _) fun _ _ => rfl
theorem total_tbsCsr : tyTbsCSR.Total := total_struct fun _ _ =>
  returned_bind (parseField_returned total_int _ _) fun _ _ =>
  returned_bind (parseField_returned total_raw _ _) fun _ _ =>
  returned_bind (parseField_returned total_pki _ _) fun _ _ =>
  returned_bind (parseField_returned (total_slice total_raw) _ _) fun _ _ => rfl
theorem total_csr : tyCSR.Total := total_struct fun _ _ =>
  returned_bind (parseField_returned total_tbsCsr _ _) fun _ _ =>
  returned_bind (parseField_returned total_algId _ _) fun _ _ =>
  returned_bind (parseField_returned total_bits _ _) fun _ _ => rfl
theorem total_pkcs10 : tyPkcs10Attribute.Total := total_struct fun _ _ =>
  returned_bind (parseField_returned total_oid _ _) fun _ _ =>
  returned_bind (parseField_returned (total_slice total_raw) _ _) fun _ _ => rfl
theorem total_bc : tyBasicConstraints.Total := total_struct fun _ _ =>
  returned_bind (parseField_returned total_bool _ _) fun _ _ =>
  returned_bind (parseField_returned total_int _ _) fun _ _ => rfl
theorem total_aki : tyAuthKeyId.Total := total_struct fun _ _ =>
  returned_bind (parseField_returned total_optBytes _ _) fun _ _ => rfl
theorem total_aia : tyAIA.Total := total_struct fun _ _ =>
  returned_bind (parseField_returned total_oid _ _) fun _ _ =>
  returned_bind (parseField_returned total_raw _ _) fun _ _ => rfl
theorem total_policy : tyPolicyInformation.Total := total_struct fun _ _ =>
  returned_bind (parseField_returned total_oid _ _) fun _ _ => rfl
theorem total_dpName : tyDPName.Total := total_struct fun _ _ =>
  returned_bind (parseField_returned (total_optSlice total_raw) _ _) fun _ _ =>
  returned_bind (parseField_returned (total_optSlice (total_slice total_atv)) _ _) fun _ _ => rfl
theorem total_dp : tyDP.Total := total_struct fun _ _ =>
  returned_bind (parseField_returned total_dpName _ _) fun _ _ =>
  returned_bind (parseField_returned total_optBits _ _) fun _ _ =>
  returned_bind (parseField_returned total_raw _ _) fun _ _ => rfl
theorem total_validity : tyValidity.Total := total_struct fun _ _ =>
  returned_bind (parseField_returned total_time _ _) fun _ _ =>
  returned_bind (parseField_returned total_time _ _) fun _ _ => rfl
theorem total_tbsCert : tyTbsCert.Total := total_struct fun _ _ =>
  returned_bind (parseField_returned total_int _ _) fun _ _ =>
  returned_bind (parseField_returned total_big _ _) fun _ _ =>
  returned_bind (parseField_returned total_algId _ _) fun _ _ =>
  returned_bind (parseField_returned total_raw _ _) fun _ _ =>
  returned_bind (parseField_returned total_validity _ _) fun _ _ =>
  returned_bind (parseField_returned total_raw _ _) fun _ _ =>
  returned_bind (parseField_returned total_pki _ _) fun _ _ =>
  returned_bind (parseField_returned total_optBits _ _) fun _ _ =>
  returned_bind (parseField_returned total_optBits _ _) fun _ _ =>
  returned_bind (parseField_returned (total_optSlice total_extension) _ _) fun _ _ => rfl
theorem total_certificate : tyCertificate.Total := total_struct fun _ _ =>
  returned_bind (parseField_returned total_tbsCert _ _) fun _ _ =>
  returned_bind (parseField_returned total_algId _ _) fun _ _ =>
  returned_bind (parseField_returned total_bits _ _) fun _ _ => rfl

theorem parsePublicKey_returned (k : PublicKeyInfo) : (parsePublicKey k).returned = true := by
  unfold parsePublicKey
  refine returned_bind (parseField_returned total_oid _ _) fun _ _ => ?_
  repeat' split
  all_goals rfl

theorem wholly_of {α : Type} {r : Res (α × Bytes)} (h : r.returned = true) : ∃ o, wholly r = .ok o := by
  cases r with
  | ok v => exact ⟨_, rfl⟩
  | err m => exact ⟨none, rfl⟩
  | panic => cases h
  | loop => cases h

theorem parseRawAttributes_ok : ∀ l : List RawValue, ∃ as, parseRawAttributes l = .ok as := by
  intro l
  induction l with
  | nil => exact ⟨[], rfl⟩
  | cons a l ih =>
    obtain ⟨o, ho⟩ := wholly_of (parseField_returned total_atvset {} a.fullBytes)
    obtain ⟨as, has⟩ := ih
    refine ⟨o.toList ++ as, ?_⟩
    rw [parseRawAttributes]
    unfold unmarshal
    rw [ho, Res.ok_bind, has]; rfl

theorem csrExtensionsOf_returned (a : RawValue) : (csrExtensionsOf a).returned = true := by
  unfold csrExtensionsOf unmarshal
  obtain ⟨o, ho⟩ := wholly_of (parseField_returned total_pkcs10 {} a.fullBytes)
  rw [ho, Res.ok_bind]
  cases o with
  | none => rfl
  | some attr =>
    dsimp only
    split
    · rfl
    · split
      · rfl
      · exact returned_bind (parseField_returned (total_slice total_extension) _ _) fun _ _ => rfl

theorem parseCSRExtensions_returned : ∀ l : List RawValue, (parseCSRExtensions l).returned = true := by
  intro l
  induction l with
  | nil => rfl
  | cons a l ih =>
    rw [parseCSRExtensions]
    exact returned_bind (csrExtensionsOf_returned a) fun _ _ => returned_bind ih fun _ _ => rfl

theorem parseField_raw_shorter {bs rest : Bytes} {v : RawValue} (h : parseField tyRaw {} bs = .ok (v, rest)) :
    rest.length < bs.length := by
  by_cases hne : bs = []
  · subst hne; simp [parseField] at h
  · obtain ⟨h1, h2⟩ := parseField_raw_split rfl rfl hne h
    rw [h1]; simp; omega

theorem sanLoop_cons {σ : Type} (callback : σ → Nat → Bytes → Res σ) (fuel : Nat) (b : Byte) (bs : Bytes) (s : σ) :
    sanLoop callback (fuel + 1) (b :: bs) s = (do
      let v ← unmarshal tyRaw (b :: bs)
      let s ← callback s v.1.tag v.1.bytes
      sanLoop callback fuel v.2 s) := rfl

theorem sanLoop_returned {σ : Type} {callback : σ → Nat → Bytes → Res σ} (hc : ∀ s t b, (callback s t b).returned = true) :
    ∀ (fuel : Nat) (bs : Bytes) (s : σ), bs.length ≤ fuel → (sanLoop callback fuel bs s).returned = true := by
  intro fuel
  induction fuel with
  | zero =>
    intro bs s h
    cases bs with
    | nil => rfl
    | cons b bs => simp at h
  | succ fuel ih =>
    intro bs s h
    cases bs with
    | nil => rfl
    | cons b bs =>
      rw [sanLoop_cons]
      refine returned_bind (parseField_returned total_raw _ _) fun v hv => ?_
      have := parseField_raw_shorter (v := v.1) (rest := v.2) hv
      exact returned_bind (hc _ _ _) fun _ _ => ih _ _ (by omega)

theorem sanCallback_returned (env : Env U) (s : Sans U) (tag : Nat) (data : Bytes) : (sanCallback env s tag data).returned = true := by
  unfold sanCallback
  repeat' split
  all_goals rfl

theorem parseSANExtension_returned (env : Env U) (value : Bytes) : (parseSANExtension env value).returned = true := by
  unfold parseSANExtension forEachSAN
  refine returned_bind (parseField_returned total_raw _ _) fun v _ => ?_
  split
  · rfl
  · split
    · rfl
    · exact sanLoop_returned (sanCallback_returned env) _ _ _ (Nat.le_refl _)

theorem csrSans_returned (env : Env U) : ∀ (es : List Extension) (s : Sans U), (csrSans env es s).returned = true := by
  intro es
  induction es with
  | nil => intro s; rfl
  | cons e es ih =>
    intro s
    rw [csrSans]
    dsimp only
    split
    · exact returned_bind (parseSANExtension_returned env _) fun _ _ => ih _
    · exact ih _

theorem parseName_returned (bs : Bytes) : (parseName bs).returned = true := by
  unfold parseName
  refine returned_bind (parseField_returned total_rdn _ _) fun _ _ => ?_
  split <;> rfl

theorem unmarshalAll_returned {α : Type} {ty : Ty α} (h : ty.Total) (bs : Bytes) : (unmarshalAll ty bs).returned = true := by
  unfold unmarshalAll
  refine returned_bind (parseField_returned h _ _) fun _ _ => ?_
  split <;> rfl

/-! ## Key usage -/

theorem at_ok {b : BitString} (h : b.bitLength ≤ 8 * b.bytes.length) (i : Nat) : ∃ x, b.at i = .ok x := by
  unfold BitString.at
  split
  · exact ⟨_, rfl⟩
  · rw [List.getElem?_eq_getElem (by omega)]; exact ⟨_, rfl⟩

theorem keyUsageLoop_ok {b : BitString} (h : b.bitLength ≤ 8 * b.bytes.length) : ∀ (k i : Nat) (u : Int),
    ∃ r, keyUsageLoop b k i u = .ok r := by
  intro k
  induction k with
  | zero => intro i u; exact ⟨u, rfl⟩
  | succ k ih =>
    intro i u
    obtain ⟨x, hx⟩ := at_ok h i
    rw [keyUsageLoop, hx, Res.ok_bind]
    exact ih _ _

theorem unmarshalAll_ok {α : Type} {ty : Ty α} {bs : Bytes} {v : α} (h : unmarshalAll ty bs = .ok v) :
    parseField ty {} bs = .ok (v, []) := by
  unfold unmarshalAll at h
  rw [Res.bind_eq_ok] at h
  obtain ⟨⟨w, r⟩, h1, h2⟩ := h
  split at h2
  · simp at h2
  · rename_i hr
    simp only [Res.ok.injEq] at h2
    subst h2
    have : r = [] := by cases r <;> simp_all
    subst this; exact h1

theorem bits_len {bs : Bytes} {b : BitString} (h : parseBitString bs = .ok b) : b.bitLength ≤ 8 * b.bytes.length := by
  unfold parseBitString at h
  split at h
  · simp at h
  · split at h
    · simp at h
    · simp only [Res.ok.injEq] at h; subst h; dsimp only; omega

theorem parseKeyUsage_returned (bs : Bytes) : (parseKeyUsage bs).returned = true := by
  unfold parseKeyUsage
  refine returned_bind (unmarshalAll_returned total_bits bs) fun b hb => ?_
  obtain ⟨c, _, _, h⟩ := (parseField_iff (ty := tyBits) (p := {}) rfl rfl rfl rfl (by decide)).1 (unmarshalAll_ok hb)
  obtain ⟨r, hr⟩ := keyUsageLoop_ok (bits_len h) 9 0 0
  rw [hr]; rfl

end Verif.Cert
