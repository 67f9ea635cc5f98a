import Verif.Cert.Total
import Verif.CB.SafeLemmas
import Verif.Props.CertNames
import Verif.Props.Sm2Sign
/-!
# Property C68: parsing certificates and requests never panics

For every byte string and whatever the net and net/url functions do.
-/
namespace Verif.Props
open Verif Verif.Der Verif.Cert

variable {U : Type}

theorem subtreeValue_returned (env : Env U) (st : Subtrees) (tag : CB.Tag) (value : Bytes) :
    (subtreeValue env st tag value).returned = true := by
  unfold subtreeValue
  refine returned_ite (fun _ => ?_) fun _ => returned_ite (fun _ => ?_) fun _ => returned_ite (fun _ => ?_) fun _ =>
    returned_ite (fun _ => ?_) fun _ => rfl
  · repeat' split
    all_goals rfl
  · repeat' split
    all_goals rfl
  · refine returned_ite (fun _ => rfl) fun _ => returned_ite (fun _ => ?_) fun _ => returned_ite (fun _ => rfl) fun _ => rfl
    obtain ⟨r, hr⟩ := C57_returns value
    rw [hr, Res.ok_bind]
    split <;> rfl
  · repeat' split
    all_goals rfl

theorem readAnyASN1_returned (s : CB.Str) : (CB.readAnyASN1 s).returned = true := by
  obtain ⟨r, s', _, h, _, _⟩ := CB.safe_readASN1 true s
  unfold CB.readAnyASN1
  rw [h]; rfl

theorem getValues_step (env : Env U) (fuel : Nat) (s : CB.Str) (st : Subtrees) (h : s.empty = false) :
    getValues env (fuel + 1) s st = (do
        let (seq, subtrees) ← CB.readASN1Tag CB.tagSEQUENCE s
        match seq with
        | none => .err "x509: invalid NameConstraints extension"
        | some seq => do
          let (tv, _) ← CB.readAnyASN1 seq
          match tv with
          | none => .err "x509: invalid NameConstraints extension"
          | some (tag, value) => do
            let st ← subtreeValue env st tag value.bytes
            getValues env fuel subtrees st) := by
  rw [getValues, h]; rfl

theorem getValues_returned (env : Env U) : ∀ (fuel : Nat) (s : CB.Str) (st : Subtrees), s.len ≤ fuel →
    (getValues env fuel s st).returned = true := by
  intro fuel
  induction fuel with
  | zero =>
    intro s st h
    rw [getValues, if_pos (by simp [CB.Str.empty]; omega)]
    rfl
  | succ fuel ih =>
    intro s st h
    cases he : s.empty with
    | true => rw [getValues, if_pos he]; rfl
    | false =>
      rw [getValues_step env fuel s st he]
      rcases CB.readASN1Tag_cases CB.tagSEQUENCE s with h1 | ⟨t, c, rest, _, _, _, _, h1⟩ | ⟨c, rest, _, _, hs, h1⟩
      · rw [h1]; rfl
      · rw [h1]; rfl
      · rw [h1, Res.ok_bind]
        dsimp only
        refine returned_bind (readAnyASN1_returned _) fun r _ => ?_
        obtain ⟨tv, s2⟩ := r
        dsimp only
        cases tv with
        | none => rfl
        | some tv =>
          refine returned_bind (subtreeValue_returned env st _ _) fun st' _ => ih _ _ ?_
          subst hs
          have := length_le_elem CB.tagSEQUENCE c
          simp only [CB.Str.len, CB.Str.bytes, Option.getD_some, List.length_append] at h ⊢
          omega

theorem readNameConstraints_returned (value : Bytes) : (readNameConstraints value).returned = true := by
  unfold readNameConstraints
  obtain ⟨r, s', _, h, _, _⟩ := CB.safe_readASN1Tag CB.tagSEQUENCE (some value)
  rw [h, Res.ok_bind]
  dsimp only
  cases r with
  | none => rfl
  | some top =>
    dsimp only
    refine returned_ite (fun _ => rfl) fun _ => ?_
    obtain ⟨r, s', _, h, _, _⟩ := CB.safe_readOptionalASN1 ((0 : CB.Tag).contextSpecific).constructed top
    rw [h, Res.ok_bind]
    dsimp only
    cases r with
    | none => rfl
    | some p =>
      dsimp only
      obtain ⟨r, s'', _, h, _, _⟩ := CB.safe_readOptionalASN1 ((1 : CB.Tag).contextSpecific).constructed s'
      rw [h, Res.ok_bind]
      dsimp only
      cases r with
      | none => rfl
      | some x => dsimp only; exact returned_ite (fun _ => rfl) fun _ => rfl

theorem parseNameConstraints_returned (env : Env U) (value : Bytes) : (parseNameConstraints env value).returned = true := by
  unfold parseNameConstraints
  refine returned_bind (readNameConstraints_returned value) fun r _ => ?_
  cases r with
  | none => rfl
  | some r =>
    obtain ⟨p, x⟩ := r
    dsimp only
    refine returned_ite (fun _ => rfl) fun _ => ?_
    exact returned_bind (getValues_returned env _ _ _ (Nat.le_refl _)) fun _ _ =>
      returned_bind (getValues_returned env _ _ _ (Nat.le_refl _)) fun _ _ => rfl

theorem parseExtension_returned (env : Env U) (out : X509Cert U) (e : Extension) : (parseExtension env out e).returned = true := by
  unfold parseExtension
  refine returned_ite (fun _ => ?_) fun _ => returned_ite (fun _ => ?_) fun _ => returned_ite (fun _ => ?_) fun _ =>
    returned_ite (fun _ => ?_) fun _ => returned_ite (fun _ => ?_) fun _ => returned_ite (fun _ => ?_) fun _ =>
    returned_ite (fun _ => ?_) fun _ => returned_ite (fun _ => ?_) fun _ => returned_ite (fun _ => ?_) fun _ =>
    returned_ite (fun _ => ?_) fun _ => rfl
  · exact returned_bind (parseKeyUsage_returned _) fun _ _ => rfl
  · exact returned_bind (unmarshalAll_returned total_bc _) fun _ _ => rfl
  · exact returned_bind (parseSANExtension_returned env _) fun _ _ => rfl
  · exact returned_bind (parseNameConstraints_returned env _) fun _ _ => rfl
  · exact returned_bind (unmarshalAll_returned (total_slice total_dp) _) fun _ _ => rfl
  · exact returned_bind (unmarshalAll_returned total_aki _) fun _ _ => rfl
  · exact returned_bind (unmarshalAll_returned (total_slice total_oid) _) fun _ _ => rfl
  · exact returned_bind (unmarshalAll_returned total_bytes _) fun _ _ => rfl
  · exact returned_bind (unmarshalAll_returned (total_slice total_policy) _) fun _ _ => rfl
  · exact returned_bind (unmarshalAll_returned (total_slice total_aia) _) fun _ _ => rfl

theorem parseExtensions_returned (env : Env U) : ∀ (es : List Extension) (out : X509Cert U),
    (parseExtensions env es out).returned = true := by
  intro es
  induction es with
  | nil => intro out; rfl
  | cons e es ih =>
    intro out
    rw [parseExtensions]
    exact returned_bind (parseExtension_returned env _ e) fun _ _ => ih _

/-- C68: `ParseCertificate` returns a certificate or an error, for every byte string. -/
theorem C68_certificate (env : Env U) (data : Bytes) : (parseCertificate env data).returned = true := by
  unfold parseCertificate
  refine returned_bind (parseField_returned total_certificate _ _) fun r _ => returned_ite (fun _ => rfl) fun _ => ?_
  unfold parseCert
  refine returned_ite (fun _ => rfl) fun _ => returned_ite (fun _ => rfl) fun _ => ?_
  exact returned_bind (parsePublicKey_returned _) fun _ _ => returned_bind (parseName_returned _) fun _ _ =>
    returned_bind (parseName_returned _) fun _ _ => parseExtensions_returned env _ _

/-- C68: `ParseCertificateRequest` returns a request or an error, for every byte string. -/
theorem C68_request (env : Env U) (data : Bytes) : (parseCertificateRequest env data).returned = true := by
  unfold parseCertificateRequest
  refine returned_bind (parseField_returned total_csr _ _) fun r _ => returned_ite (fun _ => rfl) fun _ => ?_
  unfold parseCSR
  obtain ⟨as, has⟩ := parseRawAttributes_ok r.1.tbs.rawAttributes
  rw [has, Res.ok_bind]
  refine returned_ite (fun _ => rfl) fun _ => returned_ite (fun _ => rfl) fun _ => ?_
  exact returned_bind (parsePublicKey_returned _) fun _ _ => returned_bind (parseName_returned _) fun _ _ =>
    returned_bind (parseCSRExtensions_returned _) fun _ _ => returned_bind (csrSans_returned env _ _) fun _ _ => rfl

end Verif.Props
