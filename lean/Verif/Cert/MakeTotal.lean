import Verif.Cert.SectionLemmas
/-!
# Marshalling never panics: helper lemmas
-/
namespace Verif.Cert
open Verif Verif.Der

variable {U α : Type}

/-- Marshalling returns, whatever the value. -/
def MakeTotal (ty : Ty α) : Prop := ∀ p v, (ty.make p v).returned = true

theorem makeTagged_returned {p : Params} {tag : Nat} {c z : Bool} {d : Int → Bool} {b : Res Bytes} (h : b.returned = true) :
    (makeTagged p tag c z d b).returned = true := by
  unfold makeTagged
  split
  · rfl
  · split
    · rfl
    · exact returned_bind h fun _ _ => rfl

theorem makeObjectIdentifier_returned (o : OID) : (makeObjectIdentifier o).returned = true := by
  unfold makeObjectIdentifier
  repeat' split
  all_goals rfl

theorem makeTimeBody_returned (t : Time) : (makeTimeBody t).returned = true := by
  unfold makeTimeBody
  repeat' split
  all_goals rfl

theorem makeString_returned (s : Bytes) : (makeString s).returned = true := by
  unfold makeString
  repeat' split
  all_goals rfl

theorem mt_oid : MakeTotal tyOID := fun _ _ => makeTagged_returned (makeObjectIdentifier_returned _)
theorem mt_bits : MakeTotal tyBits := fun _ _ => makeTagged_returned rfl
theorem mt_optBits : MakeTotal tyOptBits := fun _ _ => makeTagged_returned rfl
theorem mt_bool : MakeTotal tyBool := fun _ _ => makeTagged_returned rfl
theorem mt_int : MakeTotal tyInt := fun _ _ => makeTagged_returned rfl
theorem mt_big : MakeTotal tyBig := fun _ _ => makeTagged_returned rfl
theorem mt_optBytes : MakeTotal tyOptBytes := fun _ _ => makeTagged_returned rfl
theorem mt_bytes : MakeTotal tyBytes := fun _ _ => makeTagged_returned rfl
theorem mt_time : MakeTotal tyTime := fun _ _ => makeTagged_returned (makeTimeBody_returned _)
theorem mt_raw : MakeTotal tyRaw := fun p v => by
  show (if _ then _ else if _ then _ else _ : Res Bytes).returned = true
  repeat' split
  all_goals rfl

theorem makeElems_returned {ty : Ty α} (h : MakeTotal ty) : ∀ l : List α, (makeElems ty l).returned = true := by
  intro l
  induction l with
  | nil => rfl
  | cons o l ih => rw [makeElems]; exact returned_bind (h _ _) fun _ _ => returned_bind ih fun _ _ => rfl

theorem mt_slice {s : Bool} {ty : Ty α} (h : MakeTotal ty) : MakeTotal (tySlice s ty) := fun _ _ => makeTagged_returned (makeElems_returned h _)
theorem mt_optSlice {ty : Ty α} (h : MakeTotal ty) : MakeTotal (tyOptSlice ty) := fun _ _ => makeTagged_returned (makeElems_returned h _)

theorem makeAny_returned (v : AnyVal) : (makeAny v).returned = true := by
  cases v with
  | nil => rfl
  | str s => exact makeString_returned s
  | int i => exact mt_int _ _
  | bits b => exact mt_bits _ _
  | oid o => exact mt_oid _ _
  | time t => exact mt_time _ _
  | octets b => exact mt_bytes _ _

theorem mt_struct {zero : α} {isZero : α → Bool} {body : Bytes → Bytes → Res α} {make : α → Res Bytes}
    (h : ∀ v, (make v).returned = true) : MakeTotal (tyStruct zero isZero body make) := fun _ v => makeTagged_returned (h v)

theorem withRaw_returned {raw : Bytes} {f : Res Bytes} (h : f.returned = true) : (withRaw raw f).returned = true := by
  unfold withRaw
  split
  · rfl
  · exact h

theorem mt_algId : MakeTotal tyAlgId := mt_struct fun _ => returned_bind (mt_oid _ _) fun _ _ => returned_bind (mt_raw _ _) fun _ _ => rfl
theorem mt_extension : MakeTotal tyExtension := mt_struct fun _ => returned_bind (mt_oid _ _) fun _ _ =>
  returned_bind (mt_bool _ _) fun _ _ => returned_bind (mt_bytes _ _) fun _ _ => rfl
theorem mt_atv : MakeTotal tyATV := mt_struct fun _ => returned_bind (mt_oid _ _) fun _ _ => returned_bind (makeAny_returned _) fun _ _ => rfl
theorem mt_rdnSequence : MakeTotal tyRDNSequence := mt_slice (mt_slice mt_atv)
theorem mt_atvset : MakeTotal tyATVSET := mt_struct fun _ => returned_bind (mt_oid _ _) fun _ _ =>
  returned_bind (mt_slice (mt_slice mt_atv) _ _) fun _ _ => rfl
theorem mt_pki : MakeTotal tyPublicKeyInfo := mt_struct fun _ => withRaw_returned (returned_bind (mt_algId _ _) fun _ _ =>
  returned_bind (mt_bits _ _) fun _ _ => rfl)
theorem mt_tbsCSR : MakeTotal tyTbsCSR := mt_struct fun _ => withRaw_returned (returned_bind (mt_int _ _) fun _ _ =>
  returned_bind (mt_raw _ _) fun _ _ => returned_bind (mt_pki _ _) fun _ _ => returned_bind (mt_slice mt_raw _ _) fun _ _ => rfl)
theorem mt_csr : MakeTotal tyCSR := mt_struct fun _ => withRaw_returned (returned_bind (mt_tbsCSR _ _) fun _ _ =>
  returned_bind (mt_algId _ _) fun _ _ => returned_bind (mt_bits _ _) fun _ _ => rfl)
theorem mt_basicConstraints : MakeTotal tyBasicConstraints := mt_struct fun _ => returned_bind (mt_bool _ _) fun _ _ =>
  returned_bind (mt_int _ _) fun _ _ => rfl
theorem mt_authKeyId : MakeTotal tyAuthKeyId := mt_struct fun _ => mt_optBytes _ _
theorem mt_aia : MakeTotal tyAIA := mt_struct fun _ => returned_bind (mt_oid _ _) fun _ _ => returned_bind (mt_raw _ _) fun _ _ => rfl
theorem mt_policy : MakeTotal tyPolicyInformation := mt_struct fun _ => mt_oid _ _
theorem mt_dpName : MakeTotal tyDPName := mt_struct fun _ => returned_bind (mt_optSlice mt_raw _ _) fun _ _ =>
  returned_bind (mt_optSlice (mt_slice mt_atv) _ _) fun _ _ => rfl
theorem mt_dp : MakeTotal tyDP := mt_struct fun _ => returned_bind (mt_dpName _ _) fun _ _ =>
  returned_bind (mt_optBits _ _) fun _ _ => returned_bind (mt_raw _ _) fun _ _ => rfl
theorem mt_validity : MakeTotal tyValidity := mt_struct fun _ => returned_bind (mt_time _ _) fun _ _ => returned_bind (mt_time _ _) fun _ _ => rfl
theorem mt_tbsCert : MakeTotal tyTbsCert := mt_struct fun _ => withRaw_returned (
  returned_bind (mt_int _ _) fun _ _ => returned_bind (mt_big _ _) fun _ _ => returned_bind (mt_algId _ _) fun _ _ =>
  returned_bind (mt_raw _ _) fun _ _ => returned_bind (mt_validity _ _) fun _ _ => returned_bind (mt_raw _ _) fun _ _ =>
  returned_bind (mt_pki _ _) fun _ _ => returned_bind (mt_optBits _ _) fun _ _ => returned_bind (mt_optBits _ _) fun _ _ =>
  returned_bind (mt_optSlice mt_extension _ _) fun _ _ => rfl)
theorem mt_certificate : MakeTotal tyCertificate := mt_struct fun _ => withRaw_returned (returned_bind (mt_tbsCert _ _) fun _ _ =>
  returned_bind (mt_algId _ _) fun _ _ => returned_bind (mt_bits _ _) fun _ _ => rfl)

theorem subjectBytes_returned (raw : Bytes) (n : Name) : (subjectBytes raw n).returned = true := by
  unfold subjectBytes
  split
  · rfl
  · exact mt_rdnSequence _ _

end Verif.Cert
