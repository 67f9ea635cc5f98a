import Verif.Cert.Total
import Verif.Cert.FieldLemmas
import Verif.Cert.ExtLemmas
import Verif.Der.RoundTrip
/-!
# What the values inside parsed extensions look like
-/
namespace Verif.Cert
open Verif Verif.Der Verif.Spec.DER

variable {α U : Type}

/-- Every element of a parsed slice has what every parsed element has. -/
theorem parseElems_forall {ty : Ty α} {P : α → Prop} (hP : ∀ bs v rest, parseField ty {} bs = .ok (v, rest) → P v) :
    ∀ (n : Nat) (bs : Bytes) (l : List α), parseElems ty n bs = .ok l → ∀ v ∈ l, P v := by
  intro n
  induction n with
  | zero => intro bs l h; simp only [parseElems, Res.ok.injEq] at h; subst h; simp
  | succ n ih =>
    intro bs l h
    rw [parseElems, Res.bind_eq_ok] at h
    obtain ⟨⟨v, r⟩, h1, h2⟩ := h
    rw [Res.bind_eq_ok] at h2
    obtain ⟨l', h3, h4⟩ := h2
    simp only [Res.ok.injEq] at h4
    subst h4
    intro w hw
    rcases List.mem_cons.1 hw with rfl | hw
    · exact hP _ _ _ h1
    · exact ih _ _ h3 w hw

theorem unmarshalAll_slice {ty : Ty α} {P : α → Prop} (hP : ∀ bs v rest, parseField ty {} bs = .ok (v, rest) → P v) {bs : Bytes}
    {l : List α} (h : unmarshalAll (tySlice false ty) bs = .ok l) : ∀ v ∈ l, P v := by
  obtain ⟨c, _, _, h⟩ := (parseField_iff (ty := tySlice false ty) (p := {}) rfl rfl rfl rfl (show 16 < 31 by decide)).1 (unmarshalAll_ok h)
  change parseSequenceOf ty c = .ok l at h
  unfold parseSequenceOf at h
  rw [Res.bind_eq_ok] at h
  obtain ⟨n, _, h⟩ := h
  exact parseElems_forall hP n c l h

/-- The components of a parsed object identifier are below 2^31. -/
theorem parsed_oid_fits {bs rest : Bytes} {o : List Nat} (h : parseField tyOID {} bs = .ok (o, rest)) : OIDFits o := by
  obtain ⟨c, _, _, h⟩ := (parseField_iff (ty := tyOID) (p := {}) rfl rfl rfl rfl (by decide)).1 h
  obtain ⟨_, gs, _, hg⟩ := (parseObjectIdentifier_iff c o).1 h
  intro n hn
  obtain ⟨i, hi, rfl⟩ := List.getElem_of_mem hn
  have := (List.forall₂_iff_get.1 hg).2 i hi (by rw [← hg.length_eq]; exact hi)
  exact this.2.2.2

theorem parsed_policy_fits {bs rest : Bytes} {o : List Nat} (h : parseField tyPolicyInformation {} bs = .ok (o, rest)) : OIDFits o := by
  obtain ⟨c, _, _, h⟩ := (parseField_iff (ty := tyPolicyInformation) (p := {}) rfl rfl rfl rfl (by decide)).1 h
  change (do let a ← parseField tyOID {} c; Res.ok a.1) = .ok o at h
  rw [Res.bind_eq_ok] at h
  obtain ⟨⟨o', r⟩, h1, h2⟩ := h
  simp only [Res.ok.injEq] at h2
  subst h2
  exact parsed_oid_fits h1

/-- A parsed `int` fits into 64 bits. -/
theorem parseInt64_range {c : Bytes} {z : Int} (h : parseInt64 c = .ok z) : Int64Range z := by
  obtain ⟨hi, hl⟩ := (parseInt64_iff c z).1 h
  obtain ⟨h1, h2, _⟩ := CB.isInt_inRange hi
  unfold InRange at h2
  have h3 : (256 : Int) ^ (c.length - 1) ≤ 256 ^ 7 := pow_le_pow_right₀ (by decide) (by omega)
  unfold Int64Range
  norm_num at *
  omega

theorem parsed_bc_range {bs : Bytes} {c : BasicConstraints} (h : unmarshalAll tyBasicConstraints bs = .ok c) : Int64Range c.maxPathLen := by
  obtain ⟨b, _, _, h⟩ := (parseField_iff (ty := tyBasicConstraints) (p := {}) rfl rfl rfl rfl (by decide)).1 (unmarshalAll_ok h)
  change (do
    let a ← parseField tyBool { optional := true } b
    let d ← parseField tyInt { optional := true, defaultValue := some (-1) } a.2
    Res.ok (⟨a.1, d.1⟩ : BasicConstraints)) = .ok c at h
  simp only [Res.bind_eq_ok, Res.ok.injEq] at h
  obtain ⟨⟨a, r⟩, h1, ⟨d, r2⟩, h2, rfl⟩ := h
  rcases parseField_optional (ty := tyInt) rfl rfl rfl rfl (by decide) h2 with ⟨x, _, _, hx⟩ | ⟨hx, _, _⟩
  · exact parseInt64_range hx
  · dsimp only
    rw [hx]
    unfold Int64Range; decide

theorem keyUsageLoop_bound {b : BitString} : ∀ (k i : Nat) (u r : Int), 0 ≤ u → u < 2 ^ i → keyUsageLoop b k i u = .ok r →
    0 ≤ r ∧ r < 2 ^ (i + k) := by
  intro k
  induction k with
  | zero => intro i u r h0 h1 h; simp only [keyUsageLoop, Res.ok.injEq] at h; subst h; exact ⟨h0, h1⟩
  | succ k ih =>
    intro i u r h0 h1 h
    rw [keyUsageLoop, Res.bind_eq_ok] at h
    obtain ⟨x, _, h⟩ := h
    have hp : (0 : Int) < 2 ^ i := by positivity
    have := ih (i + 1) _ r (by split <;> omega) (by rw [pow_succ]; split <;> omega) h
    rwa [show i + 1 + k = i + (k + 1) by omega] at this

theorem parseKeyUsage_bound {bs : Bytes} {u : Int} (h : parseKeyUsage bs = .ok u) : 0 ≤ u ∧ u < 512 := by
  unfold parseKeyUsage at h
  rw [Res.bind_eq_ok] at h
  obtain ⟨b, _, h⟩ := h
  exact keyUsageLoop_bound 9 0 0 u (by decide) (by decide) h

end Verif.Cert
