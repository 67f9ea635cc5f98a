import Verif.CB.Int32Lemmas
import Verif.CB.SafeLemmas
import Verif.Cert.Int32
/-! Name constraints on 32-bit platforms against those on 64-bit platforms: the same, or a panic in place of an error. -/
namespace Verif.CB.P32
open Verif Verif.CB Spec.DER

/-- The 32-bit reader panics where the 64-bit one fails; otherwise they agree. -/
def Near {α : Type} (a b : Res (Option α × Str)) : Prop := a = b ∨ (a = .panic ∧ ∃ s, b = .ok (none, s))

theorem readASN1_near (sk : Bool) (s : Str) (h : s.len < 2 ^ 31) : Near (readASN1 sk s) (CB.readASN1 sk s) := by
  match s with
  | none => exact .inl rfl
  | some [] => exact .inl rfl
  | some [_] => exact .inl rfl
  | some (t :: b :: r) =>
    by_cases hb : b.toNat < 128
    · exact .inl (readASN1_short sk t b r hb)
    by_cases ht : LowTag t
    · obtain ⟨h1, h2⟩ := readASN1_long sk t b r ht (by omega)
      by_cases hh : Huge b r
      · right
        refine ⟨h1 hh, some (t :: b :: r), ?_⟩
        rw [CB.readASN1_long sk t b r ht (by omega)]
        obtain ⟨rfl, h4, h5, h6⟩ := hh
        unfold longForm
        rw [show (0x84 : Byte).toNat - 128 = 4 from rfl]
        rw [if_neg (by omega), if_pos]
        right; right; right
        simp only [Str.len, Str.bytes, Option.getD_some, List.length_cons] at h
        omega
      · exact .inl (h2 hh)
    · left
      rw [CB.readASN1_highTag sk t b r ht]
      unfold readASN1
      rw [if_neg (by simp), at_some (by simp), at_some (by simp)]
      simp only [Res.ok_bind, List.getElem_cons_zero]
      rw [if_pos (by rw [and_1f]; exact Decidable.not_not.1 ht)]

theorem readASN1Tag_near (tag : Tag) (s : Str) (h : s.len < 2 ^ 31) : Near (readASN1Tag tag s) (CB.readASN1Tag tag s) := by
  unfold readASN1Tag CB.readASN1Tag readAnyASN1 CB.readAnyASN1
  rcases readASN1_near true s h with e | ⟨e, s', e'⟩
  · rw [e]; exact .inl rfl
  · rw [e, e']; exact .inr ⟨rfl, s', rfl⟩

theorem readOptionalASN1_near (tag : Tag) (s : Str) (h : s.len < 2 ^ 31) :
    Near (readOptionalASN1 tag s) (CB.readOptionalASN1 tag s) := by
  unfold readOptionalASN1 CB.readOptionalASN1
  cases hp : peekASN1Tag tag s with
  | ok p =>
    cases p with
    | false => simp only [Res.ok_bind, Bool.false_eq_true, if_false]; exact .inl rfl
    | true =>
      simp only [Res.ok_bind, if_true]
      rcases readASN1Tag_near tag s h with e | ⟨e, s', e'⟩
      · rw [e]; exact .inl rfl
      · rw [e, e']; exact .inr ⟨rfl, s', rfl⟩
  | err m => show Near (.err m) (.err m); exact .inl rfl
  | panic => show Near .panic .panic; exact .inl rfl
  | loop => show Near .loop .loop; exact .inl rfl

end Verif.CB.P32

namespace Verif.Cert.P32
open Verif Verif.Cert Spec.DER

variable {U : Type}

/-- On 32-bit platforms a panic in place of an error; otherwise the same. -/
def Worse {α : Type} (a b : Res α) : Prop := a = b ∨ (a = .panic ∧ ∃ m, b = .err m)

theorem Worse.bind {α β : Type} {a b : Res α} {f g : α → Res β} (h : Worse a b) (hf : ∀ x, b = .ok x → Worse (f x) (g x)) :
    Worse (a >>= f) (b >>= g) := by
  rcases h with rfl | ⟨rfl, m, rfl⟩
  · cases a with
    | ok x => exact hf x rfl
    | err m => exact .inl rfl
    | panic => exact .inl rfl
    | loop => exact .inl rfl
  · exact .inr ⟨rfl, m, rfl⟩

theorem getValues_worse (env : Env U) (fuel : Nat) : ∀ (s : CB.Str) (st : Subtrees), s.len < 2 ^ 31 →
    Worse (getValues env fuel s st) (Cert.getValues env fuel s st) := by
  induction fuel with
  | zero =>
    intro s st _
    unfold getValues Cert.getValues
    dsimp only
    exact .inl rfl
  | succ fuel ih =>
    intro s st h
    unfold getValues Cert.getValues
    cases he : s.empty with
    | true => simp only [if_true]; exact .inl rfl
    | false =>
      simp only [Bool.false_eq_true, if_false]
      obtain ⟨r, s', pre, hr, hs, hp⟩ := CB.safe_readASN1Tag CB.tagSEQUENCE s
      have hl : pre.length + s'.bytes.length < 2 ^ 31 := by
        have := congrArg List.length hs
        simp only [List.length_append] at this
        simp only [CB.Str.len] at h
        omega
      rcases CB.P32.readASN1Tag_near CB.tagSEQUENCE s h with e | ⟨e, t, e'⟩
      · rw [e, hr]
        simp only [Res.ok_bind]
        cases r with
        | none => exact .inl rfl
        | some seq =>
          have hq : seq.len < 2 ^ 31 := by
            have := (hp seq rfl seq.bytes (by simp)).length_le
            simp only [CB.Str.len]
            omega
          dsimp only
          unfold CB.P32.readAnyASN1 CB.readAnyASN1
          rcases CB.P32.readASN1_near true seq hq with e2 | ⟨e2, t2, e2'⟩
          · rw [e2]
            refine Worse.bind (.inl rfl) fun x _ => ?_
            obtain ⟨tv, _⟩ := x
            cases tv with
            | none => exact .inl rfl
            | some tv =>
              refine Worse.bind (.inl rfl) fun st' _ => ih _ _ ?_
              simp only [CB.Str.len]
              omega
          · rw [e2, e2']
            exact .inr ⟨rfl, _, rfl⟩
      · rw [e, e']
        exact .inr ⟨rfl, _, rfl⟩

/-- The header of the extension: a panic in place of a failure. -/
theorem readNameConstraints_near (value : Bytes) (h : value.length < 2 ^ 31) :
    (readNameConstraints value = Cert.readNameConstraints value ∧ ∀ p x, Cert.readNameConstraints value = .ok (some (p, x)) →
      CB.Str.len (p.getD none) < 2 ^ 31 ∧ CB.Str.len (x.getD none) < 2 ^ 31) ∨
    (readNameConstraints value = .panic ∧ Cert.readNameConstraints value = .ok none) := by
  unfold readNameConstraints Cert.readNameConstraints
  obtain ⟨r, s', pre, hr, hs, hp⟩ := CB.safe_readASN1Tag CB.tagSEQUENCE (some value)
  have hl : pre.length + s'.bytes.length < 2 ^ 31 := by
    have := congrArg List.length hs
    simp only [List.length_append, CB.Str.bytes, Option.getD_some] at this
    simp only [CB.Str.bytes]
    omega
  rcases CB.P32.readASN1Tag_near CB.tagSEQUENCE (some value) h with e | ⟨e, t, e'⟩
  swap
  · rw [e, e']; exact .inr ⟨rfl, rfl⟩
  rw [e, hr]
  simp only [Res.ok_bind]
  cases r with
  | none => exact .inl ⟨rfl, by simp⟩
  | some top =>
    have hq : top.len < 2 ^ 31 := by
      have := (hp top rfl top.bytes (by simp)).length_le
      simp only [CB.Str.len]
      omega
    dsimp only
    split
    · exact .inl ⟨rfl, by simp⟩
    obtain ⟨r, s2, pre2, hr2, hs2, hp2⟩ := CB.safe_readOptionalASN1 ((0 : CB.Tag).contextSpecific).constructed top
    have hl2 : pre2.length + s2.bytes.length < 2 ^ 31 := by
      have := congrArg List.length hs2
      simp only [List.length_append] at this
      simp only [CB.Str.len] at hq
      omega
    rcases CB.P32.readOptionalASN1_near ((0 : CB.Tag).contextSpecific).constructed top hq with e | ⟨e, t, e'⟩
    swap
    · rw [e, e']; exact .inr ⟨rfl, rfl⟩
    rw [e, hr2]
    simp only [Res.ok_bind]
    cases r with
    | none => exact .inl ⟨rfl, by simp⟩
    | some p =>
      dsimp only
      have hs2l : s2.len < 2 ^ 31 := by simp only [CB.Str.len]; omega
      obtain ⟨r, s3, pre3, hr3, hs3, hp3⟩ := CB.safe_readOptionalASN1 ((1 : CB.Tag).contextSpecific).constructed s2
      have hl3 : pre3.length + s3.bytes.length < 2 ^ 31 := by
        have := congrArg List.length hs3
        simp only [List.length_append] at this
        omega
      rcases CB.P32.readOptionalASN1_near ((1 : CB.Tag).contextSpecific).constructed s2 hs2l with e | ⟨e, t, e'⟩
      swap
      · rw [e, e']; exact .inr ⟨rfl, rfl⟩
      rw [e, hr3]
      simp only [Res.ok_bind]
      cases r with
      | none => exact .inl ⟨rfl, by simp⟩
      | some x =>
        left
        refine ⟨rfl, fun p' x' h' => ?_⟩
        dsimp only at h'
        split at h'
        · simp at h'
        · simp only [Res.ok.injEq, Option.some.injEq, Prod.mk.injEq] at h'
          obtain ⟨rfl, rfl⟩ := h'
          constructor
          · cases p with
            | none => simp [CB.Str.len, CB.Str.bytes]
            | some p =>
              have := (hp2 (some p) rfl p.bytes (by simp)).length_le
              simp only [Option.getD_some, CB.Str.len]
              omega
          · cases x with
            | none => simp [CB.Str.len, CB.Str.bytes]
            | some x =>
              have := (hp3 (some x) rfl x.bytes (by simp)).length_le
              simp only [Option.getD_some, CB.Str.len]
              omega

theorem parseNameConstraints_worse (env : Env U) (value : Bytes) (h : value.length < 2 ^ 31) :
    Worse (parseNameConstraints env value) (Cert.parseNameConstraints env value) := by
  unfold parseNameConstraints Cert.parseNameConstraints
  rcases readNameConstraints_near value h with ⟨e, hl⟩ | ⟨e, e'⟩
  · rw [e]
    refine Worse.bind (.inl rfl) fun r hr => ?_
    cases r with
    | none => exact .inl rfl
    | some r =>
      obtain ⟨p, x⟩ := r
      obtain ⟨h1, h2⟩ := hl p x hr
      dsimp only
      split
      · exact .inl rfl
      · exact Worse.bind (getValues_worse env _ _ _ h1) fun _ _ => Worse.bind (getValues_worse env _ _ _ h2) fun _ _ => .inl rfl
  · rw [e, e']
    exact .inr ⟨rfl, _, rfl⟩

theorem parseExtension_worse (env : Env U) (out : X509Cert U) (e : Extension) (h : e.value.length < 2 ^ 31) :
    Worse (parseExtension env out e) (Cert.parseExtension env out e) := by
  unfold parseExtension
  split
  · rename_i he
    unfold Cert.parseExtension
    rw [he, if_neg (by decide), if_neg (by decide), if_neg (by decide), if_pos rfl]
    exact Worse.bind (parseNameConstraints_worse env _ h) fun _ _ => .inl rfl
  · exact .inl rfl

theorem parseExtensions_worse (env : Env U) (es : List Extension) : ∀ out : X509Cert U, (∀ e ∈ es, e.value.length < 2 ^ 31) →
    Worse (parseExtensions env es out) (Cert.parseExtensions env es out) := by
  induction es with
  | nil => intro out _; exact .inl rfl
  | cons e es ih =>
    intro out h
    unfold parseExtensions Cert.parseExtensions
    exact Worse.bind (parseExtension_worse env _ e (h e (by simp))) fun x _ => ih _ fun e' he' => h e' (by simp [he'])

end Verif.Cert.P32
