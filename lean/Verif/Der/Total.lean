import Verif.Der.RoundTrip
/-!
# Parsing with encoding/asn1 always returns: helper lemmas

Neither a panic nor an endless loop, whatever the bytes are.
-/
namespace Verif.Der
open Verif

variable {α : Type}

theorem returned_of_ok {x : Res α} {a : α} (h : x = .ok a) : x.returned = true := by rw [h]; rfl

theorem parseLength_suffix (k : Nat) : ∀ (a : Nat) (bs : Bytes) (v : Nat) (r : Bytes), parseLength k a bs = .ok (v, r) →
    ∃ pre, bs = pre ++ r := by
  induction k with
  | zero => intro a bs v r h; simp [parseLength] at h; exact ⟨[], by rw [h.2]; rfl⟩
  | succ k ih =>
    intro a bs v r h
    cases bs with
    | nil => simp [parseLength] at h
    | cons b bs =>
      unfold parseLength at h
      split at h
      · simp at h
      · dsimp only at h
        split at h
        · simp at h
        · obtain ⟨pre, rfl⟩ := ih _ _ _ _ h
          exact ⟨b :: pre, rfl⟩

theorem parseBase128Int_suffix {s a v : Nat} {bs r : Bytes} (h : parseBase128Int s a bs = .ok (v, r)) :
    ∃ pre, 0 < pre.length ∧ bs = pre ++ r := by
  obtain ⟨g, hg, _, rfl, _⟩ := (parseBase128Int_iff _ _ _ _ _).1 h
  exact ⟨g, CB.group_ne_nil hg, rfl⟩

theorem parseBase128Int_shorter {s a v : Nat} {bs r : Bytes} (h : parseBase128Int s a bs = .ok (v, r)) : r.length < bs.length := by
  obtain ⟨pre, h0, rfl⟩ := parseBase128Int_suffix h
  simp; omega

theorem parseTagAndLength_suffix {bs r : Bytes} {t : TagAndLength} (h : parseTagAndLength bs = .ok (t, r)) :
    ∃ pre, 0 < pre.length ∧ bs = pre ++ r := by
  cases bs with
  | nil => simp [parseTagAndLength] at h
  | cons b bs =>
    unfold parseTagAndLength at h
    rw [Res.bind_eq_ok] at h
    obtain ⟨⟨t1, r1⟩, h1, h2⟩ := h
    have l1 : ∃ pre, bs = pre ++ r1 := by
      unfold parseTag at h1
      split at h1
      · rw [Res.bind_eq_ok] at h1
        obtain ⟨⟨v, q⟩, g1, g2⟩ := h1
        obtain ⟨pre, _, rfl⟩ := parseBase128Int_suffix g1
        split at g2
        · simp at g2
        · simp only [Res.ok.injEq, Prod.mk.injEq] at g2
          exact ⟨pre, by rw [g2.2]⟩
      · simp only [Res.ok.injEq, Prod.mk.injEq] at h1
        exact ⟨[], by rw [h1.2]; rfl⟩
    obtain ⟨pre, rfl⟩ := l1
    simp only at h2
    cases r1 with
    | nil => simp at h2
    | cons l r1 =>
      simp only at h2
      split at h2
      · simp only [Res.ok.injEq, Prod.mk.injEq] at h2
        exact ⟨b :: (pre ++ [l]), by simp, by simp [h2.2]⟩
      · split at h2
        · simp at h2
        · rw [Res.bind_eq_ok] at h2
          obtain ⟨⟨v, q⟩, g1, g2⟩ := h2
          obtain ⟨pre2, rfl⟩ := parseLength_suffix _ _ _ _ _ g1
          split at g2
          · simp at g2
          · simp only [Res.ok.injEq, Prod.mk.injEq] at g2
            exact ⟨b :: (pre ++ l :: pre2), by simp, by simp [g2.2]⟩

theorem parseTagAndLength_shorter {bs r : Bytes} {t : TagAndLength} (h : parseTagAndLength bs = .ok (t, r)) :
    r.length < bs.length := by
  obtain ⟨pre, h0, rfl⟩ := parseTagAndLength_suffix h
  simp; omega

/-- A `RawValue` that is present consists of the bytes up to the rest. -/
theorem parseField_raw_split {p : Params} {bs rest : Bytes} {v : RawValue} (hx : p.explicit = false) (hp : p.tag = none)
    (hne : bs ≠ []) (h : parseField tyRaw p bs = .ok (v, rest)) :
    bs = v.fullBytes ++ rest ∧ 0 < v.fullBytes.length := by
  unfold parseField at h
  rw [if_neg hne, Res.bind_eq_ok] at h
  obtain ⟨⟨t, r⟩, h1, h2⟩ := h
  obtain ⟨pre, h0, rfl⟩ := parseTagAndLength_suffix h1
  rw [hx] at h2
  simp only [Bool.false_eq_true, if_false] at h2
  unfold parseInner tyRaw at h2
  dsimp only at h2
  rw [hp] at h2
  simp only [Bool.true_eq_false, false_and, or_self, if_false] at h2
  split at h2
  · simp at h2
  · simp only [Res.ok_bind, Res.ok.injEq, Prod.mk.injEq] at h2
    obtain ⟨rfl, rfl⟩ := h2
    dsimp only
    have e : (pre ++ r).length - (r.length - t.length) = pre.length + t.length := by simp; omega
    rw [e, List.take_length_add_append, List.append_assoc, List.take_append_drop]
    exact ⟨rfl, by simp; omega⟩

theorem returned_ite {c : Prop} [Decidable c] {a b : Res α} (ha : c → a.returned = true) (hb : ¬ c → b.returned = true) :
    (if c then a else b).returned = true := by
  split
  · exact ha ‹_›
  · exact hb ‹_›

/-- The contents octets of a type are always handled. -/
def Ty.Total (ty : Ty α) : Prop := ∀ t u c full, (ty.body t u c full).returned = true

theorem parseInner_returned {ty : Ty α} (h : ty.Total) (p : Params) (bs : Bytes) (t : TagAndLength) (rest : Bytes) :
    (parseInner ty p bs t rest).returned = true := by
  unfold parseInner
  dsimp only
  refine returned_ite (fun _ => ?_) fun _ => returned_ite (fun _ => rfl) fun _ => ?_
  · split <;> rfl
  · refine returned_bind (h _ _ _ _) fun _ _ => ?_
    rfl

theorem parseField_returned {ty : Ty α} (h : ty.Total) (p : Params) (bs : Bytes) : (parseField ty p bs).returned = true := by
  unfold parseField
  split
  · split <;> rfl
  · refine returned_bind (parseTagAndLength_returned _) fun r _ => ?_
    split
    · split
      · rfl
      · split
        · split
          · exact parseInner_returned h _ _ _ _
          · split
            · exact returned_bind (parseTagAndLength_returned _) fun r _ => parseInner_returned h _ _ _ _
            · rfl
        · split <;> rfl
    · exact parseInner_returned h _ _ _ _

theorem oidLoop_returned : ∀ (fuel : Nat) (bs : Bytes), bs.length ≤ fuel → (oidLoop fuel bs).returned = true := by
  intro fuel
  induction fuel with
  | zero =>
    intro bs h
    cases bs with
    | nil => rfl
    | cons b bs => simp at h
  | succ fuel ih =>
    intro bs h
    cases bs with
    | nil => rfl
    | cons b bs =>
      rw [oidLoop_cons]
      refine returned_bind (parseBase128Int_ge _ _ _) fun r hr => ?_
      have := parseBase128Int_shorter (v := r.1) (r := r.2) hr
      exact returned_bind (ih _ (by omega)) fun _ _ => rfl

theorem parseObjectIdentifier_returned (bs : Bytes) : (parseObjectIdentifier bs).returned = true := by
  unfold parseObjectIdentifier
  split
  · rfl
  · refine returned_bind (parseBase128Int_ge _ _ _) fun r hr => ?_
    have := parseBase128Int_shorter (v := r.1) (r := r.2) hr
    refine returned_bind (oidLoop_returned _ _ (by omega)) fun _ _ => ?_
    split <;> rfl

theorem checkInteger_returned (bs : Bytes) : (checkInteger bs).returned = true := by
  unfold checkInteger
  repeat' split
  all_goals rfl

theorem parseInt64_returned (bs : Bytes) : (parseInt64 bs).returned = true := by
  unfold parseInt64
  refine returned_bind (checkInteger_returned _) fun _ _ => ?_
  split <;> rfl

theorem parseBitString_returned (bs : Bytes) : (parseBitString bs).returned = true := by
  unfold parseBitString
  split
  · rfl
  · split <;> rfl

theorem parseBool_returned (bs : Bytes) : (parseBool bs).returned = true := by
  unfold parseBool
  repeat' split
  all_goals rfl

theorem parseUTCTime_returned (bs : Bytes) : (parseUTCTime bs).returned = true := by
  unfold parseUTCTime
  dsimp only
  split
  · rfl
  · split
    · rfl
    · split <;> rfl

theorem parseGeneralizedTime_returned (bs : Bytes) : (parseGeneralizedTime bs).returned = true := by
  unfold parseGeneralizedTime
  repeat' split
  all_goals rfl

theorem countElems_cons (ty : Ty α) (fuel : Nat) (b : Byte) (bs : Bytes) : countElems ty (fuel + 1) (b :: bs) = (do
    let r ← parseTagAndLength (b :: bs)
    if ty.matchAny = false ∧ (r.1.cls ≠ 0 ∨ r.1.isCompound ≠ ty.compound ∨ seqTag r.1.tag ≠ ty.tag) then .err "sequence tag mismatch"
    else if r.2.length < r.1.length then .err "truncated sequence"
    else do
      let n ← countElems ty fuel (r.2.drop r.1.length)
      .ok (n + 1)) := rfl

theorem countElems_returned (ty : Ty α) : ∀ (fuel : Nat) (bs : Bytes), bs.length ≤ fuel → (countElems ty fuel bs).returned = true := by
  intro fuel
  induction fuel with
  | zero =>
    intro bs h
    cases bs with
    | nil => rfl
    | cons b bs => simp at h
  | succ fuel ih =>
    intro bs h
    cases bs with
    | nil => rfl
    | cons b bs =>
      rw [countElems_cons]
      refine returned_bind (parseTagAndLength_returned _) fun r hr => ?_
      have := parseTagAndLength_shorter (t := r.1) (r := r.2) hr
      split
      · rfl
      · split
        · rfl
        · exact returned_bind (ih _ (by rw [List.length_drop]; omega)) fun _ _ => rfl

theorem parseElems_returned {ty : Ty α} (h : ty.Total) : ∀ (n : Nat) (bs : Bytes), (parseElems ty n bs).returned = true := by
  intro n
  induction n with
  | zero => intro bs; rfl
  | succ n ih =>
    intro bs
    rw [parseElems]
    exact returned_bind (parseField_returned h _ _) fun r _ => returned_bind (ih _) fun _ _ => rfl

theorem parseSequenceOf_returned {ty : Ty α} (h : ty.Total) (bs : Bytes) : (parseSequenceOf ty bs).returned = true :=
  returned_bind (countElems_returned ty _ _ (Nat.le_refl _)) fun _ _ => parseElems_returned h _ _

theorem parseString_returned (tag : Nat) (bs : Bytes) : (parseString tag bs).returned = true := by
  unfold parseString
  repeat' split
  all_goals rfl

theorem parseAnyBody_returned (tag : Nat) (inner : Bytes) : (parseAnyBody tag inner).returned = true := by
  unfold parseAnyBody
  split
  · exact returned_bind (parseString_returned _ _) fun _ _ => rfl
  · split
    · exact returned_bind (parseInt64_returned _) fun _ _ => rfl
    · split
      · exact returned_bind (parseBitString_returned _) fun _ _ => rfl
      · split
        · exact returned_bind (parseObjectIdentifier_returned _) fun _ _ => rfl
        · split
          · exact returned_bind (parseUTCTime_returned _) fun _ _ => rfl
          · split
            · exact returned_bind (parseGeneralizedTime_returned _) fun _ _ => rfl
            · split <;> rfl

theorem parseAny_returned (bs : Bytes) : (parseAny bs).returned = true := by
  unfold parseAny
  split
  · rfl
  · refine returned_bind (parseTagAndLength_returned _) fun r _ => ?_
    split
    · rfl
    · dsimp only
      split
      · refine returned_bind (parseAnyBody_returned _ _) fun _ _ => ?_
        rfl
      · rfl

theorem total_raw : tyRaw.Total := fun _ _ _ _ => rfl
theorem total_oid : tyOID.Total := fun _ _ _ _ => parseObjectIdentifier_returned _
theorem total_bits : tyBits.Total := fun _ _ _ _ => parseBitString_returned _
theorem total_optBits : tyOptBits.Total := fun _ _ _ _ => returned_bind (parseBitString_returned _) fun _ _ => rfl
theorem total_bool : tyBool.Total := fun _ _ _ _ => parseBool_returned _
theorem total_int : tyInt.Total := fun _ _ _ _ => parseInt64_returned _
theorem total_big : tyBig.Total := fun _ _ _ _ => parseBigInt_returned _
theorem total_optBytes : tyOptBytes.Total := fun _ _ _ _ => rfl
theorem total_bytes : tyBytes.Total := fun _ _ _ _ => rfl
theorem total_time : tyTime.Total := by
  intro _ u _ _
  unfold tyTime
  dsimp only
  split
  · exact parseUTCTime_returned _
  · exact parseGeneralizedTime_returned _
theorem total_slice {s : Bool} {ty : Ty α} (h : ty.Total) : (tySlice s ty).Total := fun _ _ _ _ => parseSequenceOf_returned h _
theorem total_optSlice {ty : Ty α} (h : ty.Total) : (tyOptSlice ty).Total :=
  fun _ _ _ _ => returned_bind (parseSequenceOf_returned h _) fun _ _ => rfl

end Verif.Der
