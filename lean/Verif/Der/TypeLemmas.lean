import Verif.Der.Types
import Verif.Der.Lemmas
import Verif.CB.OidLemmas
import Verif.CB.BitSpec
/-! Facts about the codec records of `Verif.Der.Types`: single fields, base types, slices. -/
namespace Verif.Der
open Spec.DER

variable {α : Type}

/-! ## Elements -/

theorem parseTagAndLength_elem {cls tag : Nat} {cmp : Bool} {c : Bytes} (rest : Bytes) (hc : cls < 4) (ht : tag < 31)
    (hl : c.length < 2 ^ 31) :
    parseTagAndLength (elem (idOctet cls tag cmp) c ++ rest) = .ok (⟨cls, cmp, tag, c.length⟩, c ++ rest) := by
  rw [parseTagAndLength_iff (t := ⟨cls, cmp, tag, c.length⟩) ht]
  exact ⟨hl, hc, by simp [elem]⟩

theorem elem_append_ne_nil (t : Byte) (c rest : Bytes) : elem t c ++ rest ≠ [] := by simp [elem]

theorem length_le_elem (t : Byte) (c : Bytes) : c.length + 2 ≤ (elem t c).length := by
  rw [CB.length_elem, CB.length_lenOctets]; split <;> omega

theorem length_le_makeElem (cls tag : Nat) (cmp : Bool) (c : Bytes) : c.length < (makeElem cls tag cmp c).length := by
  unfold makeElem
  simp only
  split
  · simp only [List.length_cons, List.length_append]; omega
  · simp only [List.length_cons]; omega

/-- Class and tag that a field is expected to have. -/
def wireCls (p : Params) : Nat := if p.tag.isSome then 2 else 0
/-- The universal tag of a field. -/
def univTag (ty : Ty α) (p : Params) : Nat := if p.set = true then 17 else ty.tag
/-- The tag of a field that is not tagged explicitly. -/
def wireTag (ty : Ty α) (p : Params) : Nat := p.tag.getD (univTag ty p)

theorem wireCls_lt (p : Params) : wireCls p < 4 := by unfold wireCls; split <;> omega

/-- What `parseInner` does with a complete element. -/
theorem parseInner_elem {ty : Ty α} {p : Params} {cls tag : Nat} {cmp : Bool} {c : Bytes} (bs rest : Bytes)
    (hm : ty.matchAny = false) (hti : ty.isTime = false) (hx : p.explicit = false) :
    parseInner ty p bs ⟨cls, cmp, tag, c.length⟩ (c ++ rest) =
      if cls = wireCls p ∧ tag = wireTag ty p ∧ cmp = ty.compound then do
        let v ← ty.body ⟨cls, cmp, tag, c.length⟩ (univTag ty p) c (bs.take (bs.length - rest.length))
        .ok (v, rest)
      else if p.optional = true then .ok (ty.absent p, bs) else .err "tags don't match" := by
  unfold parseInner wireCls wireTag univTag
  rw [hm, hti, hx]
  simp only [Bool.false_eq_true, false_and, if_false, if_true, true_and]
  cases hp : p.tag with
  | none =>
    simp only [true_and, Option.isSome_none, Option.getD_none, Bool.false_eq_true, if_false]
    by_cases h : cls = 0 ∧ tag = (if p.set = true then 17 else ty.tag) ∧ cmp = ty.compound
    · rw [if_pos h, if_neg (by simp [h]), if_neg (by simp)]
      simp
    · rw [if_neg h, if_pos]
      by_contra hh
      exact h (by simp only [not_or, not_not] at hh; exact ⟨hh.1.1, hh.1.2, hh.2⟩)
  | some k =>
    simp only [true_and, Option.isSome_some, Option.getD_some, if_true]
    by_cases h : cls = 2 ∧ tag = k ∧ cmp = ty.compound
    · rw [if_pos h, if_neg (by simp [h]), if_neg (by simp)]
      simp
    · rw [if_neg h, if_pos]
      by_contra hh
      exact h (by simp only [not_or, not_not] at hh; exact ⟨hh.1.1, hh.1.2, hh.2⟩)

theorem take_elem (e rest : Bytes) : (e ++ rest).take ((e ++ rest).length - rest.length) = e := by simp

/-- `parseField` on an element. -/
theorem parseField_elem_eq {ty : Ty α} {p : Params} {cls tag : Nat} {cmp : Bool} {c : Bytes} (rest : Bytes)
    (hm : ty.matchAny = false) (hti : ty.isTime = false) (hx : p.explicit = false)
    (hc : cls < 4) (ht : tag < 31) (hl : c.length < 2 ^ 31) :
    parseField ty p (elem (idOctet cls tag cmp) c ++ rest) =
      if cls = wireCls p ∧ tag = wireTag ty p ∧ cmp = ty.compound then do
        let v ← ty.body ⟨cls, cmp, tag, c.length⟩ (univTag ty p) c (elem (idOctet cls tag cmp) c)
        .ok (v, rest)
      else if p.optional = true then .ok (ty.absent p, elem (idOctet cls tag cmp) c ++ rest) else .err "tags don't match" := by
  unfold parseField
  rw [if_neg (elem_append_ne_nil _ _ _), parseTagAndLength_elem rest hc ht hl, Res.ok_bind, hx]
  simp only [Bool.false_eq_true, if_false]
  rw [parseInner_elem _ _ hm hti hx, take_elem]

theorem parseField_elem {ty : Ty α} {p : Params} {c : Bytes} {v : α} (rest : Bytes)
    (hm : ty.matchAny = false) (hti : ty.isTime = false) (hx : p.explicit = false)
    (ht : wireTag ty p < 31) (hl : c.length < 2 ^ 31)
    (hb : ty.body ⟨wireCls p, ty.compound, wireTag ty p, c.length⟩ (univTag ty p) c
      (elem (idOctet (wireCls p) (wireTag ty p) ty.compound) c) = .ok v) :
    parseField ty p (elem (idOctet (wireCls p) (wireTag ty p) ty.compound) c ++ rest) = .ok (v, rest) := by
  rw [parseField_elem_eq rest hm hti hx (wireCls_lt p) ht hl, if_pos ⟨rfl, rfl, rfl⟩, hb, Res.ok_bind]

theorem parseField_skip {ty : Ty α} {p : Params} {cls tag : Nat} {cmp : Bool} {c : Bytes} (rest : Bytes)
    (hm : ty.matchAny = false) (hti : ty.isTime = false) (hx : p.explicit = false) (ho : p.optional = true)
    (hc : cls < 4) (ht : tag < 31) (hl : c.length < 2 ^ 31) (hne : cls ≠ wireCls p ∨ tag ≠ wireTag ty p) :
    parseField ty p (elem (idOctet cls tag cmp) c ++ rest) = .ok (ty.absent p, elem (idOctet cls tag cmp) c ++ rest) := by
  rw [parseField_elem_eq rest hm hti hx hc ht hl, if_neg (by rintro ⟨h1, h2, _⟩; rcases hne with h | h <;> contradiction), if_pos ho]

theorem parseField_skip_nil {ty : Ty α} {p : Params} (ho : p.optional = true) :
    parseField ty p [] = .ok (ty.absent p, []) := by
  unfold parseField; rw [if_pos rfl, if_pos ho]

/-- Every accepted header with a low tag starts an element, unless the contents are cut off. -/
theorem header_cases {bs rest : Bytes} {t : TagAndLength} (ht : t.tag < 31) (h : parseTagAndLength bs = .ok (t, rest))
    (hl : t.length ≤ rest.length) :
    ∃ c rest', rest = c ++ rest' ∧ c.length = t.length ∧ t.cls < 4 ∧ c.length < 2 ^ 31 ∧
      bs = elem (idOctet t.cls t.tag t.isCompound) c ++ rest' := by
  obtain ⟨h1, h2, h3⟩ := (parseTagAndLength_iff ht).1 h
  have e : (rest.take t.length).length = t.length := by simp; omega
  refine ⟨rest.take t.length, rest.drop t.length, by simp, e, h2, by omega, ?_⟩
  rw [h3]; simp [elem, e]

/-- A mandatory field without explicit tag: an element with the expected identifier. -/
theorem parseField_iff {ty : Ty α} {p : Params} {bs rest : Bytes} {v : α}
    (hm : ty.matchAny = false) (hti : ty.isTime = false) (hx : p.explicit = false) (ho : p.optional = false)
    (ht : wireTag ty p < 31) :
    parseField ty p bs = .ok (v, rest) ↔ ∃ c, c.length < 2 ^ 31 ∧
      bs = elem (idOctet (wireCls p) (wireTag ty p) ty.compound) c ++ rest ∧
      ty.body ⟨wireCls p, ty.compound, wireTag ty p, c.length⟩ (univTag ty p) c
        (elem (idOctet (wireCls p) (wireTag ty p) ty.compound) c) = .ok v := by
  constructor
  · intro h
    unfold parseField at h
    split at h
    · rw [ho] at h; simp at h
    · rw [Res.bind_eq_ok] at h
      obtain ⟨⟨t, r⟩, h1, h2⟩ := h
      rw [hx] at h2
      simp only [Bool.false_eq_true, if_false] at h2
      have key : t.cls = wireCls p ∧ t.tag = wireTag ty p ∧ t.length ≤ r.length := by
        unfold parseInner at h2
        rw [hm, hti, hx, ho] at h2
        unfold wireCls wireTag univTag
        cases hp : p.tag with
        | none =>
          rw [hp] at h2
          simp only [Bool.false_eq_true, false_and, if_false, true_and] at h2
          by_cases hh : t.cls = 0 ∧ t.tag = (if p.set = true then 17 else ty.tag) ∧ t.length ≤ r.length
          · simpa using hh
          · exfalso
            generalize (if p.set = true then 17 else ty.tag) = u at *
            split at h2
            · simp at h2
            · rename_i hne
              simp only [ne_eq, not_or, not_not] at hne
              rw [if_pos (by have := hne.1.1; have := hne.1.2; omega)] at h2
              simp at h2
        | some k =>
          rw [hp] at h2
          simp only [Bool.false_eq_true, false_and, if_false, if_true, true_and] at h2
          by_cases hh : t.cls = 2 ∧ t.tag = k ∧ t.length ≤ r.length
          · simpa using hh
          · exfalso
            split at h2
            · simp at h2
            · rename_i hne
              simp only [ne_eq, not_or, not_not] at hne
              rw [if_pos (by have := hne.1.1; have := hne.1.2; omega)] at h2
              simp at h2
      obtain ⟨c, rest', e1, e2, e3, e4, e5⟩ := header_cases (by rw [key.2.1]; exact ht) h1 key.2.2
      obtain ⟨cls, cmp, tag, len⟩ := t
      dsimp only at *
      subst e1
      subst e2
      rw [parseInner_elem _ _ hm hti hx] at h2
      split at h2
      · rename_i hh
        obtain ⟨rfl, rfl, rfl⟩ := hh
        rw [Res.bind_eq_ok] at h2
        obtain ⟨w, h3, h4⟩ := h2
        simp only [Res.ok.injEq, Prod.mk.injEq] at h4
        obtain ⟨rfl, rfl⟩ := h4
        refine ⟨c, e4, e5, ?_⟩
        rw [e5, take_elem] at h3
        exact h3
      · rw [ho] at h2; simp at h2
  · rintro ⟨c, h1, rfl, h3⟩
    exact parseField_elem rest hm hti hx ht h1 h3

/-- An explicitly tagged field. -/
theorem parseField_explicit {ty : Ty α} {p : Params} {k : Nat} {c : Bytes} {v : α} (rest : Bytes)
    (hm : ty.matchAny = false) (hti : ty.isTime = false) (hx : p.explicit = true) (hk : p.tag = some k) (hk31 : k < 31)
    (hs : p.set = false) (ht : ty.tag < 31) (hl : (elem (idOctet 0 ty.tag ty.compound) c).length < 2 ^ 31)
    (hb : ∀ t full, ty.body t ty.tag c full = .ok v) :
    parseField ty p (elem (idOctet 2 k true) (elem (idOctet 0 ty.tag ty.compound) c) ++ rest) = .ok (v, rest) := by
  have hcl := length_le_elem (idOctet 0 ty.tag ty.compound) c
  unfold parseField
  rw [if_neg (elem_append_ne_nil _ _ _), parseTagAndLength_elem rest (by omega) hk31 hl, Res.ok_bind, hx]
  simp only [if_true]
  rw [if_neg (elem_append_ne_nil _ _ _), if_pos (by simp [hk]), hm, if_neg (by simp), if_pos (by omega),
    parseTagAndLength_elem rest (by omega) ht (by omega), Res.ok_bind]
  unfold parseInner
  dsimp only
  rw [hm, hti, hx, hk, hs]
  simp only [Bool.false_eq_true, false_and, if_false, true_and, reduceCtorEq, ne_eq, not_true_eq_false, or_self,
    List.length_append, List.take_left', List.drop_left']
  rw [if_neg (by omega), hb, Res.ok_bind]

theorem parseField_explicit_skip {ty : Ty α} {p : Params} {cls tag : Nat} {cmp : Bool} {c : Bytes} (rest : Bytes)
    (hx : p.explicit = true) (ho : p.optional = true) (hc : cls < 4) (ht : tag < 31) (hl : c.length < 2 ^ 31)
    (hn : c ++ rest ≠ []) (hne : cls ≠ 2 ∨ p.tag ≠ some tag) :
    parseField ty p (elem (idOctet cls tag cmp) c ++ rest) = .ok (ty.absent p, elem (idOctet cls tag cmp) c ++ rest) := by
  unfold parseField
  rw [if_neg (elem_append_ne_nil _ _ _), parseTagAndLength_elem rest hc ht hl, Res.ok_bind, if_pos hx]
  simp only
  rw [if_neg hn, if_neg (by rintro ⟨h1, h2, _⟩; rcases hne with h | h <;> contradiction), if_pos ho]

/-- A time field. -/
theorem parseField_time {c : Bytes} {v : Time} (rest : Bytes) {tag : Nat} (ht : tag = 23 ∨ tag = 24)
    (hl : c.length < 2 ^ 31) (hb : (if tag = 23 then parseUTCTime c else parseGeneralizedTime c) = .ok v) :
    parseField tyTime {} (elem (idOctet 0 tag false) c ++ rest) = .ok (v, rest) := by
  unfold parseField
  rw [if_neg (elem_append_ne_nil _ _ _), parseTagAndLength_elem rest (by omega) (by omega) hl, Res.ok_bind]
  simp only [Bool.false_eq_true, if_false]
  unfold parseInner tyTime
  simp only [Bool.false_eq_true, if_false, true_and, and_true, ne_eq, not_true_eq_false, false_or, or_false,
    List.length_append, List.take_left', List.drop_left']
  rcases ht with rfl | rfl
  · simp only [if_true] at hb
    simp [hb]
  · simp only [show ¬ (24 : Nat) = 23 by omega, if_false] at hb
    simp [hb]

/-! ## RawValue -/

theorem parseField_raw {p : Params} {cls tag : Nat} {cmp : Bool} {c : Bytes} (rest : Bytes) (hx : p.explicit = false)
    (hp : p.tag = none) (hc : cls < 4) (ht : tag < 31) (hl : c.length < 2 ^ 31) :
    parseField tyRaw p (elem (idOctet cls tag cmp) c ++ rest) =
      .ok (⟨cls, tag, cmp, c, elem (idOctet cls tag cmp) c⟩, rest) := by
  unfold parseField
  rw [if_neg (elem_append_ne_nil _ _ _), parseTagAndLength_elem rest hc ht hl, Res.ok_bind, hx]
  simp only [Bool.false_eq_true, if_false]
  unfold parseInner tyRaw
  dsimp only
  rw [hp]
  simp only [Bool.true_eq_false, Bool.false_eq_true, false_and, or_self, if_false, List.length_append, List.take_left', List.drop_left']
  rw [if_neg (by omega), Res.ok_bind]
  congr
  rw [show c.length + rest.length - c.length = rest.length by omega]
  have := take_elem (elem (idOctet cls tag cmp) c) rest
  rwa [List.length_append] at this

/-! ## Base-128 numbers and object identifiers -/

theorem parseBase128Int_iff : ∀ (bs : Bytes) (s a v : Nat) (rest : Bytes),
    parseBase128Int s a bs = .ok (v, rest) ↔
      ∃ g, IsGroup g ∧ (g.length + s ≤ 5 ∨ 5 < s) ∧ bs = g ++ rest ∧ v = a * 128 ^ g.length + subValue g ∧ v < 2 ^ 31 := by
  intro bs
  induction bs with
  | nil =>
    intro s a v rest
    unfold parseBase128Int
    simp only [reduceCtorEq, false_iff]
    rintro ⟨g, hg, _, h, _⟩
    have := CB.group_ne_nil hg
    have := congrArg List.length h
    simp at this; omega
  | cons b bs ih =>
    intro s a v rest
    unfold parseBase128Int
    by_cases h5 : s = 5
    · rw [if_pos h5]
      simp only [reduceCtorEq, false_iff]
      rintro ⟨g, hg, h, _⟩
      have := CB.group_ne_nil hg
      omega
    · rw [if_neg h5]
      dsimp only
      rw [CB.and_7f]
      by_cases hb : b.toNat < 128
      · rw [if_pos ((CB.and_80 b).2 hb)]
        constructor
        · intro h
          split at h
          · simp at h
          · simp only [Res.ok.injEq, Prod.mk.injEq] at h
            obtain ⟨rfl, rfl⟩ := h
            refine ⟨[b], (CB.isGroup_cons b []).2 (.inl ⟨hb, rfl⟩), ?_, rfl, ?_, by omega⟩
            · simp; omega
            · simp [CB.subValue_cons]
        · rintro ⟨g, hg, h1, h2, h3, h4⟩
          cases g with
          | nil => exact absurd hg CB.not_isGroup_nil
          | cons x xs =>
            simp only [List.cons_append, List.cons.injEq] at h2
            obtain ⟨rfl, h2⟩ := h2
            rcases (CB.isGroup_cons _ _).1 hg with ⟨_, rfl⟩ | ⟨h, _⟩
            · simp [CB.subValue_cons] at h3 h2
              subst h3; subst h2
              rw [if_neg (by omega)]
            · omega
      · rw [if_neg (by rw [CB.and_80]; exact hb), ih]
        constructor
        · rintro ⟨g, hg, h1, rfl, h3, h4⟩
          refine ⟨b :: g, (CB.isGroup_cons _ _).2 (.inr ⟨by omega, hg⟩), ?_, rfl, ?_, h4⟩
          · simp only [List.length_cons]
            have := CB.group_ne_nil hg
            omega
          · rw [h3, CB.subValue_cons, List.length_cons, Nat.pow_succ]; ring
        · rintro ⟨g, hg, h1, h2, h3, h4⟩
          cases g with
          | nil => exact absurd hg CB.not_isGroup_nil
          | cons x xs =>
            simp only [List.cons_append, List.cons.injEq] at h2
            obtain ⟨rfl, h2⟩ := h2
            rcases (CB.isGroup_cons _ _).1 hg with ⟨h, _⟩ | ⟨_, h⟩
            · omega
            · refine ⟨xs, h, ?_, h2, ?_, h4⟩
              · simp only [List.length_cons] at h1; omega
              · rw [h3, CB.subValue_cons, List.length_cons, Nat.pow_succ]; ring

/-- A subidentifier that `parseBase128Int` accepts: at most five octets, value below 2^31, leading 0x80 octets
allowed. -/
def Group5 (n : Nat) (g : Bytes) : Prop := IsGroup g ∧ g.length ≤ 5 ∧ subValue g = n ∧ n < 2 ^ 31

/-- The contents octets that `parseObjectIdentifier` accepts. -/
def OIDContent (oid : List Nat) (c : Bytes) : Prop :=
  ValidOID oid ∧ ∃ gs : List Bytes, c = gs.flatten ∧ List.Forall₂ Group5 (subids oid) gs

theorem parseBase128Int_group {n : Nat} {g : Bytes} (h : Group5 n g) (rest : Bytes) :
    parseBase128Int 0 0 (g ++ rest) = .ok (n, rest) :=
  (parseBase128Int_iff _ _ _ _ _).2 ⟨g, h.1, .inl h.2.1, rfl, by rw [h.2.2.1]; omega, h.2.2.2⟩

theorem oidLoop_cons (fuel : Nat) (b : Byte) (bs : Bytes) : oidLoop (fuel + 1) (b :: bs) = (do
    let r ← parseBase128Int 0 0 (b :: bs)
    let l ← oidLoop fuel r.2
    .ok (r.1 :: l)) := rfl

theorem makeObjectIdentifier_cons (a b : Nat) (tl : List Nat) : makeObjectIdentifier (a :: b :: tl) =
    if a > 2 ∨ (a < 2 ∧ b ≥ 40) then .err "invalid object identifier"
    else .ok (makeBase128 (a * 40 + b) ++ tl.flatMap makeBase128) := rfl

theorem oidLoop_ok : ∀ (gs : List Bytes) (vs : List Nat) (fuel : Nat), List.Forall₂ Group5 vs gs →
    gs.flatten.length ≤ fuel → oidLoop fuel gs.flatten = .ok vs := by
  intro gs
  induction gs with
  | nil => intro vs fuel h _; cases h; unfold oidLoop; rfl
  | cons g gs ih =>
    intro vs fuel h hf
    cases h with
    | cons h1 h2 =>
      rename_i v vs
      have hg := CB.group_ne_nil h1.1
      simp only [List.flatten_cons, List.length_append] at hf ⊢
      cases fuel with
      | zero => omega
      | succ fuel =>
        cases g with
        | nil => simp at hg
        | cons x xs =>
          rw [List.cons_append, oidLoop_cons, ← List.cons_append, parseBase128Int_group h1]
          simp only [Res.ok_bind]
          rw [ih vs fuel h2 (by simp only [List.length_cons] at hf; omega)]
          rfl

theorem oidLoop_sound : ∀ (fuel : Nat) (bs : Bytes) (vs : List Nat), oidLoop fuel bs = .ok vs →
    ∃ gs, bs = gs.flatten ∧ List.Forall₂ Group5 vs gs := by
  intro fuel
  induction fuel with
  | zero =>
    intro bs vs h
    cases bs with
    | nil => simp [oidLoop] at h; subst h; exact ⟨[], rfl, .nil⟩
    | cons b bs => simp [oidLoop] at h
  | succ fuel ih =>
    intro bs vs h
    cases bs with
    | nil => simp [oidLoop] at h; subst h; exact ⟨[], rfl, .nil⟩
    | cons b bs =>
      rw [oidLoop_cons] at h
      simp only [Res.bind_eq_ok, Res.ok.injEq, Prod.exists] at h
      obtain ⟨v, r, h1, l, h2, rfl⟩ := h
      obtain ⟨g, hg, hl, e, hv, hlt⟩ := (parseBase128Int_iff _ _ _ _ _).1 h1
      obtain ⟨gs, rfl, hgs⟩ := ih _ _ h2
      exact ⟨g :: gs, by rw [e]; rfl, .cons ⟨hg, by omega, by omega, hlt⟩ hgs⟩

theorem parseObjectIdentifier_iff (c : Bytes) (oid : List Nat) :
    parseObjectIdentifier c = .ok oid ↔ OIDContent oid c := by
  unfold parseObjectIdentifier
  constructor
  · intro h
    split at h
    · simp at h
    · simp only [Res.bind_eq_ok, Prod.exists] at h
      obtain ⟨v, r, h1, l, h2, h3⟩ := h
      obtain ⟨g, hg, hl, e, hv, hlt⟩ := (parseBase128Int_iff _ _ _ _ _).1 h1
      obtain ⟨gs, rfl, hgs⟩ := oidLoop_sound _ _ _ h2
      have key := CB.firstComponents_valid v l
      have : oid = CB.firstComponents v ++ l := by
        unfold CB.firstComponents
        split at h3 <;> simp only [Res.ok.injEq] at h3
        · rename_i hh; rw [if_pos hh, ← h3]; rfl
        · rename_i hh; rw [if_neg hh, ← h3]; rfl
      subst this
      refine ⟨key.1, g :: gs, e, ?_⟩
      rw [key.2]
      exact .cons ⟨hg, by omega, by omega, hlt⟩ hgs
  · rintro ⟨hv, gs, rfl, hgs⟩
    obtain ⟨a, b, tl, rfl, hs⟩ := CB.subids_valid hv
    rw [hs] at hgs
    cases hgs with
    | cons h1 h2 =>
      rename_i g gs
      have hg := CB.group_ne_nil h1.1
      rw [if_neg (by simp only [List.flatten_cons, List.length_append]; omega)]
      rw [List.flatten_cons, parseBase128Int_group h1]
      simp only [Res.ok_bind]
      rw [oidLoop_ok gs tl _ h2 (by simp)]
      simp only [Res.ok_bind]
      have := CB.firstComponents_of_valid tl hv
      unfold CB.firstComponents at this
      split at this
      · rename_i hh; rw [if_pos hh]; simp at this; simp [this]
      · rename_i hh; rw [if_neg hh]; simp at this; simp [this]

/-! ### Writing -/

theorem base128Len_spec : ∀ (fuel i : Nat), i < 128 ^ fuel →
    base128Len fuel i ≤ fuel ∧ i < 128 ^ base128Len fuel i ∧ (base128Len fuel i = 0 ∨ 128 ^ (base128Len fuel i - 1) ≤ i) := by
  intro fuel
  induction fuel with
  | zero => intro i h; exact ⟨Nat.le_refl _, h, .inl rfl⟩
  | succ fuel ih =>
    intro i h
    unfold base128Len
    split
    · rename_i hi
      rw [Nat.shiftRight_eq_div_pow]
      obtain ⟨h1, h2, h3⟩ := ih (i / 2 ^ 7) (by
        rw [Nat.pow_succ] at h
        exact Nat.div_lt_of_lt_mul (by omega))
      generalize base128Len fuel (i / 2 ^ 7) = k at *
      refine ⟨by omega, ?_, .inr ?_⟩
      · rw [Nat.pow_succ]; omega
      · rw [Nat.add_sub_cancel]
        rcases h3 with rfl | h3
        · simp; omega
        · by_cases hk : k = 0
          · subst hk; simp; omega
          · have : 128 ^ k = 128 ^ (k - 1) * 128 := by rw [← Nat.pow_succ]; congr 1; omega
            rw [this]; omega
    · rename_i hi; exact ⟨by omega, by simp; omega, .inl rfl⟩

theorem septet (n i : Nat) : (BitVec.ofNat 8 (n >>> (i * 7)) &&& (0x7f : Byte)).toNat = n / 128 ^ i % 128 := by
  rw [CB.and_7f, BitVec.toNat_ofNat, Nat.shiftRight_eq_div_pow, show (128 : Nat) ^ i = 2 ^ (i * 7) by rw [Nat.mul_comm, Nat.pow_mul]]
  omega

theorem base128Bytes_spec (n : Nat) : ∀ L : Nat,
    (base128Bytes n L).length = L ∧ subValue (base128Bytes n L) = n % 128 ^ L ∧ (0 < L → IsGroup (base128Bytes n L)) := by
  intro L
  induction L with
  | zero => exact ⟨rfl, by simp [base128Bytes, Nat.mod_one], by omega⟩
  | succ i ih =>
    obtain ⟨h1, h2, h3⟩ := ih
    have hs := septet n i
    have hlt : n / 128 ^ i % 128 < 128 := Nat.mod_lt _ (by omega)
    have hv : ((BitVec.ofNat 8 (n >>> (i * 7)) &&& (0x7f : Byte)) ||| (if i ≠ 0 then 0x80 else 0)).toNat =
        (if i ≠ 0 then 128 else 0) + n / 128 ^ i % 128 := by
      split
      · rw [CB.or80 _ (by omega), hs]
      · rw [← hs]; simp
    unfold base128Bytes
    refine ⟨by simp [h1], ?_, fun _ => ?_⟩
    · rw [CB.subValue_cons, h1, h2, hv, Nat.pow_succ, Nat.mod_mul]
      have : ((if i ≠ 0 then 128 else 0) + n / 128 ^ i % 128) % 128 = n / 128 ^ i % 128 := by split <;> omega
      rw [this]; ring
    · rw [CB.isGroup_cons, hv]
      by_cases hi : i = 0
      · subst hi; left; exact ⟨by simpa using hlt, rfl⟩
      · right; rw [if_pos hi]; exact ⟨by omega, h3 (by omega)⟩

theorem makeBase128_group {n : Nat} (h : n < 2 ^ 31) : Group5 n (makeBase128 n) := by
  unfold makeBase128
  by_cases h0 : n = 0
  · subst h0
    rw [if_pos rfl]
    obtain ⟨h1, h2, h3⟩ := base128Bytes_spec 0 1
    exact ⟨h3 (by omega), by omega, by simpa using h2, by omega⟩
  · rw [if_neg h0]
    obtain ⟨h1, h2, h3⟩ := base128Len_spec 9 n (by omega)
    obtain ⟨g1, g2, g3⟩ := base128Bytes_spec n (base128Len 9 n)
    have hpos : 0 < base128Len 9 n := by
      rcases Nat.eq_zero_or_pos (base128Len 9 n) with h | h
      · rw [h] at h2; simp at h2; omega
      · exact h
    refine ⟨g3 hpos, ?_, by rw [g2, Nat.mod_eq_of_lt h2], h⟩
    rw [g1]
    by_contra hc
    rcases h3 with h3 | h3
    · omega
    · have : 128 ^ 5 ≤ 128 ^ (base128Len 9 n - 1) := Nat.pow_le_pow_right (by omega) (by omega)
      omega

/-- An OID whose subidentifiers fit 31 bits, as the parser wants them. -/
def OIDFits (oid : List Nat) : Prop := ∀ n ∈ subids oid, n < 2 ^ 31

instance (oid : List Nat) : Decidable (OIDFits oid) := inferInstanceAs (Decidable (∀ _ ∈ _, _))

theorem makeObjectIdentifier_content {oid : List Nat} {c : Bytes} (hf : OIDFits oid) (h : makeObjectIdentifier oid = .ok c) :
    OIDContent oid c := by
  match oid, h with
  | a :: b :: tl, h =>
    rw [makeObjectIdentifier_cons] at h
    split at h
    · simp at h
    · rename_i hv
      simp only [Res.ok.injEq] at h
      have hf' : ∀ n ∈ (40 * a + b) :: tl, n < 2 ^ 31 := hf
      refine ⟨⟨by omega, fun _ => by omega⟩, ((a * 40 + b) :: tl).map makeBase128, ?_, ?_⟩
      · rw [← h]; simp [List.flatMap_def]
      · have e : subids (a :: b :: tl) = (a * 40 + b) :: tl := by unfold subids; rw [Nat.mul_comm]
        rw [e, List.forall₂_map_right_iff, List.forall₂_same]
        intro n hn
        exact makeBase128_group (hf' n (by rw [Nat.mul_comm]; exact hn))

theorem makeObjectIdentifier_ok {oid : List Nat} (hv : ValidOID oid) : ∃ c, makeObjectIdentifier oid = .ok c := by
  obtain ⟨a, b, tl, rfl, _⟩ := CB.subids_valid hv
  rw [makeObjectIdentifier_cons, if_neg]
  · exact ⟨_, rfl⟩
  · obtain ⟨h1, h2⟩ := hv; rintro (h | ⟨h, h'⟩)
    · omega
    · have := h2 (by omega); omega

end Verif.Der
