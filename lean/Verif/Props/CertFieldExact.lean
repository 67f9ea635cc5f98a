import Verif.Props.CertLanguage
/-!
# Fields that may be absent: exactly what is read

An optional field of `encoding/asn1` is absent if nothing follows, or if a header with another identifier follows; a header that
cannot be read is an error even then.
-/
namespace Verif.Props
open Verif Verif.Der Verif.Cert Verif.Spec.DER Verif.Spec.Cert

variable {α : Type}

/-! ## Grammar -/

/-- Identifier and length octets, and what follows (not necessarily as much as the length says). -/
def Header (cls : ℕ) (constructed : Bool) (tag n : ℕ) (rest bs : Bytes) : Prop :=
  ∃ id, IsIdent cls constructed tag id ∧ id.length ≤ 6 ∧ tag < 2 ^ 31 ∧ n < 2 ^ 31 ∧ bs = id ++ lenOctets n ++ rest

/-- Some header with `rest` after it. -/
def SomeHeader (n : ℕ) (rest bs : Bytes) : Prop := ∃ cls constructed tag, Header cls constructed tag n rest bs

/-- An optional field with identifier octet `t`, then `rest`. -/
def MayBe (t : Byte) (P : α → Bytes → Prop) (absent v : α) (bs rest : Bytes) : Prop :=
  (∃ c, c.length < 2 ^ 31 ∧ bs = elem t c ++ rest ∧ P v c) ∨
  (v = absent ∧ rest = bs ∧ (bs = [] ∨ (∃ n r, SomeHeader n r bs) ∧ bs.head? ≠ some t))

/-- An optional field with identifier octet `t` (constructed) around an element with identifier octet `t'`, then `rest`. The length of
the outer element counts for nothing (it must not be zero); where another element comes inside, the field counts as absent and is read
as whatever comes next. -/
def MayBeAround (t t' : Byte) (P : α → Bytes → Prop) (absent v : α) (bs rest : Bytes) : Prop :=
  (∃ n c, 0 < n ∧ n < 2 ^ 31 ∧ c.length < 2 ^ 31 ∧ bs = t :: (lenOctets n ++ (elem t' c ++ rest)) ∧ P v c) ∨
  (v = absent ∧ rest = bs ∧ (bs = [] ∨
    (∃ n r, SomeHeader n r bs ∧ r ≠ [] ∧ bs.head? ≠ some t ∧ ¬ (n = 0 ∧ bs.head? = some (t - 0x20))) ∨
    (∃ n r m r', 0 < n ∧ n < 2 ^ 31 ∧ bs = t :: (lenOctets n ++ r) ∧ SomeHeader m r' r ∧ r.head? ≠ some t')))

/-! ## Lemmas -/

theorem header_iff {bs rest : Bytes} {t : TagAndLength} : parseTagAndLength bs = .ok (t, rest) ↔ Header t.cls t.isCompound t.tag t.length rest bs :=
  parseTagAndLength_exact _ _ _

theorem someHeader_iff {n : ℕ} {bs rest : Bytes} : SomeHeader n rest bs ↔ ∃ t, parseTagAndLength bs = .ok (t, rest) ∧ t.length = n := by
  constructor
  · rintro ⟨cls, cmp, tag, h⟩
    exact ⟨⟨cls, cmp, tag, n⟩, header_iff.2 h, rfl⟩
  · rintro ⟨t, h, rfl⟩
    exact ⟨_, _, _, header_iff.1 h⟩

theorem head_of_header {bs rest : Bytes} {t : TagAndLength} (ht : t.tag < 31) (h : parseTagAndLength bs = .ok (t, rest)) :
    bs.head? = some (idOctet t.cls t.tag t.isCompound) := by
  obtain ⟨_, _, h3⟩ := (parseTagAndLength_iff ht).1 h
  rw [h3]; rfl

theorem head_iff {bs rest : Bytes} {t : TagAndLength} {cls tag : ℕ} {cmp : Bool} (hc : cls < 4) (ht : tag < 31) (h : parseTagAndLength bs = .ok (t, rest)) :
    bs.head? = some (idOctet cls tag cmp) ↔ t.cls = cls ∧ t.isCompound = cmp ∧ t.tag = tag := by
  constructor
  · intro hb
    obtain ⟨a, b, c, _⟩ := header_of_head hc ht h hb
    exact ⟨a, b, c⟩
  · rintro ⟨rfl, rfl, rfl⟩
    exact head_of_header ht h

/-- Optional fields. -/
theorem parseField_mayBe {ty : Ty α} {p : Params} {bs rest : Bytes} {v : α}
    (hm : ty.matchAny = false) (hti : ty.isTime = false) (hx : p.explicit = false) (ho : p.optional = true) (ht : wireTag ty p < 31) :
    parseField ty p bs = .ok (v, rest) ↔ MayBe (idOctet (wireCls p) (wireTag ty p) ty.compound)
      (fun v c => ty.body ⟨wireCls p, ty.compound, wireTag ty p, c.length⟩ (univTag ty p) c (elem (idOctet (wireCls p) (wireTag ty p) ty.compound) c) = .ok v)
      (ty.absent p) v bs rest := by
  constructor
  · intro h
    rcases parseField_optional hm hti hx ho ht h with h1 | ⟨h1, h2, h3⟩
    · exact .inl h1
    · refine .inr ⟨h1, h2, ?_⟩
      by_cases hb : bs = []
      · exact .inl hb
      · unfold parseField at h
        rw [if_neg hb, Res.bind_eq_ok] at h
        obtain ⟨⟨t, r⟩, h4, _⟩ := h
        exact .inr ⟨⟨_, r, someHeader_iff.2 ⟨t, h4, rfl⟩⟩, h3⟩
  · rintro (⟨c, h1, rfl, h2⟩ | ⟨rfl, rfl, h⟩)
    · exact parseField_elem rest hm hti hx ht h1 h2
    · rcases h with rfl | ⟨⟨n, r, h1⟩, h2⟩
      · exact parseField_skip_nil ho
      · obtain ⟨t, h1', rfl⟩ := someHeader_iff.1 h1
        replace h1 := h1'
        have hne : rest ≠ [] := by rintro rfl; simp [parseTagAndLength] at h1
        rw [ne_eq, head_iff (wireCls_lt p) ht h1] at h2
        unfold parseField
        rw [if_neg hne, h1, Res.ok_bind, hx]
        simp only [Bool.false_eq_true, if_false]
        unfold parseInner
        unfold wireCls wireTag univTag at h2
        rw [hm, hti, hx]
        cases hp : p.tag with
        | none =>
          rw [hp] at h2
          simp only [Option.isSome_none, Bool.false_eq_true, if_false, Option.getD_none] at h2
          simp only [Bool.false_eq_true, false_and, if_false, true_and]
          rw [if_pos (by by_contra hh; simp only [not_or, not_not] at hh; exact h2 ⟨hh.1.1, hh.2, hh.1.2⟩), if_pos ho]
        | some k =>
          rw [hp] at h2
          simp only [Option.isSome_some, if_true, Option.getD_some] at h2
          simp only [Bool.false_eq_true, false_and, if_false, if_true, true_and]
          rw [if_pos (by by_contra hh; simp only [not_or, not_not] at hh; exact h2 ⟨hh.1.1, hh.2, hh.1.2⟩), if_pos ho]

theorem parseInner_explicit {ty : Ty α} {p : Params} {k : ℕ} {bs r : Bytes} {t : TagAndLength}
    (hm : ty.matchAny = false) (hti : ty.isTime = false) (hx : p.explicit = true) (ho : p.optional = true) (hk : p.tag = some k)
    (hs : p.set = false) : parseInner ty p bs t r = (if t.cls = 0 ∧ t.isCompound = ty.compound ∧ t.tag = ty.tag then
      if r.length < t.length then .err "data truncated" else do
        let v ← ty.body t ty.tag (r.take t.length) (bs.take (bs.length - (r.length - t.length)))
        .ok (v, r.drop t.length)
      else .ok (ty.absent p, bs)) := by
  unfold parseInner
  rw [hm, hti, hx, hk, hs]
  simp only [Bool.false_eq_true, false_and, if_false, true_and, reduceCtorEq]
  by_cases h : t.cls = 0 ∧ t.isCompound = ty.compound ∧ t.tag = ty.tag
  · rw [if_pos h, if_neg (by rw [h.1, h.2.1, h.2.2]; simp)]
  · rw [if_neg h, if_pos (by by_contra hh; simp only [not_or, not_not] at hh; exact h ⟨hh.1.1, hh.2, hh.1.2⟩), if_pos ho]

theorem hdr_of {k n : ℕ} {r bs : Bytes} (hk : k < 31) (hn : n < 2 ^ 31) (h : bs = idOctet 2 k true :: (lenOctets n ++ r)) :
    parseTagAndLength bs = .ok (⟨2, true, k, n⟩, r) :=
  (parseTagAndLength_iff (t := ⟨2, true, k, n⟩) hk).2 ⟨hn, show 2 < 4 by decide, h⟩

theorem idOctet_primitive {k : ℕ} (hk : k < 31) : idOctet 2 k true - 0x20 = idOctet 2 k false := by
  have : ∀ k < 31, idOctet 2 k true - 0x20 = idOctet 2 k false := by decide
  exact this k hk

/-- Optional fields around an element. The body does not look at the whole field. -/
theorem parseField_mayBeAround {ty : Ty α} {p : Params} {k : ℕ} {bs rest : Bytes} {v : α} {P : α → Bytes → Prop}
    (hm : ty.matchAny = false) (hti : ty.isTime = false) (hx : p.explicit = true) (ho : p.optional = true) (hk : p.tag = some k)
    (hk31 : k < 31) (hs : p.set = false) (ht : ty.tag < 31)
    (hP : ∀ v c full, c.length < 2 ^ 31 → (ty.body ⟨0, ty.compound, ty.tag, c.length⟩ ty.tag c full = .ok v ↔ P v c)) :
    parseField ty p bs = .ok (v, rest) ↔ MayBeAround (idOctet 2 k true) (idOctet 0 ty.tag ty.compound) P (ty.absent p) v bs rest := by
  by_cases hb : bs = []
  · subst hb
    rw [parseField_skip_nil ho]
    constructor
    · intro h
      simp only [Res.ok.injEq, Prod.mk.injEq] at h
      exact .inr ⟨h.1.symm, h.2.symm, .inl rfl⟩
    · rintro (⟨n, c, _, _, _, h, _⟩ | ⟨rfl, rfl, _⟩)
      · simp at h
      · rfl
  cases hh : parseTagAndLength bs with
  | ok tr =>
    obtain ⟨t, r⟩ := tr
    have e1 : parseField ty p bs = (if r = [] then .err "explicit tag has no child"
        else if t.cls = 2 ∧ t.tag = k ∧ (t.length = 0 ∨ t.isCompound = true) then
          if t.length > 0 then do
            let r' ← parseTagAndLength r
            parseInner ty p bs r'.1 r'.2
          else .err "zero length explicit tag was not an asn1.Flag"
        else .ok (ty.absent p, bs)) := by
      unfold parseField
      rw [if_neg hb, hh, Res.ok_bind, hx, if_pos rfl, hm, hk, if_pos ho]
      simp only [Option.some.injEq, Bool.false_eq_true, if_false]
      congr 1
      by_cases hc : t.cls = 2 ∧ t.tag = k ∧ (t.length = 0 ∨ t.isCompound = true)
      · rw [if_pos hc, if_pos ⟨hc.1, hc.2.1.symm, hc.2.2⟩]
      · rw [if_neg hc, if_neg fun h => hc ⟨h.1, h.2.1.symm, h.2.2⟩]
    rw [e1]
    have hhead := fun cmp => head_iff (cls := 2) (cmp := cmp) (by decide) hk31 hh
    by_cases hr : r = []
    · rw [if_pos hr]
      subst hr
      constructor
      · intro h; simp at h
      · rintro (⟨n, c, h1, h2, h3, h4, h5⟩ | ⟨rfl, rfl, h⟩)
        · have := hdr_of hk31 h2 h4
          rw [hh] at this
          simp only [Res.ok.injEq, Prod.mk.injEq] at this
          exact absurd this.2.symm (by simp [elem])
        · rcases h with h | ⟨n, r, h1, h2, _⟩ | ⟨n, r, m, r', h1, h2, h3, h4, h5⟩
          · exact absurd h hb
          · obtain ⟨t', h1', rfl⟩ := someHeader_iff.1 h1
            replace h1 := h1'
            rw [hh] at h1
            simp only [Res.ok.injEq, Prod.mk.injEq] at h1
            exact absurd h1.2.symm h2
          · have := hdr_of hk31 h2 h3
            rw [hh] at this
            simp only [Res.ok.injEq, Prod.mk.injEq] at this
            obtain ⟨t', h6, _⟩ := someHeader_iff.1 h4
            rw [← this.2] at h6
            simp [parseTagAndLength] at h6
    rw [if_neg hr]
    by_cases hc : t.cls = 2 ∧ t.tag = k ∧ (t.length = 0 ∨ t.isCompound = true)
    · rw [if_pos hc]
      by_cases hn : t.length > 0
      · rw [if_pos hn]
        have hcmp : t.isCompound = true := by rcases hc.2.2 with h | h <;> [omega; exact h]
        obtain ⟨g1, _, g3⟩ := (parseTagAndLength_iff (by rw [hc.2.1]; exact hk31)).1 hh
        rw [hc.1, hc.2.1, hcmp] at g3
        have ht1 := (hhead true).2 ⟨hc.1, hcmp, hc.2.1⟩
        -- what the alternatives say about the header
        have uniq : ∀ n r0, n < 2 ^ 31 → bs = idOctet 2 k true :: (lenOctets n ++ r0) → n = t.length ∧ r0 = r := by
          intro n r0 h1 h2
          have := hdr_of hk31 h1 h2
          rw [hh] at this
          simp only [Res.ok.injEq, Prod.mk.injEq] at this
          exact ⟨by rw [this.1], this.2.symm⟩
        rw [Res.bind_eq_ok]
        constructor
        · rintro ⟨⟨t', r'⟩, h1, h2⟩
          rw [parseInner_explicit hm hti hx ho hk hs] at h2
          dsimp only at h2
          rcases ite_ok h2 with ⟨hm', h2⟩ | ⟨hm', h2⟩
          · rcases ite_ok h2 with ⟨_, h2⟩ | ⟨hl, h2⟩
            · simp at h2
            · rw [Res.bind_eq_ok] at h2
              obtain ⟨w, h3, h4⟩ := h2
              simp only [Res.ok.injEq, Prod.mk.injEq] at h4
              obtain ⟨rfl, rfl⟩ := h4
              obtain ⟨c, rest', f1, f2, f3, f4, f5⟩ := header_cases (by rw [hm'.2.2]; exact ht) h1 (by omega)
              obtain ⟨cls, cmp, tag, len⟩ := t'
              dsimp only at *
              obtain ⟨rfl, rfl, rfl⟩ := hm'
              subst f1 f2
              rw [List.take_left' rfl] at h3
              rw [List.drop_left' rfl]
              exact .inl ⟨t.length, c, hn, g1, f4, by rw [g3, f5], (hP _ _ _ f4).1 h3⟩
          · simp only [Res.ok.injEq, Prod.mk.injEq] at h2
            refine .inr ⟨h2.1.symm, h2.2.symm, .inr (.inr ⟨t.length, r, t'.length, r', hn, g1, g3, someHeader_iff.2 ⟨t', h1, rfl⟩, ?_⟩)⟩
            rw [ne_eq, head_iff (by decide) ht h1]
            exact hm'
        · rintro (⟨n, c, h1, h2, h3, h4, h5⟩ | ⟨rfl, rfl, h⟩)
          · obtain ⟨rfl, h6⟩ := uniq _ _ h2 h4
            subst h6
            refine ⟨(⟨0, ty.compound, ty.tag, c.length⟩, c ++ rest), parseTagAndLength_elem rest (by decide) ht h3, ?_⟩
            rw [parseInner_explicit hm hti hx ho hk hs]
            dsimp only
            rw [if_pos ⟨rfl, rfl, rfl⟩, if_neg (by simp), List.take_left' rfl, List.drop_left' rfl, (hP _ _ _ h3).2 h5, Res.ok_bind]
          · rcases h with h | ⟨n, r, _, _, h, _⟩ | ⟨n, r0, m, r', h1, h2, h3, h4, h5⟩
            · exact absurd h hb
            · exact absurd ht1 h
            · obtain ⟨rfl, rfl⟩ := uniq _ _ h2 h3
              obtain ⟨t', h6, rfl⟩ := someHeader_iff.1 h4
              rw [ne_eq, head_iff (by decide) ht h6] at h5
              refine ⟨(t', r'), h6, ?_⟩
              rw [parseInner_explicit hm hti hx ho hk hs]
              dsimp only
              rw [if_neg h5]
      · rw [if_neg hn]
        constructor
        · intro h; simp at h
        · rintro (⟨n, c, h1, h2, h3, h4, h5⟩ | ⟨rfl, rfl, h⟩)
          · have := hdr_of hk31 h2 h4
            rw [hh] at this
            simp only [Res.ok.injEq, Prod.mk.injEq] at this
            rw [this.1] at hn
            exact absurd h1 hn
          · rcases h with h | ⟨n, r, h1, _, h2, h3⟩ | ⟨n, r, m, r', h1, h2, h3, h4, h5⟩
            · exact absurd h hb
            · obtain ⟨t', h1', rfl⟩ := someHeader_iff.1 h1
              replace h1 := h1'
              rw [hh] at h1
              simp only [Res.ok.injEq, Prod.mk.injEq] at h1
              rw [idOctet_primitive hk31] at h3
              rw [← h1.1] at h3
              exfalso
              cases hcm : t.isCompound with
              | true => exact h2 ((hhead true).2 ⟨hc.1, hcm, hc.2.1⟩)
              | false => exact h3 ⟨by omega, (hhead false).2 ⟨hc.1, hcm, hc.2.1⟩⟩
            · have := hdr_of hk31 h2 h3
              rw [hh] at this
              simp only [Res.ok.injEq, Prod.mk.injEq] at this
              rw [this.1] at hn
              exact absurd h1 hn
    · rw [if_neg hc]
      constructor
      · intro h
        simp only [Res.ok.injEq, Prod.mk.injEq] at h
        refine .inr ⟨h.1.symm, h.2.symm, .inr (.inl ⟨t.length, r, someHeader_iff.2 ⟨t, hh, rfl⟩, hr, ?_, ?_⟩)⟩
        · intro hx
          obtain ⟨a, b, c⟩ := (hhead true).1 hx
          exact hc ⟨a, c, .inr b⟩
        · rintro ⟨h0, hx⟩
          rw [idOctet_primitive hk31] at hx
          obtain ⟨a, b, c⟩ := (hhead false).1 hx
          exact hc ⟨a, c, .inl h0⟩
      · rintro (⟨n, c, h1, h2, h3, h4, h5⟩ | ⟨rfl, rfl, h⟩)
        · exfalso
          have := hdr_of hk31 h2 h4
          rw [hh] at this
          simp only [Res.ok.injEq, Prod.mk.injEq] at this
          exact hc (by rw [this.1]; exact ⟨rfl, rfl, .inr rfl⟩)
        · rfl
  | err m =>
    have e1 : parseField ty p bs = .err m := by
      unfold parseField
      rw [if_neg hb, hh]
      rfl
    rw [e1]
    constructor
    · intro h; simp at h
    · have bad : ∀ t r, parseTagAndLength bs ≠ .ok (t, r) := by intro t r; rw [hh]; simp
      rintro (⟨n, c, h1, h2, h3, h4, h5⟩ | ⟨rfl, rfl, h⟩)
      · exact absurd (hdr_of hk31 h2 h4) (bad _ _)
      · rcases h with h | ⟨n, r, h1, _⟩ | ⟨n, r, m, r', h1, h2, h3, h4, h5⟩
        · exact absurd h hb
        · obtain ⟨t', h1', rfl⟩ := someHeader_iff.1 h1
          replace h1 := h1'
          exact absurd h1 (bad _ _)
        · exact absurd (hdr_of hk31 h2 h3) (bad _ _)
  | panic => have := parseTagAndLength_returned bs; rw [hh] at this; simp [Res.returned] at this
  | loop => have := parseTagAndLength_returned bs; rw [hh] at this; simp [Res.returned] at this

/-- Lists of elements with a fixed identifier octet. -/
theorem parseSequenceOf_exact {ty : Ty α} (hm : ty.matchAny = false) (hti : ty.isTime = false) (ht : ty.tag < 31) (hseq : seqTag ty.tag = ty.tag)
    {P : α → Bytes → Prop} (hP : ∀ v c full, c.length < 2 ^ 31 → (ty.body ⟨0, ty.compound, ty.tag, c.length⟩ ty.tag c full = .ok v ↔ P v c))
    {bs : Bytes} {vs : List α} (hl : bs.length < 2 ^ 31) : parseSequenceOf ty bs = .ok vs ↔
      ∃ cs : List Bytes, bs = cs.flatMap (elem (idOctet 0 ty.tag ty.compound)) ∧ List.Forall₂ P vs cs := by
  constructor
  · intro h
    obtain ⟨ws, rfl, h'⟩ := parseSequenceOf_sound hm hti ht h
    have hw : ∀ w ∈ ws, w.length < 2 ^ 31 := fun w hw => by have := length_le_flatten hw; omega
    clear hl h
    induction h' with
    | nil => exact ⟨[], rfl, .nil⟩
    | @cons v w vs ws h _ ih =>
      obtain ⟨c, rfl, h⟩ := h
      obtain ⟨cs, e, h2⟩ := ih fun x hx => hw x (by simp [hx])
      have l1 := hw _ (List.mem_cons_self)
      have l2 := length_le_elem (idOctet 0 ty.tag ty.compound) c
      exact ⟨c :: cs, by rw [List.flatten_cons, e, List.flatMap_cons], .cons ((hP _ _ _ (by omega)).1 h) h2⟩
  · rintro ⟨cs, rfl, h⟩
    rw [List.flatMap_def]
    apply parseSequenceOf_ok
    rw [List.forall₂_map_left_iff]
    have hw : ∀ c ∈ cs, c.length < 2 ^ 31 := fun c hc => by
      have := length_le_flatten (List.mem_map_of_mem (f := elem (idOctet 0 ty.tag ty.compound)) hc)
      have := length_le_elem (idOctet 0 ty.tag ty.compound) c
      rw [List.flatMap_def] at hl
      omega
    clear hl
    induction h with
    | nil => exact .nil
    | @cons v c vs cs h _ ih =>
      refine .cons ?_ (ih fun x hx => hw x (by simp [hx]))
      have l1 := hw _ (List.mem_cons_self)
      refine ⟨⟨0, ty.tag, ty.compound, ⟨_, l1, rfl⟩, by decide, ht, .inr ⟨rfl, rfl, hseq⟩⟩, ?_⟩
      intro rest
      exact parseField_elem (p := {}) rest hm hti rfl ht l1 ((hP _ _ _ l1).2 h)

/-- The whole of a value. -/
theorem unmarshalAll_iff {ty : Ty α} {bs : Bytes} {v : α} : unmarshalAll ty bs = .ok v ↔ parseField ty {} bs = .ok (v, []) := by
  unfold unmarshalAll unmarshal
  rw [Res.bind_eq_ok]
  constructor
  · rintro ⟨⟨w, r⟩, h1, h2⟩
    rcases ite_ok h2 with ⟨_, h2⟩ | ⟨h3, h2⟩
    · simp at h2
    · simp only [Res.ok.injEq] at h2
      subst h2
      have : r = [] := List.length_eq_zero_iff.1 (by simpa using h3)
      rw [h1, this]
  · intro h
    exact ⟨(v, []), h, rfl⟩

end Verif.Props
