import Verif.Cert.TlvLemmas
/-!
# What optional, explicit and repeated fields are read from
-/
namespace Verif.Cert
open Verif Verif.Der Verif.Spec.DER Verif.Spec.Cert

variable {α : Type}

theorem idOctet_isIdent {cls tag : Nat} {cmp : Bool} (hc : cls < 4) (ht : tag < 31) : IsIdent cls cmp tag [idOctet cls tag cmp] :=
  ident_low hc ht

/-- The identifier octet determines what the header says. -/
theorem header_of_head {bs rest : Bytes} {t : TagAndLength} {cls tag : Nat} {cmp : Bool} (hc : cls < 4) (ht : tag < 31)
    (h : parseTagAndLength bs = .ok (t, rest)) (hb : bs.head? = some (idOctet cls tag cmp)) :
    t.cls = cls ∧ t.isCompound = cmp ∧ t.tag = tag ∧ t.length < 2 ^ 31 ∧ bs = idOctet cls tag cmp :: (lenOctets t.length ++ rest) := by
  obtain ⟨h1, id, h2, h3⟩ := parseTagAndLength_sound h
  cases bs with
  | nil => simp at hb
  | cons b bs =>
    simp only [List.head?_cons, Option.some.injEq] at hb
    subst hb
    rw [List.append_assoc] at h3
    obtain ⟨a, b, c, d⟩ := ident_append_inj (idOctet_isIdent hc ht) h2 (show [idOctet cls tag cmp] ++ bs = _ from h3)
    exact ⟨a.symm, b.symm, c.symm, h1, by rw [d]⟩

/-- An optional field without explicit tag is either an element with the expected identifier, or absent: then the next
octet is another one. -/
theorem parseField_optional {ty : Ty α} {p : Params} {bs rest : Bytes} {v : α}
    (hm : ty.matchAny = false) (hti : ty.isTime = false) (hx : p.explicit = false) (ho : p.optional = true)
    (ht : wireTag ty p < 31) (h : parseField ty p bs = .ok (v, rest)) :
    (∃ c, c.length < 2 ^ 31 ∧ bs = elem (idOctet (wireCls p) (wireTag ty p) ty.compound) c ++ rest ∧
      ty.body ⟨wireCls p, ty.compound, wireTag ty p, c.length⟩ (univTag ty p) c
        (elem (idOctet (wireCls p) (wireTag ty p) ty.compound) c) = .ok v) ∨
    (v = ty.absent p ∧ rest = bs ∧ bs.head? ≠ some (idOctet (wireCls p) (wireTag ty p) ty.compound)) := by
  by_cases hb : bs.head? = some (idOctet (wireCls p) (wireTag ty p) ty.compound)
  · left
    have hne : bs ≠ [] := by rintro rfl; simp at hb
    unfold parseField at h
    rw [if_neg hne, Res.bind_eq_ok] at h
    obtain ⟨⟨t, r⟩, h1, h2⟩ := h
    rw [hx] at h2
    simp only [Bool.false_eq_true, if_false] at h2
    obtain ⟨e1, e2, e3, e4, e5⟩ := header_of_head (wireCls_lt p) ht h1 hb
    have hl : t.length ≤ r.length := by
      by_contra hl
      have : parseInner ty p bs t r = .err "data truncated" := by
        unfold parseInner
        dsimp only
        rw [hm, hti, hx, e1, e2, e3]
        unfold wireCls wireTag univTag
        cases hp : p.tag with
        | none =>
          simp only [Bool.false_eq_true, false_and, if_false, Option.getD_none, Option.isSome_none, ne_eq, not_true_eq_false,
            or_self, and_false]
          rw [if_pos (by omega)]
        | some k =>
          simp only [if_true, Bool.false_eq_true, false_and, if_false, Option.getD_some, Option.isSome_some, ne_eq, not_true_eq_false,
            or_self, and_false]
          rw [if_pos (by omega)]
      rw [this] at h2
      simp at h2
    obtain ⟨c, rest', f1, f2, f3, f4, f5⟩ := header_cases (by rw [e3]; exact ht) h1 hl
    obtain ⟨cls, cmp, tag, len⟩ := t
    dsimp only at *
    subst f1 f2 e1 e2 e3
    rw [parseInner_elem _ _ hm hti hx, if_pos ⟨rfl, rfl, rfl⟩, Res.bind_eq_ok] at h2
    obtain ⟨w, h3, h4⟩ := h2
    simp only [Res.ok.injEq, Prod.mk.injEq] at h4
    obtain ⟨rfl, rfl⟩ := h4
    refine ⟨c, f4, f5, ?_⟩
    rw [f5, take_elem] at h3
    exact h3
  · right
    unfold parseField at h
    split at h
    · simp only [Res.ok.injEq, Prod.mk.injEq] at h
      exact ⟨h.1.symm, h.2.symm, hb⟩
    · rename_i hne
      rw [Res.bind_eq_ok] at h
      obtain ⟨⟨t, r⟩, h1, h2⟩ := h
      rw [hx] at h2
      simp only [Bool.false_eq_true, if_false] at h2
      have hmis : ¬ (t.cls = wireCls p ∧ t.tag = wireTag ty p ∧ t.isCompound = ty.compound) := by
        rintro ⟨a, b, c⟩
        apply hb
        obtain ⟨h3, id, h4, h5⟩ := parseTagAndLength_sound h1
        rcases h4.2 with ⟨_, rfl⟩ | ⟨hh, _⟩
        · rw [h5, a, b, c]; rfl
        · omega
      unfold parseInner at h2
      dsimp only at h2
      rw [hm, hti, hx] at h2
      unfold wireCls wireTag univTag at hmis
      cases hp : p.tag with
      | none =>
        rw [hp] at hmis h2
        simp only [Bool.false_eq_true, false_and, if_false, Option.getD_none, Option.isSome_none, true_and] at hmis h2
        rw [if_pos, if_pos ho] at h2
        · simp only [Res.ok.injEq, Prod.mk.injEq] at h2
          exact ⟨h2.1.symm, h2.2.symm, hb⟩
        · by_contra hh
          simp only [ne_eq, not_or, not_not] at hh
          exact hmis ⟨hh.1.1, hh.1.2, hh.2⟩
      | some k =>
        rw [hp] at hmis h2
        simp only [if_true, Bool.false_eq_true, false_and, if_false, Option.getD_some, Option.isSome_some, true_and] at hmis h2
        rw [if_pos, if_pos ho] at h2
        · simp only [Res.ok.injEq, Prod.mk.injEq] at h2
          exact ⟨h2.1.symm, h2.2.symm, hb⟩
        · by_contra hh
          simp only [ne_eq, not_or, not_not] at hh
          exact hmis ⟨hh.1.1, hh.1.2, hh.2⟩

/-- An optional field with explicit tag: an inner element after a header whose length is not compared with anything, or
absent; then either the next octet is not the explicit tag, or what follows that header is not the inner element. -/
theorem parseField_optional_explicit {ty : Ty α} {p : Params} {k : Nat} {bs rest : Bytes} {v : α}
    (hm : ty.matchAny = false) (hti : ty.isTime = false) (hx : p.explicit = true) (ho : p.optional = true) (hk : p.tag = some k)
    (hk31 : k < 31) (hs : p.set = false) (ht : ty.tag < 31) (h : parseField ty p bs = .ok (v, rest)) :
    (∃ n c full, 0 < n ∧ n < 2 ^ 31 ∧ c.length < 2 ^ 31 ∧
      bs = idOctet 2 k true :: (lenOctets n ++ (elem (idOctet 0 ty.tag ty.compound) c ++ rest)) ∧
      ty.body ⟨0, ty.compound, ty.tag, c.length⟩ ty.tag c full = .ok v) ∨
    (v = ty.absent p ∧ rest = bs ∧ ∀ n r, n < 2 ^ 31 → bs ≠ idOctet 2 k true :: (lenOctets n ++ idOctet 0 ty.tag ty.compound :: r)) := by
  unfold parseField at h
  split at h
  · rename_i hb
    simp only [Res.ok.injEq, Prod.mk.injEq] at h
    exact .inr ⟨h.1.symm, h.2.symm, by intro n r _; rw [hb]; simp⟩
  · rw [Res.bind_eq_ok] at h
    obtain ⟨⟨t, r⟩, h1, h2⟩ := h
    dsimp only at h2
    split at h2
    · simp at h2
    rename_i hr
    obtain ⟨g1, id, g2, g3⟩ := parseTagAndLength_sound h1
    split at h2
    · rename_i hcond
      obtain ⟨c1, c2, c3⟩ := hcond
      rw [hk] at c2
      simp only [Option.some.injEq] at c2
      rw [hm] at h2
      simp only [Bool.false_eq_true, if_false] at h2
      split at h2
      · rename_i hpos
        have hcmp : t.isCompound = true := by rcases c3 with h | h; · omega
                                              · exact h
        have hid : bs = idOctet 2 k true :: (lenOctets t.length ++ r) := by
          rcases g2.2 with ⟨_, rfl⟩ | ⟨hh, _⟩
          · rw [g3, c1, ← c2, hcmp]; rfl
          · omega
        rw [Res.bind_eq_ok] at h2
        obtain ⟨⟨t', r'⟩, h3, h4⟩ := h2
        dsimp only at h4
        unfold parseInner at h4
        dsimp only at h4
        rw [hti, hs, hk, hx, hm] at h4
        simp only [Bool.false_eq_true, Bool.true_eq_false, false_and, if_false, true_and] at h4
        by_cases hmis : (t'.cls ≠ 0 ∨ t'.tag ≠ ty.tag) ∨ t'.isCompound ≠ ty.compound
        · rw [if_pos hmis, if_pos ho] at h4
          simp only [Res.ok.injEq, Prod.mk.injEq] at h4
          refine .inr ⟨h4.1.symm, h4.2.symm, ?_⟩
          intro n x hn he
          rw [hid] at he
          simp only [List.cons.injEq, true_and] at he
          obtain ⟨_, e2⟩ := CB.lenOctets_append_inj (CB.byteLen_lt_127 (by omega)) (CB.byteLen_lt_127 (by omega)) he
          obtain ⟨a, b, c, _⟩ := header_of_head (cls := 0) (tag := ty.tag) (cmp := ty.compound) (by omega) ht h3 (by rw [e2]; rfl)
          rcases hmis with (hh | hh) | hh <;> contradiction
        · rw [if_neg hmis] at h4
          simp only [ne_eq, not_or, not_not] at hmis
          split at h4
          · simp at h4
          rename_i hl
          rw [Res.bind_eq_ok] at h4
          obtain ⟨w, h5, h6⟩ := h4
          simp only [Res.ok.injEq, Prod.mk.injEq] at h6
          obtain ⟨rfl, rfl⟩ := h6
          obtain ⟨c, rest', f1, f2, f3, f4, f5⟩ := header_cases (by rw [hmis.1.2]; exact ht) h3 (by omega)
          subst f1
          left
          rw [← f2, List.take_left' rfl] at h5
          refine ⟨t.length, c, List.take (bs.length - ((c ++ rest').length - c.length)) bs, hpos, g1, f4, ?_, ?_⟩
          · rw [hid, f5, ← f2, List.drop_left' rfl, hmis.1.1, hmis.1.2, hmis.2]
          · obtain ⟨cls', cmp', tag', len'⟩ := t'
            dsimp only at hmis f2
            obtain ⟨⟨rfl, rfl⟩, rfl⟩ := hmis
            subst f2
            exact h5
      · simp at h2
    · rename_i hcond
      simp only [Res.ok.injEq, Prod.mk.injEq] at h2
      refine .inr ⟨h2.1.symm, h2.2.symm, ?_⟩
      intro n x hn he
      obtain ⟨a, b, c, _, e⟩ := header_of_head (cls := 2) (tag := k) (cmp := true) (by omega) hk31 h1 (by rw [he]; rfl)
      exact hcond ⟨a, by rw [hk, c], .inr b⟩

/-- A repeated field is a sequence of elements and nothing else. -/
theorem parseSequenceOf_sound {ty : Ty α} (hm : ty.matchAny = false) (hti : ty.isTime = false) (ht : ty.tag < 31)
    {bs : Bytes} {vs : List α} (h : parseSequenceOf ty bs = .ok vs) :
    ∃ ws : List Bytes, bs = ws.flatten ∧ List.Forall₂ (fun v w => ∃ c, w = elem (idOctet 0 ty.tag ty.compound) c ∧
      ty.body ⟨0, ty.compound, ty.tag, c.length⟩ ty.tag c w = .ok v) vs ws := by
  have key : ∀ (fuel : Nat) (bs : Bytes) (n : Nat) (vs : List α), countElems ty fuel bs = .ok n → parseElems ty n bs = .ok vs →
      ∃ ws : List Bytes, bs = ws.flatten ∧ List.Forall₂ (fun v w => ∃ c, w = elem (idOctet 0 ty.tag ty.compound) c ∧
        ty.body ⟨0, ty.compound, ty.tag, c.length⟩ ty.tag c w = .ok v) vs ws := by
    intro fuel
    induction fuel with
    | zero =>
      intro bs n vs h1 h2
      cases bs with
      | nil =>
        simp only [countElems, Res.ok.injEq] at h1
        subst h1
        simp only [parseElems, Res.ok.injEq] at h2
        subst h2
        exact ⟨[], rfl, .nil⟩
      | cons b bs => simp [countElems] at h1
    | succ fuel ih =>
      intro bs n vs h1 h2
      cases bs with
      | nil =>
        simp only [countElems, Res.ok.injEq] at h1
        subst h1
        simp only [parseElems, Res.ok.injEq] at h2
        subst h2
        exact ⟨[], rfl, .nil⟩
      | cons b bs =>
        rw [countElems_cons, Res.bind_eq_ok] at h1
        obtain ⟨⟨t, r⟩, g1, g2⟩ := h1
        dsimp only at g2
        split at g2
        · simp at g2
        split at g2
        · simp at g2
        rw [Res.bind_eq_ok] at g2
        obtain ⟨m, g3, g4⟩ := g2
        simp only [Res.ok.injEq] at g4
        subst g4
        rw [parseElems, Res.bind_eq_ok] at h2
        obtain ⟨⟨v, rest⟩, k1, k2⟩ := h2
        rw [Res.bind_eq_ok] at k2
        obtain ⟨l, k2, k3⟩ := k2
        simp only [Res.ok.injEq] at k3
        subst k3
        obtain ⟨c, e1, e2, e3⟩ := (parseField_iff (p := {}) hm hti rfl rfl (by exact ht)).1 k1
        have e2' : b :: bs = elem (idOctet 0 ty.tag ty.compound) c ++ rest := e2
        rw [e2', parseTagAndLength_elem rest (by omega) ht e1] at g1
        simp only [Res.ok.injEq, Prod.mk.injEq] at g1
        obtain ⟨rfl, rfl⟩ := g1
        dsimp only at g3
        rw [List.drop_left' rfl] at g3
        obtain ⟨ws, w1, w2⟩ := ih rest m l g3 k2
        refine ⟨elem (idOctet 0 ty.tag ty.compound) c :: ws, by rw [e2', w1]; rfl, .cons ⟨c, rfl, e3⟩ w2⟩
  unfold parseSequenceOf at h
  rw [Res.bind_eq_ok] at h
  obtain ⟨n, h1, h2⟩ := h
  exact key _ _ _ _ h1 h2

end Verif.Cert
