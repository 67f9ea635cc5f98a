import Verif.Cert.LeafLemmas
/-!
# Domain labels, IP masks and mailboxes (C51, C52, C57)
-/
namespace Verif.Props
open Verif Verif.Cert Verif.Spec.Names

/-! ## C51 -/

/-- Everything the label splitter does: it accepts lists of labels joined by periods, the empty string (no labels), and
the same with one more period in front; the answer is the labels in reverse order. -/
theorem C51_exact (s : Bytes) (rev : List Bytes) :
    domainToReverseLabels s = some rev ↔
      (∀ l ∈ rev, Label l) ∧ (s = dotJoin rev.reverse ∨ (rev ≠ [] ∧ s = dot :: dotJoin rev.reverse)) := by
  rw [domainToReverseLabels_eq_some]
  constructor
  · rintro ⟨h, hl⟩
    have := (splitLabels_join s.length s (Nat.le_refl _)).2
    rw [h] at this
    exact ⟨hl, this⟩
  · rintro ⟨hl, rfl | ⟨hne, rfl⟩⟩
    · exact ⟨splitLabels_dotJoin rev hl _ (Nat.le_refl _), hl⟩
    · exact ⟨splitLabels_dot_dotJoin rev hl hne _ (by simp), hl⟩

/-- The claim for strings that neither are empty nor begin with a period: accepted are exactly the domain names, with
their labels in reverse order. Missing from the full claim: the two kinds of strings left out, see below. -/
theorem C51_domain_partial {s : Bytes} (hs : s ≠ []) (hd : s.head? ≠ some dot) (rev : List Bytes) :
    domainToReverseLabels s = some rev ↔ IsDomain s rev.reverse := by
  rw [C51_exact]
  constructor
  · rintro ⟨hl, rfl | ⟨_, rfl⟩⟩
    · refine ⟨?_, by simpa using hl, rfl⟩
      intro e; rw [e] at hs; exact hs rfl
    · simp at hd
  · rintro ⟨_, hl, rfl⟩
    exact ⟨by simpa using hl, .inl rfl⟩

/-- A name that begins with a period is accepted with the labels of the name without it, so joining the labels does not
give the name back; the empty string is accepted with no labels. -/
theorem C51_leading_dot_violated {s : Bytes} {labels : List Bytes} (h : IsDomain s labels) :
    domainToReverseLabels (dot :: s) = some labels.reverse ∧ domainToReverseLabels s = some labels.reverse ∧
      domainToReverseLabels [] = some [] := by
  obtain ⟨h1, h2, rfl⟩ := h
  refine ⟨(C51_exact _ _).2 ⟨by simpa using h2, .inr ⟨by simpa using h1, by simp⟩⟩,
    (C51_exact _ _).2 ⟨by simpa using h2, .inl (by simp)⟩, rfl⟩

/-- "a.bc". -/
example : domainToReverseLabels [0x61, 0x2e, 0x62, 0x63] = some [[0x62, 0x63], [0x61]] := by decide +kernel
/-- "a.bc." and "a..b" are refused. -/
example : domainToReverseLabels [0x61, 0x2e, 0x62, 0x63, 0x2e] = none ∧ domainToReverseLabels [0x61, 0x2e, 0x2e, 0x62] = none := by
  decide +kernel
example : IsDomain [0x61, 0x2e, 0x62, 0x63] [[0x61], [0x62, 0x63]] := by
  refine ⟨by simp, ?_, rfl⟩
  unfold Label; decide

/-! ## C52 -/

/-- A mask is accepted iff its bits are ones followed by zeros. -/
theorem C52_mask (mask : Bytes) : isValidIPMask mask = true ↔ Contiguous mask := by
  unfold isValidIPMask Contiguous
  rw [isValidIPMaskLoop_false, contig_iff]

/-- 255.255.252.0 is accepted, 255.0.255.0 is not. -/
example : isValidIPMask [0xff, 0xff, 0xfc, 0x00] = true ∧ isValidIPMask [0xff, 0, 0xff, 0] = false := by decide
example : Contiguous [0xff, 0xff, 0xfc, 0x00] := ⟨22, 10, by decide⟩

/-! ## C57 -/

/-- What the mailbox parser takes as domain: what the label splitter accepts. -/
def AcceptedDomain (d : Bytes) : Prop :=
  ∃ labels : List Bytes, (∀ l ∈ labels, Label l) ∧ (d = dotJoin labels ∨ (labels ≠ [] ∧ d = dot :: dotJoin labels))

theorem acceptedDomain_iff (d : Bytes) : AcceptedDomain d ↔ ∃ ls, domainToReverseLabels d = some ls := by
  constructor
  · rintro ⟨ls, h, h'⟩
    exact ⟨ls.reverse, (C51_exact _ _).2 ⟨by simpa using h, by simpa using h'⟩⟩
  · rintro ⟨ls, h⟩
    obtain ⟨h1, h2⟩ := (C51_exact _ _).1 h
    exact ⟨ls.reverse, by simpa using h1, by simpa using h2⟩

/-- The local part in the input: a quoted string, or atoms whose value is a dot-atom. -/
def LocalPart (src value : Bytes) : Prop :=
  (∃ q, src = 0x22 :: (q ++ [0x22]) ∧ Quoted q value) ∨ (Atoms src value ∧ DotAtom value)

theorem stops_at (d : Bytes) : Stops (0x40 :: d) := by
  rintro _ ⟨⟩
  rw [← atextOk_iff]
  decide

theorem atoms_head {src v : Bytes} (h : Atoms src v) : src.head? ≠ some 0x22 := by
  cases h with
  | nil => simp
  | char hc _ =>
    intro e; simp at e; subst e
    exact absurd ((atextOk_iff _).2 hc) (by decide)
  | pair _ => simp

/-- The parser's outcome in all cases. -/
theorem mailbox_cases (inp : Bytes) : parseRFC2821Mailbox inp = .ok none ∨
    ∃ src v d, inp = src ++ 0x40 :: d ∧ LocalPart src v ∧ AcceptedDomain d ∧ parseRFC2821Mailbox inp = .ok (some (v, d)) := by
  unfold parseRFC2821Mailbox
  match inp with
  | [] => left; rfl
  | c :: inp =>
    rw [if_neg (by simp), byteAt_zero]
    simp only [Res.ok_bind, List.drop_succ_cons, List.drop_zero]
    by_cases hc : c = 0x22
    · rw [if_pos hc]
      rcases quotedLoop_cases ((c :: inp).length + 1) inp [] (by simp; omega) with h | ⟨src, v, rest, rfl, hq, h⟩
      · left; rw [h]; rfl
      · rw [h]; simp only [Res.ok_bind, List.nil_append]
        rcases mailboxDomain_eq v rest with ⟨d, ls, rfl, hd, h'⟩ | ⟨_, h'⟩
        · right
          refine ⟨0x22 :: (src ++ [0x22]), v, d, by rw [hc]; simp, .inl ⟨src, rfl, hq⟩, (acceptedDomain_iff d).2 ⟨ls, hd⟩, h'⟩
        · left; exact h'
    · rw [if_neg hc]
      rcases atomLoop_cases ((c :: inp).length + 1) (c :: inp) [] (by simp) with h | ⟨src, v, rest, he, hq, _, h⟩
      · left; rw [h]; rfl
      · rw [h]; simp only [Res.ok_bind, List.nil_append]
        obtain ⟨g, hg, hgood⟩ := dotsOk_eq v
        rw [hg]; simp only [Res.ok_bind]
        cases g with
        | false => left; rfl
        | true =>
          rw [if_pos rfl]
          rcases mailboxDomain_eq v rest with ⟨d, ls, rfl, hd, h'⟩ | ⟨_, h'⟩
          · right
            exact ⟨src, v, d, he, .inr ⟨hq, (dotsGood_iff v).1 (hgood.1 rfl)⟩, (acceptedDomain_iff d).2 ⟨ls, hd⟩, h'⟩
          · left; exact h'

/-- The parser returns on every byte string: no index is out of range and no loop fails to end. -/
theorem C57_returns (inp : Bytes) : ∃ r, parseRFC2821Mailbox inp = .ok r := by
  rcases mailbox_cases inp with h | ⟨_, v, d, _, _, _, h⟩
  · exact ⟨_, h⟩
  · exact ⟨_, h⟩

/-- The language of the parser and its answer: a local part (quoted string or dot-atom, with escapes), an at sign and a
domain. -/
theorem C57_exact (inp v d : Bytes) :
    parseRFC2821Mailbox inp = .ok (some (v, d)) ↔ ∃ src, inp = src ++ 0x40 :: d ∧ LocalPart src v ∧ AcceptedDomain d := by
  constructor
  · intro h
    rcases mailbox_cases inp with h' | ⟨src, v', d', he, hl, hd, h'⟩
    · rw [h'] at h; simp at h
    · rw [h'] at h
      simp only [Res.ok.injEq, Option.some.injEq, Prod.mk.injEq] at h
      obtain ⟨rfl, rfl⟩ := h
      exact ⟨src, he, hl, hd⟩
  · rintro ⟨src, rfl, hl, hd⟩
    obtain ⟨ls, hls⟩ := (acceptedDomain_iff d).1 hd
    have hdom : ∀ l, mailboxDomain l (0x40 :: d) = .ok (some (l, d)) := by
      intro l
      rcases mailboxDomain_eq l (0x40 :: d) with ⟨d', _, he, _, h'⟩ | ⟨hn, _⟩
      · simp at he; rw [h', he]
      · exact absurd ⟨d, ls, rfl, hls⟩ hn
    unfold parseRFC2821Mailbox
    rcases hl with ⟨q, rfl, hq⟩ | ⟨ha, hdot⟩
    · rw [if_neg (by simp), List.cons_append, byteAt_zero]
      simp only [Res.ok_bind, List.drop_succ_cons, List.drop_zero, List.append_assoc, List.singleton_append]
      rw [if_pos trivial, quotedLoop_of hq _ [] _ (by simp; omega)]
      simp only [Res.ok_bind, List.nil_append, hdom]
    · match src, ha with
      | [], ha =>
        cases ha
        exact absurd rfl ((dotsGood_iff _).2 hdot).1
      | c :: src, ha =>
        have hc : c ≠ 0x22 := fun e => atoms_head ha (by simp [e])
        rw [if_neg (by simp)]
        have : byteAt (c :: src ++ 0x40 :: d) 0 = .ok c := rfl
        rw [this]
        simp only [Res.ok_bind]
        rw [if_neg hc, atomLoop_of ha _ [] _ (stops_at d) (by simp; omega)]
        obtain ⟨g, hg, hgood⟩ := dotsOk_eq v
        simp only [Res.ok_bind, List.nil_append, hg]
        rw [if_pos (hgood.2 ((dotsGood_iff v).2 hdot)), hdom]

theorem atoms_plain {l : Bytes} (h : ∀ c ∈ l, Atext c ∨ c = dot) : Atoms l l := by
  induction l with
  | nil => exact .nil
  | cons c l ih => rw [List.forall_mem_cons] at h; exact .char h.1 (ih h.2)

/-- The claim's plain mailboxes `local@domain`, for a local part without quote, backslash and at sign: accepted iff the
local part is a dot-atom of atext characters and the domain is accepted, and these two parts are the answer. -/
theorem C57_plain (l d : Bytes) (hl : ∀ c ∈ l, c ≠ 0x22 ∧ c ≠ 0x5c ∧ c ≠ 0x40) (r : Bytes × Bytes) :
    parseRFC2821Mailbox (l ++ 0x40 :: d) = .ok (some r) ↔
      (∃ atoms : List Bytes, atoms ≠ [] ∧ (∀ a ∈ atoms, a ≠ [] ∧ ∀ c ∈ a, Atext c ∧ c ≠ dot) ∧ l = dotJoin atoms) ∧
      AcceptedDomain d ∧ r = (l, d) := by
  have mem_join : ∀ (atoms : List Bytes) (P : Byte → Prop), (∀ c ∈ dotJoin atoms, P c) → ∀ a ∈ atoms, ∀ c ∈ a, P c := by
    intro atoms P
    induction atoms with
    | nil => simp
    | cons a atoms ih =>
      match atoms with
      | [] => intro h x hx; simp at hx; subst hx; exact h
      | z :: zs =>
        intro h x hx
        have e1 : dotJoin (a :: z :: zs) = a ++ dot :: dotJoin (z :: zs) := rfl
        rw [e1] at h
        simp only [List.mem_append, List.mem_cons] at h
        rw [List.mem_cons] at hx
        rcases hx with rfl | hx
        · exact fun c hc => h c (.inl hc)
        · exact ih (fun c hc => h c (.inr (.inr hc))) x hx
  have join_mem : ∀ (atoms : List Bytes), (∀ a ∈ atoms, ∀ c ∈ a, Atext c) → ∀ c ∈ dotJoin atoms, Atext c ∨ c = dot := by
    intro atoms
    induction atoms with
    | nil => simp [dotJoin]
    | cons a atoms ih =>
      match atoms with
      | [] => intro h c hc; exact .inl (h a (by simp) c hc)
      | z :: zs =>
        intro h c hc
        have e1 : dotJoin (a :: z :: zs) = a ++ dot :: dotJoin (z :: zs) := rfl
        rw [e1, List.mem_append, List.mem_cons] at hc
        rw [List.forall_mem_cons] at h
        rcases hc with hc | hc | hc
        · exact .inl (h.1 c hc)
        · exact .inr hc
        · exact ih h.2 c hc
  obtain ⟨v, d'⟩ := r
  rw [C57_exact]
  constructor
  · rintro ⟨src, he, hL, hd⟩
    rcases hL with ⟨q, rfl, _⟩ | ⟨ha, atoms, hne, hat, rfl⟩
    · exfalso
      match l with
      | [] => simp at he
      | x :: l => simp at he; exact (hl x (by simp)).1 he.1
    · -- the source has no at sign unless escaped, and the input has no backslash before its at sign
      have main : ∀ (l src v : Bytes), (∀ c ∈ l, c ≠ 0x22 ∧ c ≠ 0x5c ∧ c ≠ 0x40) → Atoms src v →
          l ++ 0x40 :: d = src ++ 0x40 :: d' → src = l ∧ d' = d ∧ v = l ∧ ∀ c ∈ l, Atext c ∨ c = dot := by
        intro l
        induction l with
        | nil =>
          intro src v _ ha h
          cases ha with
          | nil => simp at h; exact ⟨rfl, h.symm, rfl, by simp⟩
          | char hc _ =>
            simp at h; rw [← h.1] at hc
            exact absurd ((atextOk_iff _).2 hc) (by decide)
          | pair _ => simp at h
        | cons x l ih =>
          intro src v hx ha h
          cases ha with
          | nil => simp at h; exact absurd h.1 (hx x (by simp)).2.2
          | char hc ha =>
            simp only [List.cons_append, List.cons.injEq] at h
            obtain ⟨rfl, h⟩ := h
            obtain ⟨rfl, rfl, rfl, h4⟩ := ih _ _ (fun c hc => hx c (by simp [hc])) ha h
            exact ⟨rfl, rfl, rfl, by rw [List.forall_mem_cons]; exact ⟨hc, h4⟩⟩
          | pair _ => simp at h; exact absurd h.1 (hx x (by simp)).2.1
      obtain ⟨rfl, rfl, hv, hall⟩ := main l src _ hl ha he
      refine ⟨⟨atoms, hne, fun a ha' => ⟨(hat a ha').1, fun c hc => ?_⟩, hv.symm⟩, hd, by rw [hv]⟩
      rw [← hv] at hall
      have h1 := mem_join atoms _ hall a ha' c hc
      have h2 : c ≠ dot := fun e => (hat a ha').2 (e ▸ hc)
      exact ⟨h1.resolve_right h2, h2⟩
  · rintro ⟨⟨atoms, hne, hat, rfl⟩, hd, hr⟩
    simp only [Prod.mk.injEq] at hr
    obtain ⟨rfl, rfl⟩ := hr
    refine ⟨dotJoin atoms, rfl, .inr ⟨atoms_plain (join_mem atoms fun a ha c hc => ((hat a ha).2 c hc).1), atoms, hne,
      fun a ha => ⟨(hat a ha).1, fun h => ((hat a ha).2 _ h).2 rfl⟩, rfl⟩, hd⟩

/-- "a@" and "a@.b" are accepted although neither the empty string nor ".b" is a domain name. -/
theorem C57_bad_domain_violated :
    parseRFC2821Mailbox [0x61, 0x40] = .ok (some ([0x61], [])) ∧
    parseRFC2821Mailbox [0x61, 0x40, 0x2e, 0x62] = .ok (some ([0x61], [0x2e, 0x62])) ∧
    (∀ labels, ¬ IsDomain [] labels) ∧ ∀ labels, ¬ IsDomain [0x2e, 0x62] labels := by
  refine ⟨by decide +kernel, by decide +kernel, ?_, ?_⟩
  · rintro (_ | ⟨l, ls⟩) ⟨h1, h2, h3⟩
    · exact h1 rfl
    · have := (h2 l (by simp)).1
      cases ls <;> simp [dotJoin] at h3
      exact this h3
  · rintro (_ | ⟨l, ls⟩) ⟨h1, h2, h3⟩
    · exact h1 rfl
    · have hl := h2 l (by simp)
      match l, hl with
      | [], hl => exact hl.1 rfl
      | x :: l, hl =>
        have hx := (hl.2 x (by simp)).2.2
        cases ls <;> simp [dotJoin] at h3 <;> exact hx h3.1.symm

/-- "b.c@d", and "\"a b\"@d" with a quoted space. -/
example : parseRFC2821Mailbox [0x62, 0x2e, 0x63, 0x40, 0x64] = .ok (some ([0x62, 0x2e, 0x63], [0x64])) := by decide +kernel
example : parseRFC2821Mailbox [0x22, 0x61, 0x20, 0x62, 0x22, 0x40, 0x64] = .ok (some ([0x61, 0x20, 0x62], [0x64])) := by
  decide +kernel
/-- "b..c@d" is refused. -/
example : parseRFC2821Mailbox [0x62, 0x2e, 0x2e, 0x63, 0x40, 0x64] = .ok none := by decide +kernel

end Verif.Props
