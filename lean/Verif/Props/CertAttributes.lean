import Verif.Props.CertLanguage
import Verif.Props.CertFieldExact
/-!
# C152: the attributes of a request

A parsed request has a field `Attributes`. Property C152: every attribute of the request is in it, in order, with its type and
with all its values. This holds for the attributes whose values are sequences of sequences that begin with an object identifier
(`ReadAttrSet`); all others are left out without an error (`C152_exact_partial` says exactly which ones are kept and as what), and
of the values that are kept a part can be missing.
-/
namespace Verif.Props
open Verif Verif.Der Verif.Cert Verif.Spec.DER Verif.Spec.Cert

variable {U : Type}

/-! ## Grammar -/

/-- The contents octets of a pair: a type, one element of any kind, more octets. -/
def ReadPair (a : ATV) (c : Bytes) : Prop :=
  ∃ oc v cls cmp tag vc more, ReadOID a.type oc ∧ ReadTLV cls cmp tag vc v ∧ ValueOf a.value cls cmp tag vc ∧ c = elem 0x06 oc ++ (v ++ more)

/-- The contents octets of a list of pairs. -/
def ReadPairs (l : List ATV) (c : Bytes) : Prop := ∃ cs : List Bytes, c = cs.flatMap (elem 0x30) ∧ List.Forall₂ ReadPair l cs

/-- An attribute whose values are lists of pairs: its type, the SET of its values, more octets. -/
def ReadAttrSet (a : ATVSET) (w : Bytes) : Prop :=
  ∃ (oc : Bytes) (vs : List Bytes) (more : Bytes), ReadOID a.type oc ∧ List.Forall₂ ReadPairs a.value vs ∧
    w = elem 0x30 (elem 0x06 oc ++ (elem 0x31 (vs.flatMap (elem 0x30)) ++ more))

/-- What is kept of an attribute: one entry if it has this form, nothing otherwise. -/
def KeptAttribute (w : Bytes) (p : List ATVSET) : Prop := (∃ a, ReadAttrSet a w ∧ p = [a]) ∨ ((¬ ∃ a, ReadAttrSet a w) ∧ p = [])

/-! ## Lemmas -/

theorem pair_exact {a : ATV} {c full : Bytes} (hl : c.length < 2 ^ 31) :
    tyATV.body ⟨0, tyATV.compound, tyATV.tag, c.length⟩ tyATV.tag c full = .ok a ↔ ReadPair a c := by
  show (do let x ← parseField tyOID {} c; let y ← parseAny x.2; Res.ok (⟨x.1, y.1⟩ : ATV)) = .ok a ↔ _
  simp only [Res.bind_eq_ok, Res.ok.injEq]
  constructor
  · rintro ⟨⟨o, c1⟩, g1, ⟨v, c2⟩, g2, rfl⟩
    obtain ⟨oc, _, rfl, g3⟩ := parseField_oid_exact.1 g1
    obtain ⟨e, cls, cmp, tag, vc, g4, g5, g6⟩ := (parseAny_exact _ _ _).1 g2
    dsimp only at g4
    exact ⟨oc, e, cls, cmp, tag, vc, c2, g3, g5, g6, by rw [g4]⟩
  · rintro ⟨oc, v, cls, cmp, tag, vc, more, g3, g5, g6, rfl⟩
    have l := length_le_elem 0x06 oc
    rw [List.length_append] at hl
    exact ⟨(a.type, v ++ more), parseField_oid_exact.2 ⟨oc, by omega, rfl, g3⟩, (a.value, more),
      (parseAny_exact _ _ _).2 ⟨v, cls, cmp, tag, vc, rfl, g5, g6⟩, rfl⟩

theorem pairs_exact {l : List ATV} {c full : Bytes} (hl : c.length < 2 ^ 31) :
    (tySlice false tyATV).body ⟨0, (tySlice false tyATV).compound, (tySlice false tyATV).tag, c.length⟩ (tySlice false tyATV).tag c full = .ok l ↔
      ReadPairs l c :=
  parseSequenceOf_exact (ty := tyATV) rfl rfl (by decide) (by decide) (fun _ _ _ h => pair_exact h) hl

theorem attrSet_iff {a : ATVSET} {w : Bytes} (hl : w.length < 2 ^ 31) : unmarshal tyATVSET w = .ok (a, []) ↔ ReadAttrSet a w := by
  constructor
  · intro h
    obtain ⟨c, hc, hb, g⟩ := parseField_struct h
    simp only [Res.bind_eq_ok] at g
    obtain ⟨⟨o, q1⟩, g1, ⟨ws, q2⟩, g2, g3⟩ := g
    simp only [Res.ok.injEq] at g3
    subst g3
    dsimp only at g2
    obtain ⟨oc, _, rfl, ho⟩ := parseField_oid_exact.1 g1
    obtain ⟨c2, hc2, hv, hvb⟩ := (parseField_iff (p := { set := true }) rfl rfl rfl rfl (by decide)).1 g2
    obtain ⟨vs, rfl, h5⟩ := (parseSequenceOf_exact (ty := tySlice false tyATV) rfl rfl (by decide) (by decide) (fun _ _ _ h => pairs_exact h) hc2).1 hvb
    refine ⟨oc, vs, q2, ho, h5, ?_⟩
    rw [hb, List.append_nil, hv]
    rfl
  · rintro ⟨oc, vs, more, h1, h2, rfl⟩
    have l0 := length_le_elem 0x30 (elem 0x06 oc ++ (elem 0x31 (vs.flatMap (elem 0x30)) ++ more))
    have l1 := length_le_elem 0x31 (vs.flatMap (elem 0x30))
    have l2 := length_le_elem 0x06 oc
    have l3 := l0
    rw [List.length_append, List.length_append] at l3
    have k1 : parseField tyOID {} (elem 0x06 oc ++ (elem 0x31 (vs.flatMap (elem 0x30)) ++ more)) = .ok (a.type, _) :=
      parseField_oid_exact.2 ⟨oc, by omega, rfl, h1⟩
    have k2 : parseField (tySlice false (tySlice false tyATV)) { set := true } (elem 0x31 (vs.flatMap (elem 0x30)) ++ more) = .ok (a.value, more) :=
      parseField_elem (ty := tySlice false (tySlice false tyATV)) (p := { set := true }) more rfl rfl rfl (by decide) (by omega)
        ((parseSequenceOf_exact (ty := tySlice false tyATV) rfl rfl (by decide) (by decide) (fun _ _ _ h => pairs_exact h) (by omega)).2 ⟨vs, rfl, h2⟩)
    have := parseField_elem (ty := tyATVSET) (p := {}) (v := a) [] rfl rfl rfl (by decide)
      (c := elem 0x06 oc ++ (elem 0x31 (vs.flatMap (elem 0x30)) ++ more)) (by omega) (by
        unfold tyATVSET tyStruct
        dsimp only
        rw [k1, Res.ok_bind, k2, Res.ok_bind])
    rw [List.append_nil] at this
    exact this

theorem readAttrSet_unique {a b : ATVSET} {w : Bytes} (hl : w.length < 2 ^ 31) (h : ReadAttrSet a w) (h' : ReadAttrSet b w) : a = b := by
  have h := (attrSet_iff hl).2 h
  rw [(attrSet_iff hl).2 h'] at h
  simp only [Res.ok.injEq, Prod.mk.injEq, and_true] at h
  exact h.symm

theorem wholly_attrSet {w : Bytes} {o : Option ATVSET} (hl : w.length < 2 ^ 31) (h : wholly (unmarshal tyATVSET w) = .ok o) : KeptAttribute w o.toList := by
  have key : ∀ a, o = some a ↔ ReadAttrSet a w := by
    intro a
    rw [← attrSet_iff hl]
    unfold wholly at h
    cases hq : unmarshal tyATVSET w with
    | ok q =>
      obtain ⟨q, rest⟩ := q
      rw [hq] at h
      simp only [Res.ok.injEq] at h
      subst h
      simp [List.length_eq_zero_iff, and_comm]
    | err m =>
      rw [hq] at h
      simp only [Res.ok.injEq] at h
      subst h
      simp
    | panic => rw [hq] at h; simp at h
    | loop => rw [hq] at h; simp at h
  cases o with
  | none => exact .inr ⟨fun ⟨a, ha⟩ => by simpa using (key a).2 ha, rfl⟩
  | some a => exact .inl ⟨a, (key a).1 rfl, rfl⟩

theorem rawAttributes_kept : ∀ {raws : List RawValue} {l : List ATVSET}, (∀ r ∈ raws, r.fullBytes.length < 2 ^ 31) → parseRawAttributes raws = .ok l →
    ∃ pieces : List (List ATVSET), l = pieces.flatten ∧ List.Forall₂ KeptAttribute (raws.map RawValue.fullBytes) pieces := by
  intro raws
  induction raws with
  | nil =>
    intro l _ h
    simp only [parseRawAttributes, Res.ok.injEq] at h
    exact ⟨[], h.symm, .nil⟩
  | cons raw raws ih =>
    intro l hl h
    rw [List.forall_mem_cons] at hl
    simp only [parseRawAttributes, Res.bind_eq_ok, Res.ok.injEq] at h
    obtain ⟨o, h1, l', h2, rfl⟩ := h
    obtain ⟨ps, rfl, h3⟩ := ih hl.2 h2
    exact ⟨o.toList :: ps, rfl, .cons (wholly_attrSet hl.1 h1) h3⟩

theorem request_rawAttributes {env : Env U} {data : Bytes} {r : CertReq U} (h : parseCertificateRequest env data = .ok r) :
    ∃ (c : Bytes) (raws : List RawValue), RequestInfo c r.rawTBS ∧ r.rawTBS.length < 2 ^ 31 ∧ parseSequenceOf tyRaw c = .ok raws ∧
      parseRawAttributes raws = .ok r.attributes := by
  obtain ⟨tc, ac, sc, more, tbs, alg, sig, h0, h1, _, _, hd, h5, _, _, h8⟩ := request_components.1 h
  unfold parseCSR at h8
  rw [Res.bind_eq_ok] at h8
  obtain ⟨as, ha, h8⟩ := h8
  rcases ite_ok h8 with ⟨_, h8⟩ | ⟨_, h8⟩
  · simp at h8
  rcases ite_ok h8 with ⟨_, h8⟩ | ⟨_, h8⟩
  · simp at h8
  simp only [Res.bind_eq_ok] at h8
  obtain ⟨_, _, rdns, k2, exts, k4, sans, k5, k3⟩ := h8
  simp only [Res.ok.injEq] at k3
  subst k3
  change (_ : Res _) = _ at h5
  unfold tyTbsCSR tyStruct at h5
  dsimp only at h5
  simp only [Res.bind_eq_ok] at h5
  obtain ⟨⟨ver, q1⟩, f1, ⟨sub, q2⟩, f2, ⟨key, q3⟩, f3, ⟨attrs, q4⟩, f4, f5⟩ := h5
  simp only [Res.ok.injEq] at f5
  subst f5
  dsimp only at ha k2 k4 f2 f3 f4 ⊢
  obtain ⟨vc, hv, rfl, _⟩ := parseField_int f1
  unfold parseName at k2
  rw [Res.bind_eq_ok] at k2
  obtain ⟨⟨rs, rr⟩, k2, k2'⟩ := k2
  rcases ite_ok k2' with ⟨_, k2'⟩ | ⟨hrr, _⟩
  · simp at k2'
  have : rr = [] := by cases rr <;> simp_all
  subst this
  obtain ⟨sc', _, hs, _⟩ := parseField_slice k2
  have hne : q1 ≠ [] := by rintro rfl; simp [parseField] at f2
  obtain ⟨u1, _⟩ := parseField_raw_split rfl rfl hne f2
  rw [hs] at u1
  obtain ⟨kc, _, u2, _⟩ := parseField_struct f3
  obtain ⟨c, hc, u3, hb⟩ := (parseField_iff (p := { tag := some 0 }) rfl rfl rfl rfl (by decide)).1 f4
  refine ⟨c, attrs, ⟨vc, sc', kc, q4, ?_⟩, ?_, hb, ha⟩
  · rw [u1, u2, u3, List.append_nil]; rfl
  · rw [List.length_append] at h0; omega

/-! ## C152 -/

/-- **C152** (part) What `Attributes` of an accepted request is: if the attributes of the request are the elements `attrs`, it has for each
of them, in order, one entry with the type and the values if the values are lists of pairs, and nothing otherwise. An entry is
determined by the attribute. What is missing: the attributes with other values, see `C152_password_violated`. -/
theorem C152_exact_partial (env : Env U) (data : Bytes) (r : CertReq U) (h : parseCertificateRequest env data = .ok r) :
    (∃ attrs : List Bytes, RequestInfo attrs.flatten r.rawTBS ∧ ∀ w ∈ attrs, AnyElement w) ∧
    ∀ attrs : List Bytes, RequestInfo attrs.flatten r.rawTBS → (∀ w ∈ attrs, AnyElement w) →
      (∃ pieces : List (List ATVSET), r.attributes = pieces.flatten ∧ List.Forall₂ KeptAttribute attrs pieces) ∧
      ∀ w ∈ attrs, ∀ a b, ReadAttrSet a w → ReadAttrSet b w → a = b := by
  obtain ⟨c, raws, h1, h2, h3, h4⟩ := request_rawAttributes h
  obtain ⟨rfl, h5⟩ := (parseSequenceOf_raw_exact _ _).1 h3
  refine ⟨⟨_, h1, ?_⟩, ?_⟩
  · intro w hw
    obtain ⟨v, hv, rfl⟩ := List.mem_map.1 hw
    exact ⟨_, _, _, _, h5 v hv⟩
  · intro attrs ht ha
    have e := requestInfo_unique ht h1 h2
    obtain ⟨vs, rfl, h6⟩ := raws_of ha
    rw [← e, (parseSequenceOf_raw_exact _ _).2 ⟨rfl, h6⟩, Res.ok.injEq] at h3
    subst h3
    have hc : (vs.map RawValue.fullBytes).flatten.length < 2 ^ 31 := by
      obtain ⟨v, s, k, more, e⟩ := h1
      rw [e] at h2
      have l0 := length_le_elem 0x30 (elem 0x02 v ++ (elem 0x30 s ++ (elem 0x30 k ++ (elem 0xa0 (vs.map RawValue.fullBytes).flatten ++ more))))
      have l1 := length_le_elem 0xa0 (vs.map RawValue.fullBytes).flatten
      simp only [List.length_append] at l0
      omega
    have hw : ∀ w ∈ vs.map RawValue.fullBytes, w.length < 2 ^ 31 := fun w hw => by have := length_le_flatten hw; omega
    refine ⟨rawAttributes_kept (fun r hr => hw _ (List.mem_map_of_mem hr)) h4, ?_⟩
    intro w hm a b
    exact readAttrSet_unique (hw w hm)

/-- **C152** (part) Consequences that do not speak of pairs: no entry is invented, and there are never more entries than attributes. -/
theorem C152_count_partial (env : Env U) (data : Bytes) (r : CertReq U) (h : parseCertificateRequest env data = .ok r)
    (attrs : List Bytes) (ht : RequestInfo attrs.flatten r.rawTBS) (ha : ∀ w ∈ attrs, AnyElement w) :
    r.attributes.length ≤ attrs.length ∧
    ∀ a ∈ r.attributes, ∃ w ∈ attrs, ∃ oc rest, ReadOID a.type oc ∧ w = elem 0x30 (elem 0x06 oc ++ rest) := by
  obtain ⟨⟨pieces, e, hk⟩, -⟩ := (C152_exact_partial env data r h).2 attrs ht ha
  rw [e]
  clear e ht ha
  induction hk with
  | nil => simp
  | @cons w p attrs pieces h1 _ ih =>
    rcases h1 with ⟨a, ⟨oc, vs, more, g1, _, g3⟩, rfl⟩ | ⟨_, rfl⟩
    · refine ⟨by simpa using ih.1, ?_⟩
      intro b hb
      rw [List.flatten_cons, List.singleton_append] at hb
      rcases List.mem_cons.1 hb with rfl | hb
      · exact ⟨w, by simp, oc, _, g1, g3⟩
      · obtain ⟨w', hw', k⟩ := ih.2 b hb
        exact ⟨w', List.mem_cons_of_mem _ hw', k⟩
    · refine ⟨by simpa using Nat.le_succ_of_le ih.1, ?_⟩
      intro b hb
      rw [List.flatten_cons, List.nil_append] at hb
      obtain ⟨w', hw', k⟩ := ih.2 b hb
      exact ⟨w', List.mem_cons_of_mem _ hw', k⟩

/-- An attribute with one value that is a string: UTF8String, PrintableString, T61String, IA5String or BMPString. -/
def StringAttribute (w : Bytes) : Prop :=
  ∃ oc s more tag, tag ∈ ([0x0c, 0x13, 0x14, 0x16, 0x1e] : Bytes) ∧ w = elem 0x30 (elem 0x06 oc ++ (elem 0x31 (elem tag s) ++ more))

theorem elem_cancel {t t' : Byte} {c c' x y : Bytes} (hl : (elem t c ++ x).length < 2 ^ 31) (h : elem t c ++ x = elem t' c' ++ y) : t = t' ∧ c = c' ∧ x = y := by
  have l1 := length_le_elem t c
  have l2 := length_le_elem t' c'
  have l3 := congrArg List.length h
  rw [List.length_append] at hl
  simp only [List.length_append] at l3
  exact CB.elem_append_inj (CB.byteLen_lt_127 (by omega)) (CB.byteLen_lt_127 (by omega)) h

theorem string_not_read {w : Bytes} (hs : StringAttribute w) (hl : w.length < 2 ^ 31) (a : ATVSET) : ¬ ReadAttrSet a w := by
  obtain ⟨oc, s, more, tag, ht, rfl⟩ := hs
  rintro ⟨oc', vs, more', -, -, h3⟩
  obtain ⟨-, h3, -⟩ := elem_cancel (x := []) (y := []) (by rwa [List.append_nil]) (congrArg (· ++ []) h3)
  have l0 := length_le_elem 0x30 (elem 0x06 oc ++ (elem 0x31 (elem tag s) ++ more))
  have l1 := l0
  rw [List.length_append] at l1
  obtain ⟨-, -, h3⟩ := elem_cancel (by omega) h3
  obtain ⟨-, h3, -⟩ := elem_cancel (by omega) h3
  cases vs with
  | nil => simp [elem] at h3
  | cons v vs =>
    have := congrArg List.head? h3
    simp only [elem, List.flatMap_cons, List.cons_append, List.head?_cons, Option.some.injEq] at this
    subst this
    revert ht
    decide

/-- **C152** (negation) Attributes whose value is a string, as a challenge password or an unstructured name, are not in `Attributes`,
whatever their types and the strings: of an accepted request that has only such attributes nothing is kept. -/
theorem C152_string_violated (env : Env U) (data : Bytes) (r : CertReq U) (h : parseCertificateRequest env data = .ok r)
    (attrs : List Bytes) (ht : RequestInfo attrs.flatten r.rawTBS) (ha : ∀ w ∈ attrs, AnyElement w) (hs : ∀ w ∈ attrs, StringAttribute w) :
    r.attributes = [] := by
  obtain ⟨⟨pieces, e, hk⟩, -⟩ := (C152_exact_partial env data r h).2 attrs ht ha
  obtain ⟨c, raws, h1, h2, -⟩ := request_rawAttributes h
  have hw : ∀ w ∈ attrs, w.length < 2 ^ 31 := by
    intro w hw
    have k := length_le_flatten hw
    obtain ⟨v, s, key, more, e⟩ := ht
    rw [e] at h2
    have l0 := length_le_elem 0x30 (elem 0x02 v ++ (elem 0x30 s ++ (elem 0x30 key ++ (elem 0xa0 attrs.flatten ++ more))))
    have l1 := length_le_elem 0xa0 attrs.flatten
    simp only [List.length_append] at l0
    omega
  rw [e]
  clear e ht ha
  induction hk with
  | nil => rfl
  | @cons w p attrs pieces k1 _ ih =>
    rw [List.forall_mem_cons] at hs hw
    rcases k1 with ⟨a, k, _⟩ | ⟨_, rfl⟩
    · exact absurd k (string_not_read hs.1 hw.1 a)
    · exact ih hs.2 hw.2

/-- **C152** (negation) Of a pair that goes on with a BOOLEAN, as an extension that is marked critical, the value is lost: it is the nil
interface, whatever follows. -/
theorem C152_critical_violated (a : ATV) (oc b more : Bytes) (hl : (elem 0x06 oc ++ (elem 0x01 b ++ more)).length < 2 ^ 31)
    (h : ReadPair a (elem 0x06 oc ++ (elem 0x01 b ++ more))) : a.value = .nil := by
  obtain ⟨oc', v, cls, cmp, tag, vc, more', -, h2, h3, h4⟩ := h
  obtain ⟨-, -, h4⟩ := elem_cancel hl h4
  have lb : b.length < 2 ^ 31 := by
    have := length_le_elem 0x01 b
    simp only [List.length_append] at hl
    omega
  have a1 := (parseField_raw_exact (v ++ more') more' ⟨cls, tag, cmp, vc, v⟩).2 ⟨h2, rfl⟩
  have a2 := (parseField_raw_exact (elem 0x01 b ++ more) more ⟨0, 1, false, b, elem 0x01 b⟩).2
    ⟨readTLV_low (show 1 < 31 by decide) lb ⟨[0x01], ⟨show 0 < 4 by decide, .inl ⟨show 1 < 31 by decide, rfl⟩⟩, rfl⟩, rfl⟩
  rw [h4, a1] at a2
  simp only [Res.ok.injEq, Prod.mk.injEq, RawValue.mk.injEq] at a2
  obtain ⟨⟨rfl, rfl, rfl, rfl, rfl⟩, -⟩ := a2
  unfold ValueOf at h3
  rw [if_pos ⟨rfl, rfl⟩] at h3
  cases hv : a.value <;> rw [hv] at h3 <;> simp [UniversalValue, StringOf] at h3 ⊢

/-! ## Concrete cases -/

/-- A request with a challenge password and two requests for extensions: the password is not in `Attributes`; the SAN extension is
there with its value, the two critical extensions without theirs. -/
example : (match parseCertificateRequest exEnv (exAsking exAttrs) with
    | .ok r => decide (r.attributes = [⟨[1, 2, 840, 113549, 1, 9, 14], [[⟨[2, 5, 29, 17], .octets (elem 0x30 (elem 0x82 [0x61]))⟩]]⟩,
        ⟨[1, 2, 840, 113549, 1, 9, 14], [[⟨[2, 5, 29, 15], .nil⟩, ⟨[1, 2, 3], .nil⟩]]⟩])
    | _ => false) = true := by decide +kernel

/-- **C152** (negation) An accepted request with a challenge password as its only attribute; `Attributes` is empty. -/
theorem C152_password_violated : ∃ (r : CertReq Bytes) (w : Bytes), parseCertificateRequest exEnv (exAsking [w]) = .ok r ∧
    RequestInfo [w].flatten r.rawTBS ∧ AnyElement w ∧ StringAttribute w ∧ r.attributes = [] := by
  have h : (match parseCertificateRequest exEnv (exAsking [elem 0x30 (elem 0x06 [0x2a, 0x86, 0x48, 0x86, 0xf7, 0x0d, 0x01, 0x09, 0x07] ++ elem 0x31 (elem 0x13 [0x61]))]) with
    | .ok r => decide (r.rawTBS = elem 0x30 (elem 0x02 [0] ++ (exSubject ++ (exGoodKey ++ (elem 0xa0
        [elem 0x30 (elem 0x06 [0x2a, 0x86, 0x48, 0x86, 0xf7, 0x0d, 0x01, 0x09, 0x07] ++ elem 0x31 (elem 0x13 [0x61]))].flatten ++ [])))))
    | _ => false) = true := by decide +kernel
  split at h
  · rename_i r h1
    have h := of_decide_eq_true h
    have h2 : RequestInfo [elem 0x30 (elem 0x06 [0x2a, 0x86, 0x48, 0x86, 0xf7, 0x0d, 0x01, 0x09, 0x07] ++ elem 0x31 (elem 0x13 [0x61]))].flatten r.rawTBS :=
      ⟨[0], _, _, [], h⟩
    have h3 : AnyElement (elem 0x30 (elem 0x06 [0x2a, 0x86, 0x48, 0x86, 0xf7, 0x0d, 0x01, 0x09, 0x07] ++ elem 0x31 (elem 0x13 [0x61]))) :=
      ⟨0, true, 16, _, readTLV_low (by decide) (by decide) ⟨[0x30], ⟨by decide, .inl ⟨by decide, rfl⟩⟩, rfl⟩⟩
    have h4 : StringAttribute (elem 0x30 (elem 0x06 [0x2a, 0x86, 0x48, 0x86, 0xf7, 0x0d, 0x01, 0x09, 0x07] ++ elem 0x31 (elem 0x13 [0x61]))) :=
      ⟨[0x2a, 0x86, 0x48, 0x86, 0xf7, 0x0d, 0x01, 0x09, 0x07], [0x61], [], 0x13, by decide, by simp⟩
    exact ⟨r, _, h1, h2, h3, h4, C152_string_violated _ _ r h1 _ h2 (by simpa using h3) (by simpa using h4)⟩
  · cases h

/-- A critical extension, read as a pair. -/
example : ReadPair ⟨[1, 2, 3], .nil⟩ (elem 0x06 [0x2a, 3] ++ (elem 0x01 [0xff] ++ elem 0x04 [1, 2])) :=
  (pair_exact (full := []) (by decide)).1 (by decide +kernel)

end Verif.Props
