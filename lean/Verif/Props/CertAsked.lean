import Verif.Props.CertUnhandled
import Verif.Props.CertSigned
import Verif.Props.CertSubject
import Verif.Props.CertRequest
/-!
# Property C142: every extension that a request asks for is seen

A request asks for extensions in attributes of type extensionRequest (PKCS #9): the value of such an attribute is a list of extensions.
-/
namespace Verif.Props
open Verif Verif.Der Verif.Cert Verif.Spec.DER Verif.Spec.Cert

variable {U : Type}

/-! ## What is in a request -/

/-- One element with any tag below 31, as raw values are. -/
def IsElem (w : Bytes) : Prop := ∃ cls constructed tag c, cls < 4 ∧ tag < 31 ∧ c.length < 2 ^ 31 ∧ IsTLV cls constructed tag c w

/-- The signed part of a request (RFC 2986 4.1): version, subject, key and, in `[0]`, the attributes; as encoding/asn1 does, more bytes
are allowed at the end. -/
def RequestInfo (attributes tbs : Bytes) : Prop :=
  ∃ version subject key more, tbs = elem 0x30 (elem 0x02 version ++ (elem 0x30 subject ++ (elem 0x30 key ++ (elem 0xa0 attributes ++ more))))

/-- `w` is an attribute of type extensionRequest with these values: 1.2.840.113549.1.9.14, then a SET. More bytes are allowed at the end. -/
def ExtensionRequest (values : List Bytes) (w : Bytes) : Prop :=
  ∃ more, w = elem 0x30 (elem 0x06 [0x2a, 0x86, 0x48, 0x86, 0xf7, 0x0d, 0x01, 0x09, 0x0e] ++ (elem 0x31 values.flatten ++ more))

/-- `v` is a list of extensions, namely of these. -/
def ExtensionList (es : List Extension) (v : Bytes) : Prop :=
  ∃ ws : List Bytes, v = elem 0x30 ws.flatten ∧ List.Forall₂ (fun e w => IsExtension e.id e.critical e.value w) es ws

/-! ## Lemmas -/

theorem isElem_rawOk {w : Bytes} (h : IsElem w) : RawOk w := by
  obtain ⟨cls, cmp, tag, c, h1, h2, h3, id, ⟨_, h4⟩, h5⟩ := h
  rcases h4 with ⟨_, rfl⟩ | ⟨h4, _⟩
  · refine ⟨cls, tag, cmp, c, h1, h2, h3, ?_⟩
    rw [h5, elem, List.append_assoc]
    rfl
  · omega

theorem parseSequenceOf_raw_sound {bs : Bytes} {vs : List RawValue} (h : parseSequenceOf tyRaw bs = .ok vs) :
    bs = (vs.map RawValue.fullBytes).flatten ∧ ∀ v ∈ vs, IsTLV v.cls v.isCompound v.tag v.bytes v.fullBytes := by
  have key : ∀ (fuel : Nat) (bs : Bytes) (n : Nat) (vs : List RawValue), countElems tyRaw fuel bs = .ok n → parseElems tyRaw n bs = .ok vs →
      bs = (vs.map RawValue.fullBytes).flatten ∧ ∀ v ∈ vs, IsTLV v.cls v.isCompound v.tag v.bytes v.fullBytes := by
    intro fuel
    induction fuel with
    | zero =>
      intro bs n vs h1 h2
      cases bs with
      | nil =>
        simp only [countElems, Res.ok.injEq] at h1
        subst h1
        simp only [parseElems, Res.ok.injEq] at h2
        subst h2
        exact ⟨rfl, by simp⟩
      | cons b bs => simp [countElems] at h1
    | succ fuel ih =>
      intro bs n vs h1 h2
      cases bs with
      | nil =>
        simp only [countElems, Res.ok.injEq] at h1
        subst h1
        simp only [parseElems, Res.ok.injEq] at h2
        subst h2
        exact ⟨rfl, by simp⟩
      | cons b bs =>
        rw [countElems_cons, Res.bind_eq_ok] at h1
        obtain ⟨⟨t, r⟩, g1, g2⟩ := h1
        dsimp only at g2
        split at g2
        · simp at g2
        split at g2
        · simp at g2
        rw [Res.bind_eq_ok] at g2
        obtain ⟨m, g3, g4⟩ := g2
        simp only [Res.ok.injEq] at g4
        subst g4
        rw [parseElems, Res.bind_eq_ok] at h2
        obtain ⟨⟨v, rest⟩, k1, k2⟩ := h2
        rw [Res.bind_eq_ok] at k2
        obtain ⟨l, k2, k3⟩ := k2
        simp only [Res.ok.injEq] at k3
        subst k3
        obtain ⟨e1, e2, e3⟩ := parseField_raw_sound k1
        have hrest : rest = r.drop t.length := by
          unfold parseField at k1
          rw [if_neg (by simp), g1, Res.ok_bind] at k1
          simp only [Bool.false_eq_true, if_false] at k1
          unfold parseInner tyRaw at k1
          dsimp only at k1
          simp only [Bool.true_eq_false, false_and, or_self, if_false] at k1
          split at k1
          · simp at k1
          rw [Res.bind_eq_ok] at k1
          obtain ⟨_, _, k1⟩ := k1
          simp only [Res.ok.injEq, Prod.mk.injEq] at k1
          exact k1.2.symm
        rw [← hrest] at g3
        obtain ⟨w1, w2⟩ := ih rest m l g3 k2
        refine ⟨by rw [e2, List.map_cons, List.flatten_cons, ← w1], ?_⟩
        intro v' hv'
        rcases List.mem_cons.1 hv' with rfl | hv'
        · exact e1
        · exact w2 _ hv'
  unfold parseSequenceOf at h
  rw [Res.bind_eq_ok] at h
  obtain ⟨n, h1, h2⟩ := h
  exact key _ _ _ _ h1 h2

/-- The attributes of an accepted request and what is made of them. -/
theorem request_attributes {env : Env U} {data : Bytes} {r : CertReq U} (h : parseCertificateRequest env data = .ok r) :
    ∃ (v s k c more : Bytes) (raws : List RawValue) (sans : Sans U),
      r.rawTBS = elem 0x30 (elem 0x02 v ++ (elem 0x30 s ++ (elem 0x30 k ++ (elem 0xa0 c ++ more)))) ∧ r.rawTBS.length < 2 ^ 31 ∧
      parseSequenceOf tyRaw c = .ok raws ∧ parseCSRExtensions raws = .ok r.extensions ∧ csrSans env r.extensions {} = .ok sans ∧
      r.dnsNames = sans.dnsNames ∧ r.emailAddresses = sans.emailAddresses ∧ r.ipAddresses = sans.ipAddresses ∧ r.uris = sans.uris := by
  obtain ⟨tc, ac, sc, more, tbs, alg, sig, h0, h1, _, _, hd, h5, _, _, h8⟩ := request_components.1 h
  unfold parseCSR at h8
  rw [Res.bind_eq_ok] at h8
  obtain ⟨_, _, h8⟩ := h8
  rcases ite_ok h8 with ⟨_, h8⟩ | ⟨_, h8⟩
  · simp at h8
  rcases ite_ok h8 with ⟨_, h8⟩ | ⟨_, h8⟩
  · simp at h8
  simp only [Res.bind_eq_ok] at h8
  obtain ⟨_, _, rdns, k2, exts, k4, sans, k5, k3⟩ := h8
  simp only [Res.ok.injEq] at k3
  subst k3
  change (_ : Res _) = _ at h5
  unfold tyTbsCSR tyStruct at h5
  dsimp only at h5
  simp only [Res.bind_eq_ok] at h5
  obtain ⟨⟨ver, q1⟩, f1, ⟨sub, q2⟩, f2, ⟨key, q3⟩, f3, ⟨attrs, q4⟩, f4, f5⟩ := h5
  simp only [Res.ok.injEq] at f5
  subst f5
  dsimp only at k2 k4 f2 f3 f4 ⊢
  obtain ⟨vc, hv, rfl, _⟩ := parseField_int f1
  unfold parseName at k2
  rw [Res.bind_eq_ok] at k2
  obtain ⟨⟨rs, rr⟩, k2, k2'⟩ := k2
  rcases ite_ok k2' with ⟨_, k2'⟩ | ⟨hrr, _⟩
  · simp at k2'
  have : rr = [] := by cases rr <;> simp_all
  subst this
  obtain ⟨sc', _, hs, _⟩ := parseField_slice k2
  have hne : q1 ≠ [] := by rintro rfl; simp [parseField] at f2
  obtain ⟨u1, _⟩ := parseField_raw_split rfl rfl hne f2
  rw [hs] at u1
  obtain ⟨kc, _, u2, _⟩ := parseField_struct f3
  obtain ⟨c, hc, u3, hb⟩ := (parseField_iff (p := { tag := some 0 }) rfl rfl rfl rfl (by decide)).1 f4
  refine ⟨vc, sc', kc, c, q4, attrs, sans, ?_, ?_, hb, k4, k5, rfl, rfl, rfl, rfl⟩
  · rw [u1, u2, u3, List.append_nil]; rfl
  · rw [List.length_append] at h0; omega

theorem csrExtensionsOf_request {values : List Bytes} {w : Bytes} {raw : RawValue} {v : Bytes} (hw : ExtensionRequest (v :: values) w)
    (hr : raw.fullBytes = w) (hl : w.length < 2 ^ 31) (hv : ∀ x ∈ v :: values, IsElem x) {es : List Extension}
    (h : csrExtensionsOf raw = .ok es) : ∃ rest, unmarshal (tySlice false tyExtension) v = .ok (es, rest) := by
  obtain ⟨more, rfl⟩ := hw
  obtain ⟨vs, h1, h2⟩ := parseSequenceOf_raws (es := v :: values) fun e he => isElem_rawOk (hv e he)
  have l0 := length_le_elem 0x30 (elem 0x06 [0x2a, 0x86, 0x48, 0x86, 0xf7, 0x0d, 0x01, 0x09, 0x0e] ++ (elem 0x31 (v :: values).flatten ++ more))
  have l1 := length_le_elem 0x31 (v :: values).flatten
  have hlen : (elem 0x06 [0x2a, 0x86, 0x48, 0x86, 0xf7, 0x0d, 0x01, 0x09, 0x0e] ++ (elem 0x31 (v :: values).flatten ++ more)).length < 2 ^ 31 := by omega
  have hlen' := hlen
  simp only [List.length_append] at hlen'
  have hb1 : ∀ rest, parseField tyOID {} (elem 0x06 [0x2a, 0x86, 0x48, 0x86, 0xf7, 0x0d, 0x01, 0x09, 0x0e] ++ rest) = .ok (oidExtensionRequest, rest) := by
    intro rest
    exact parseField_elem (ty := tyOID) (p := {}) rest rfl rfl rfl (by decide) (by decide) (by decide +kernel)
  have hb2 : parseField (tySlice false tyRaw) { set := true } (elem 0x31 (v :: values).flatten ++ more) = .ok (vs, more) :=
    parseField_elem (ty := tySlice false tyRaw) (p := { set := true }) more rfl rfl rfl (by decide) (by omega) h1
  have hu : unmarshal tyPkcs10Attribute (elem 0x30 (elem 0x06 [0x2a, 0x86, 0x48, 0x86, 0xf7, 0x0d, 0x01, 0x09, 0x0e] ++
      (elem 0x31 (v :: values).flatten ++ more))) = .ok (⟨oidExtensionRequest, vs⟩, []) := by
    have := parseField_elem (ty := tyPkcs10Attribute) (p := {}) (c := elem 0x06 [0x2a, 0x86, 0x48, 0x86, 0xf7, 0x0d, 0x01, 0x09, 0x0e] ++
      (elem 0x31 (v :: values).flatten ++ more)) (v := ⟨oidExtensionRequest, vs⟩) [] rfl rfl rfl (by decide) hlen (by
        unfold tyPkcs10Attribute tyStruct
        dsimp only
        rw [hb1, Res.ok_bind, hb2, Res.ok_bind])
    rw [List.append_nil] at this
    exact this
  unfold csrExtensionsOf at h
  rw [hr, hu] at h
  cases h2 with
  | @cons _ v0 _ vs h3 h4 =>
    simp only [wholly, List.length_nil, if_true, Res.ok_bind, ne_eq, not_true_eq_false, if_false, Res.bind_eq_ok, h3.1] at h
    obtain ⟨⟨es', rest⟩, h5, h6⟩ := h
    simp only [Res.ok.injEq] at h6
    subst h6
    exact ⟨rest, h5⟩

theorem csrExtensionsOf_sound {raw : RawValue} {es : List Extension} (h : csrExtensionsOf raw = .ok es) :
    es = [] ∨ ∃ oc v values more, NamesOID [1, 2, 840, 113549, 1, 9, 14] oc ∧ ExtensionList es v ∧
      raw.fullBytes = elem 0x30 (elem 0x06 oc ++ (elem 0x31 (v ++ values) ++ more)) := by
  unfold csrExtensionsOf at h
  rw [Res.bind_eq_ok] at h
  obtain ⟨a, h1, h2⟩ := h
  cases a with
  | none => left; simpa using h2.symm
  | some a =>
    unfold wholly at h1
    cases hu : unmarshal tyPkcs10Attribute raw.fullBytes with
    | ok q =>
      obtain ⟨q, rest⟩ := q
      rw [hu] at h1
      simp only [Res.ok.injEq] at h1
      by_cases hr : rest.length = 0
      · rw [if_pos hr, Option.some.injEq] at h1
        subst h1
        have : rest = [] := by cases rest <;> simp_all
        subst this
        obtain ⟨c, hc, hb, g⟩ := parseField_struct hu
        simp only [Res.bind_eq_ok] at g
        obtain ⟨⟨o, q1⟩, g1, ⟨vs, q2⟩, g2, g3⟩ := g
        simp only [Res.ok.injEq] at g3
        subst g3
        dsimp only at g2 h2
        obtain ⟨oc, _, rfl, ho⟩ := parseField_oid g1
        obtain ⟨c2, _, hv, hvb⟩ := (parseField_iff (p := { set := true }) rfl rfl rfl rfl (by decide)).1 g2
        obtain ⟨hv1, hv2⟩ := parseSequenceOf_raw_sound hvb
        cases vs with
        | nil => left; simpa using h2.symm
        | cons v0 vs =>
          dsimp only at h2
          rcases ite_ok h2 with ⟨_, h2⟩ | ⟨he, h2⟩
          · left; simpa using h2.symm
          · right
            rw [ne_eq, not_not] at he
            rw [Res.bind_eq_ok] at h2
            obtain ⟨⟨es', junk⟩, h3, h4⟩ := h2
            simp only [Res.ok.injEq] at h4
            subst h4
            obtain ⟨c3, _, k1, k2⟩ := parseField_slice h3
            obtain ⟨ws, rfl, hws⟩ := parseSequenceOf_sound rfl rfl (by decide) k2
            refine ⟨oc, elem 0x30 ws.flatten, junk ++ (vs.map RawValue.fullBytes).flatten, q2, ?_, ⟨ws, rfl, ?_⟩, ?_⟩
            · have := namesOID ho
              rw [he] at this
              exact this
            · refine hws.imp ?_
              rintro e w ⟨cc, rfl, hb⟩
              exact extension_body hb
            · rw [hb, List.append_nil, hv, hv1, List.map_cons, List.flatten_cons, k1, List.append_assoc]
              rfl
      · rw [if_neg hr] at h1
        simp at h1
    | err m => rw [hu] at h1; simp at h1
    | panic => rw [hu] at h1; simp at h1
    | loop => rw [hu] at h1; simp at h1

theorem parseCSRExtensions_split {raws : List RawValue} {es : List Extension} (h : parseCSRExtensions raws = .ok es) :
    ∃ pieces : List (List Extension), es = pieces.flatten ∧ List.Forall₂ (fun raw p => csrExtensionsOf raw = .ok p) raws pieces := by
  induction raws generalizing es with
  | nil => simp only [parseCSRExtensions, Res.ok.injEq] at h; exact ⟨[], h.symm, .nil⟩
  | cons raw raws ih =>
    simp only [parseCSRExtensions, Res.bind_eq_ok, Res.ok.injEq] at h
    obtain ⟨p, h1, l, h2, rfl⟩ := h
    obtain ⟨ps, rfl, h3⟩ := ih h2
    exact ⟨p :: ps, rfl, .cons h1 h3⟩

/-! ## The property -/

/-- **C142** The extensions of an accepted request are those that its attributes ask for, attribute after attribute: an attribute gives
nothing, or it is of type extensionRequest and gives, in order, the extensions that its first value lists; and it does give these if all
its values have tags below 31. -/
theorem C142_wire (env : Env U) (data : Bytes) (r : CertReq U) (h : parseCertificateRequest env data = .ok r) :
    ∃ (attrs : List Bytes) (pieces : List (List Extension)), RequestInfo attrs.flatten r.rawTBS ∧ r.extensions = pieces.flatten ∧
      (∀ w ∈ attrs, ∃ cls constructed tag c, IsTLV cls constructed tag c w) ∧
      List.Forall₂ (fun w p =>
        (p = [] ∨ ∃ oc v values more, NamesOID [1, 2, 840, 113549, 1, 9, 14] oc ∧ ExtensionList p v ∧
          w = elem 0x30 (elem 0x06 oc ++ (elem 0x31 (v ++ values) ++ more))) ∧
        ∀ v values, ExtensionRequest (v :: values) w → (∀ x ∈ v :: values, IsElem x) → ExtensionList p v) attrs pieces := by
  obtain ⟨v, s, k, c, more, raws, sans, h1, hl, h2, h3, -⟩ := request_attributes h
  obtain ⟨pieces, h4, h5⟩ := parseCSRExtensions_split h3
  obtain ⟨h6, h7⟩ := parseSequenceOf_raw_sound h2
  refine ⟨raws.map RawValue.fullBytes, pieces, ⟨v, s, k, more, by rw [h1, h6]⟩, h4, ?_, ?_⟩
  · intro w hw
    obtain ⟨x, hx, rfl⟩ := List.mem_map.1 hw
    exact ⟨_, _, _, _, h7 x hx⟩
  · rw [List.forall₂_map_left_iff]
    have hlen : ∀ x ∈ raws, x.fullBytes.length < 2 ^ 31 := by
      intro x hx
      have a1 := length_le_flatten (List.mem_map_of_mem (f := RawValue.fullBytes) hx)
      have a2 := length_le_elem 0xa0 c
      have a3 := length_le_elem 0x30 (elem 0x02 v ++ (elem 0x30 s ++ (elem 0x30 k ++ (elem 0xa0 c ++ more))))
      rw [← h1] at a3
      simp only [List.length_append] at a3
      rw [← h6] at a1
      omega
    clear h1 h2 h3 h4 h6 h7
    induction h5 with
    | nil => exact .nil
    | @cons raw p raws pieces g1 g2 ih =>
      refine .cons ⟨csrExtensionsOf_sound g1, ?_⟩ (ih fun x hx => hlen x (by simp [hx]))
      intro v values e1 e2
      obtain ⟨rest, e3⟩ := csrExtensionsOf_request e1 rfl (hlen raw (by simp)) e2 g1
      obtain ⟨c3, l3, k1, k2⟩ := parseField_slice e3
      obtain ⟨ws, rfl, hws⟩ := parseSequenceOf_sound rfl rfl (by decide) k2
      obtain ⟨cls, tag, cmp, d, _, _, hd, rfl⟩ := isElem_rawOk (e2 v (by simp))
      have hlv : (elem (idOctet cls tag cmp) d).length < 2 ^ 31 := by
        obtain ⟨more, e1⟩ := e1
        have a1 := hlen raw (by simp)
        have a2 := length_le_elem 0x30 (elem 0x06 [0x2a, 0x86, 0x48, 0x86, 0xf7, 0x0d, 0x01, 0x09, 0x0e] ++
          (elem 0x31 (elem (idOctet cls tag cmp) d :: values).flatten ++ more))
        have a3 := length_le_elem 0x31 (elem (idOctet cls tag cmp) d :: values).flatten
        rw [← e1] at a2
        simp only [List.length_append, List.flatten_cons] at a2 a3
        omega
      refine ⟨ws, ?_, hws.imp ?_⟩
      · obtain ⟨e5, e6, _⟩ := elem_peel (x := []) (y := rest) (by rw [List.append_nil]; exact k1) (by rw [List.append_nil]; omega)
        rw [e5, e6]
        rfl
      · rintro e w ⟨cc, rfl, hb⟩
        exact extension_body hb

theorem requestInfo_unique {a a' tbs : Bytes} (h : RequestInfo a tbs) (h' : RequestInfo a' tbs) (hl : tbs.length < 2 ^ 31) : a = a' := by
  obtain ⟨v, s, k, m, rfl⟩ := h
  obtain ⟨v', s', k', m', e⟩ := h'
  have l0 := length_le_elem 0x30 (elem 0x02 v ++ (elem 0x30 s ++ (elem 0x30 k ++ (elem 0xa0 a ++ m))))
  simp only [List.length_append] at l0
  have e1 := (elem_whole (by omega) e).2
  have p1 := elem_peel e1
  obtain ⟨_, _, e2⟩ := p1 (by simp only [List.length_append]; omega)
  have p2 := elem_peel e2
  obtain ⟨_, _, e3⟩ := p2 (by simp only [List.length_append]; omega)
  have p3 := elem_peel e3
  obtain ⟨_, _, e4⟩ := p3 (by simp only [List.length_append]; omega)
  have p4 := elem_peel e4
  exact (p4 (by simp only [List.length_append]; omega)).2.1

theorem extensionList_unique {es es' : List Extension} {v : Bytes} (h : ExtensionList es v) (h' : ExtensionList es' v) (hl : v.length < 2 ^ 31) :
    es = es' := by
  obtain ⟨ws, rfl, h⟩ := h
  obtain ⟨ws', e, h'⟩ := h'
  have l0 := length_le_elem 0x30 ws.flatten
  exact extensions_unique h h' (elem_whole (by omega) e).2 (by omega)

/-- **C142** (part) If the attributes of an accepted request are these elements, the request's extensions are one list for each of them,
and for every extensionRequest attribute it is the list in its first value. What is missing: the other values of such an attribute, and
attributes that are not of the required form. -/
theorem C142_asked_partial (env : Env U) (data : Bytes) (r : CertReq U) (h : parseCertificateRequest env data = .ok r)
    (attrs : List Bytes) (ha : ∀ w ∈ attrs, IsElem w) (ht : RequestInfo attrs.flatten r.rawTBS) :
    ∃ pieces : List (List Extension), r.extensions = pieces.flatten ∧ List.Forall₂ (fun w p => ∀ es v values,
      ExtensionRequest (v :: values) w → (∀ x ∈ values, IsElem x) → ExtensionList es v → p = es) attrs pieces := by
  obtain ⟨v, s, k, c, more, raws, sans, h1, hl, h2, h3, -⟩ := request_attributes h
  obtain ⟨pieces, h4, h5⟩ := parseCSRExtensions_split h3
  obtain rfl := requestInfo_unique ht ⟨v, s, k, more, h1⟩ hl
  obtain ⟨raws', g1, g2⟩ := parseSequenceOf_raws (es := attrs) fun e he => isElem_rawOk (ha e he)
  rw [h2] at g1
  simp only [Res.ok.injEq] at g1
  subst g1
  refine ⟨pieces, h4, ?_⟩
  have hlen : ∀ x ∈ attrs, x.length < 2 ^ 31 := by
    intro x hx
    have a1 := length_le_flatten hx
    have a2 := length_le_elem 0xa0 attrs.flatten
    have a3 := length_le_elem 0x30 (elem 0x02 v ++ (elem 0x30 s ++ (elem 0x30 k ++ (elem 0xa0 attrs.flatten ++ more))))
    rw [← h1] at a3
    simp only [List.length_append] at a3
    omega
  clear h1 h2 h3 h4 ht ha
  induction g2 generalizing pieces with
  | nil => cases h5; exact .nil
  | @cons w raw attrs raws g1 g2 ih =>
    cases h5 with
    | @cons _ p _ pieces k1 k2 =>
      refine .cons ?_ (ih _ k2 fun x hx => hlen x (by simp [hx]))
      intro es v values e1 e2 e3
      have hlw := hlen w (by simp)
      have hlv : v.length < 2 ^ 31 := by
        obtain ⟨more, rfl⟩ := e1
        have a2 := length_le_elem 0x30 (elem 0x06 [0x2a, 0x86, 0x48, 0x86, 0xf7, 0x0d, 0x01, 0x09, 0x0e] ++ (elem 0x31 (v :: values).flatten ++ more))
        have a3 := length_le_elem 0x31 (v :: values).flatten
        simp only [List.length_append, List.flatten_cons] at a2 a3 hlw
        omega
      have hev : IsElem v := by
        obtain ⟨ws, rfl, _⟩ := e3
        have := length_le_elem 0x30 ws.flatten
        exact ⟨0, true, 16, ws.flatten, by decide, by decide, by omega, [0x30], ⟨by decide, .inl ⟨by decide, by decide⟩⟩, by simp [elem]⟩
      obtain ⟨rest, e4⟩ := csrExtensionsOf_request e1 g1.1 hlw (by
        intro x hx
        rcases List.mem_cons.1 hx with rfl | hx
        · exact hev
        · exact e2 x hx) k1
      obtain ⟨c3, l3, f1, f2⟩ := parseField_slice e4
      obtain ⟨ws, rfl, hws⟩ := parseSequenceOf_sound rfl rfl (by decide) f2
      have e5 : v = elem 0x30 ws.flatten := by
        obtain ⟨ws', rfl, _⟩ := e3
        obtain ⟨_, hh, _⟩ := elem_peel (t := 0x30) (t' := 0x30) (c := ws'.flatten) (c' := ws.flatten) (x := []) (y := rest)
          (by rw [List.append_nil]; exact f1) (by rw [List.append_nil]; omega)
        rw [hh]
      refine extensionList_unique ⟨ws, e5, hws.imp ?_⟩ e3 hlv
      rintro e w ⟨cc, rfl, hb⟩
      exact extension_body hb

theorem csrSans_last {env : Env U} : ∀ {l : List Extension} {s s' : Sans U}, csrSans env l s = .ok s' →
    (∀ e ∈ l, e.id = oidExtensionSubjectAltName → ∃ q, parseSANExtension env e.value = .ok q) ∧
    ∀ l1 e l2, l = l1 ++ e :: l2 → e.id = oidExtensionSubjectAltName → (∀ x ∈ l2, x.id ≠ oidExtensionSubjectAltName) →
      parseSANExtension env e.value = .ok s' := by
  intro l
  induction l with
  | nil => intro s s' _; exact ⟨by simp, by simp⟩
  | cons a l ih =>
    intro s s' h
    have h' : ∃ q, (if a.id = oidExtensionSubjectAltName then parseSANExtension env a.value else .ok s) = .ok q ∧ csrSans env l q = .ok s' := by
      rw [csrSans] at h
      by_cases hid : a.id = oidExtensionSubjectAltName
      · rw [if_pos hid, Res.bind_eq_ok] at h
        rw [if_pos hid]
        exact h
      · rw [if_neg hid, Res.bind_eq_ok] at h
        rw [if_neg hid]
        exact h
    obtain ⟨q, h1, h2⟩ := h'
    obtain ⟨i1, i2⟩ := ih h2
    refine ⟨?_, ?_⟩
    · intro e he hid
      rcases List.mem_cons.1 he with rfl | he
      · rw [if_pos hid] at h1; exact ⟨q, h1⟩
      · exact i1 e he hid
    · intro l1 e l2 e1 hid hn
      cases l1 with
      | nil =>
        simp only [List.nil_append, List.cons.injEq] at e1
        obtain ⟨rfl, rfl⟩ := e1
        rw [if_pos hid] at h1
        rw [csrSans_none env _ _ hn] at h2
        rw [h1]; exact h2
      | cons b l1 =>
        simp only [List.cons_append, List.cons.injEq] at e1
        exact i2 l1 e l2 e1.2 hid hn

/-- **C142** (part) The names of an accepted request are those of its last SAN extension (2.5.29.17), and there are none if it has no such
extension; the SAN extensions before it are read too, but only for errors. What is missing: the names in these. -/
theorem C142_names_partial (env : Env U) (data : Bytes) (r : CertReq U) (h : parseCertificateRequest env data = .ok r) :
    (∀ e ∈ r.extensions, e.id = [2, 5, 29, 17] → ∃ s, parseSANExtension env e.value = .ok s) ∧
    ((∀ e ∈ r.extensions, e.id ≠ [2, 5, 29, 17]) → r.dnsNames = [] ∧ r.emailAddresses = [] ∧ r.ipAddresses = [] ∧ r.uris = []) ∧
    ∀ l1 e l2, r.extensions = l1 ++ e :: l2 → e.id = [2, 5, 29, 17] → (∀ x ∈ l2, x.id ≠ [2, 5, 29, 17]) →
      ∃ s, parseSANExtension env e.value = .ok s ∧ r.dnsNames = s.dnsNames ∧ r.emailAddresses = s.emailAddresses ∧
        r.ipAddresses = s.ipAddresses ∧ r.uris = s.uris := by
  obtain ⟨v, s, k, c, more, raws, sans, _, _, _, _, h5, e1, e2, e3, e4⟩ := request_attributes h
  obtain ⟨h6, h7⟩ := csrSans_last h5
  refine ⟨h6, ?_, fun l1 e l2 g1 g2 g3 => ⟨sans, h7 l1 e l2 g1 g2 g3, e1, e2, e3, e4⟩⟩
  intro hn
  rw [csrSans_none env _ _ hn] at h5
  simp only [Res.ok.injEq] at h5
  subst h5
  exact ⟨e1, e2, e3, e4⟩

/-! ## Concrete cases -/

/-- A request with these attributes. -/
def exAsking (attrs : List Bytes) : Bytes :=
  exSigned exOidSig (elem 0x30 (elem 0x02 [0] ++ (exSubject ++ (exGoodKey ++ (elem 0xa0 attrs.flatten ++ []))))) []

/-- An attribute of type extensionRequest with these contents. -/
def exAsks (tag : Byte) (values : Bytes) : Bytes := elem 0x30 (elem 0x06 [0x2a, 0x86, 0x48, 0x86, 0xf7, 0x0d, 0x01, 0x09, 0x0e] ++ (elem tag values ++ []))

/-- A SAN extension with one DNS name. -/
def exDns (name : Bytes) : Bytes := exExtension [0x55, 0x1d, 0x11] false (elem 0x30 (elem 0x82 name))

/-- A challenge password (1.2.840.113549.1.9.7), and two requests for extensions. -/
def exAttrs : List Bytes := [elem 0x30 (elem 0x06 [0x2a, 0x86, 0x48, 0x86, 0xf7, 0x0d, 0x01, 0x09, 0x07] ++ elem 0x31 (elem 0x13 [0x61])),
  exAsks 0x31 (elem 0x30 (exDns [0x61])), exAsks 0x31 (elem 0x30 (exUsage ++ exUnknown))]

/-- C142 has instances: all three extensions are read. -/
example : (match parseCertificateRequest exEnv (exAsking exAttrs) with
    | .ok r => decide (r.extensions = [⟨[2, 5, 29, 17], false, elem 0x30 (elem 0x82 [0x61])⟩, ⟨[2, 5, 29, 15], true, elem 0x03 [7, 0x80]⟩,
        ⟨[1, 2, 3], true, [1, 2]⟩] ∧ r.dnsNames = [[0x61]] ∧ r.attributes.length = 2)
    | _ => false) = true := by decide +kernel

example : (∀ w ∈ exAttrs, IsElem w) ∧ RequestInfo exAttrs.flatten (elem 0x30 (elem 0x02 [0] ++ (exSubject ++ (exGoodKey ++ (elem 0xa0 exAttrs.flatten ++ []))))) := by
  refine ⟨?_, [0], _, _, [], rfl⟩
  intro w hw
  have he : ∀ c : Bytes, c.length < 2 ^ 31 → IsElem (elem 0x30 c) := fun c hc =>
    ⟨0, true, 16, c, by decide, by decide, hc, [0x30], ⟨by decide, .inl ⟨by decide, by decide⟩⟩, by simp [elem]⟩
  simp only [exAttrs, List.mem_cons, List.not_mem_nil, or_false] at hw
  rcases hw with rfl | rfl | rfl <;> exact he _ (by decide)

example : ExtensionRequest [elem 0x30 (exDns [0x61])] (exAsks 0x31 (elem 0x30 (exDns [0x61]))) := ⟨[], by decide⟩

theorem isExtension_dns (name : Bytes) : IsExtension [2, 5, 29, 17] false (elem 0x30 (elem 0x82 name)) (exDns name) :=
  ⟨[0x55, 0x1d, 0x11], [], [], by decide, ⟨[[0x55], [0x1d], [0x11]], rfl, by
    show List.Forall₂ _ [85, 29, 17] _
    refine .cons ⟨⟨[], 0x55, rfl, by simp, by decide⟩, by decide⟩ (.cons ⟨⟨[], 0x1d, rfl, by simp, by decide⟩, by decide⟩
      (.cons ⟨⟨[], 0x11, rfl, by simp, by decide⟩, by decide⟩ .nil))⟩, .inl ⟨rfl, rfl⟩, by simp [exDns, exExtension]⟩

/-- **C142** (negation) Only the first value of an extensionRequest attribute is looked at: this request asks, in the second value, for
an extension that is not among its extensions, and no error is reported. -/
theorem C142_second_violated : ∃ (r : CertReq Bytes) (v1 v2 w : Bytes) (e1 e2 : Extension), parseCertificateRequest exEnv (exAsking [w]) = .ok r ∧
    RequestInfo [w].flatten r.rawTBS ∧ ExtensionRequest [v1, v2] w ∧ ExtensionList [e1] v1 ∧ ExtensionList [e2] v2 ∧
    r.extensions = [e1] ∧ e2 ∉ r.extensions := by
  have h : (match parseCertificateRequest exEnv (exAsking [exAsks 0x31 (elem 0x30 (exDns [0x61]) ++ elem 0x30 (exDns [0x62]))]) with
    | .ok r => decide (r.extensions = [⟨[2, 5, 29, 17], false, elem 0x30 (elem 0x82 [0x61])⟩] ∧
        r.rawTBS = elem 0x30 (elem 0x02 [0] ++ (exSubject ++ (exGoodKey ++ (elem 0xa0 [exAsks 0x31 (elem 0x30 (exDns [0x61]) ++
          elem 0x30 (exDns [0x62]))].flatten ++ [])))))
    | _ => false) = true := by decide +kernel
  cases hp : parseCertificateRequest exEnv (exAsking [exAsks 0x31 (elem 0x30 (exDns [0x61]) ++ elem 0x30 (exDns [0x62]))]) with
  | ok r =>
    rw [hp] at h
    have h := of_decide_eq_true h
    refine ⟨r, elem 0x30 (exDns [0x61]), elem 0x30 (exDns [0x62]), _, _, ⟨[2, 5, 29, 17], false, elem 0x30 (elem 0x82 [0x62])⟩, hp,
      ⟨[0], _, _, [], h.2⟩, ⟨[], by simp [exAsks]⟩, ⟨[exDns [0x61]], by simp, .cons (isExtension_dns _) .nil⟩,
      ⟨[exDns [0x62]], by simp, .cons (isExtension_dns _) .nil⟩, h.1, ?_⟩
    rw [h.1]
    decide
  | err m => rw [hp] at h; cases h
  | panic => rw [hp] at h; cases h
  | loop => rw [hp] at h; cases h

/-- **C142** (negation) An extensionRequest attribute that is not of the required form is passed over without an error: here the list of
extensions stands where the SET should be, or there is a SET without values. -/
theorem C142_malformed_violated : ∃ (r1 r2 : CertReq Bytes), parseCertificateRequest exEnv (exAsking [exAsks 0x30 (exDns [0x61])]) = .ok r1 ∧
    parseCertificateRequest exEnv (exAsking [exAsks 0x31 []]) = .ok r2 ∧ r1.extensions = [] ∧ r1.dnsNames = [] ∧ r2.extensions = [] := by
  have h : (match parseCertificateRequest exEnv (exAsking [exAsks 0x30 (exDns [0x61])]), parseCertificateRequest exEnv (exAsking [exAsks 0x31 []]) with
    | .ok r1, .ok r2 => decide (r1.extensions = [] ∧ r1.dnsNames = [] ∧ r2.extensions = [])
    | _, _ => false) = true := by decide +kernel
  split at h
  · rename_i r1 r2 h1 h2
    have h := of_decide_eq_true h
    exact ⟨r1, r2, h1, h2, h⟩
  · cases h

/-- **C142** (negation) Of two SAN extensions that are asked for, one in each of two attributes, only the second gives names. -/
theorem C142_names_violated : ∃ (r : CertReq Bytes) (e1 e2 : Extension) (s1 : Sans Bytes),
    parseCertificateRequest exEnv (exAsking [exAsks 0x31 (elem 0x30 (exDns [0x61])), exAsks 0x31 (elem 0x30 (exDns [0x62]))]) = .ok r ∧
    r.extensions = [e1, e2] ∧ e1.id = [2, 5, 29, 17] ∧ parseSANExtension exEnv e1.value = .ok s1 ∧ s1.dnsNames = [[0x61]] ∧
    r.dnsNames = [[0x62]] := by
  have h : (match parseCertificateRequest exEnv (exAsking [exAsks 0x31 (elem 0x30 (exDns [0x61])), exAsks 0x31 (elem 0x30 (exDns [0x62]))]),
      parseSANExtension exEnv (elem 0x30 (elem 0x82 [0x61])) with
    | .ok r, .ok s1 => decide (r.extensions = [⟨[2, 5, 29, 17], false, elem 0x30 (elem 0x82 [0x61])⟩,
        ⟨[2, 5, 29, 17], false, elem 0x30 (elem 0x82 [0x62])⟩] ∧ s1.dnsNames = [[0x61]] ∧ r.dnsNames = [[0x62]])
    | _, _ => false) = true := by decide +kernel
  split at h
  · rename_i r s1 h1 h2
    have h := of_decide_eq_true h
    exact ⟨r, _, _, s1, h1, h.1, rfl, h2, h.2.1, h.2.2⟩
  · cases h

end Verif.Props
