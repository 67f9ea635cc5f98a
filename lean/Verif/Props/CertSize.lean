import Verif.Props.CertificateLanguage
/-!
# Property C150: what is read from a certificate or a request is no larger than it

Counted in octets; each entry of a list of names counts two more, which is the least that its identifier and length take.
-/
namespace Verif.Props
open Verif Verif.Der Verif.Cert Verif.Spec.DER Verif.Spec.Cert

variable {U : Type}

/-! ## What is counted -/

/-- A list of byte strings. -/
def entries (l : List Bytes) : ℕ := (l.map fun b => b.length + 2).sum

/-- A list of address ranges. -/
def rangeEntries (l : List IPNet) : ℕ := (l.map fun n => n.ip.length + n.mask.length + 2).sum

/-- A list of object identifiers, by the number of their components. -/
def oidEntries (l : List OID) : ℕ := (l.map fun o => o.length + 1).sum

/-- Everything in a certificate that was read from the values of extensions and has no fixed size. -/
def fromExtensions (c : X509Cert U) : ℕ :=
  entries c.dnsNames + entries c.emailAddresses + entries c.ipAddresses + 2 * c.uris.length +
  (entries c.permittedDNSDomains + rangeEntries c.permittedIPRanges + entries c.permittedEmailAddresses + entries c.permittedURIDomains) +
  (entries c.excludedDNSDomains + rangeEntries c.excludedIPRanges + entries c.excludedEmailAddresses + entries c.excludedURIDomains) +
  entries c.crlDistributionPoints + c.authorityKeyId.length + c.subjectKeyId.length +
  (2 * c.extKeyUsage.length + oidEntries c.unknownExtKeyUsage) + oidEntries c.policyIdentifiers +
  (entries c.ocspServer + entries c.issuingCertificateURL)

/-- The extensions themselves. -/
def extensionEntries (l : List Extension) : ℕ := (l.map fun e => e.id.length + e.value.length + 5).sum

/-- The strings of a name, and five octets for each attribute. -/
def nameSize (n : Name) : ℕ :=
  entries n.country + entries n.organization + entries n.organizationalUnit + entries n.locality + entries n.province +
  entries n.streetAddress + entries n.postalCode + n.serialNumber.length + n.commonName.length + 5 * n.names.length

/-! ## Lists -/

theorem entries_append (a b : List Bytes) : entries (a ++ b) = entries a + entries b := by simp [entries]

theorem oidEntries_append (a b : List OID) : oidEntries (a ++ b) = oidEntries a + oidEntries b := by simp [oidEntries]

theorem extensionEntries_append (a b : List Extension) : extensionEntries (a ++ b) = extensionEntries a + extensionEntries b := by
  simp [extensionEntries]

theorem entries_cons (b : Bytes) (l : List Bytes) : entries (b :: l) = b.length + 2 + entries l := by simp [entries]

theorem elem_length (t : Byte) (c : Bytes) : c.length + 2 ≤ (elem t c).length := by
  have : 1 ≤ (lenOctets c.length).length := by rw [CB.length_lenOctets]; split <;> omega
  simp only [elem, List.length_cons, List.length_append]; omega

theorem tlv_length {cls tag : ℕ} {cmp : Bool} {c e : Bytes} (h : ReadTLV cls cmp tag c e) : c.length + 2 ≤ e.length := by
  obtain ⟨id, h1, _, _, _, rfl⟩ := h
  have : 1 ≤ (lenOctets c.length).length := by rw [CB.length_lenOctets]; split <;> omega
  have : 1 ≤ id.length := by rcases h1.2 with ⟨_, rfl⟩ | ⟨_, g, rfl, _⟩ <;> simp
  simp only [List.length_append]; omega

theorem groups_length {P : ℕ → Bytes → Prop} (hP : ∀ n g, P n g → g ≠ []) {l : List ℕ} {gs : List Bytes} (h : List.Forall₂ P l gs) :
    l.length ≤ gs.flatten.length := by
  induction h with
  | nil => simp
  | cons hx _ ih =>
    have := List.length_pos_iff.2 (hP _ _ hx)
    simp only [List.length_cons, List.flatten_cons, List.length_append]; omega

theorem subids_length {oid : List ℕ} (h : ValidOID oid) : oid.length = (subids oid).length + 1 := by
  match oid, h with
  | _ :: _ :: _, _ => simp [subids]

theorem readOID_length {oid : OID} {c : Bytes} (h : ReadOID oid c) : oid.length ≤ c.length + 1 := by
  obtain ⟨hv, gs, rfl, hg⟩ := h
  have := groups_length (fun n g h => by have := h.1; rintro rfl; simp [IsGroup] at this) hg
  have := subids_length hv
  omega

theorem forall₂_sum {α : Type} {P : α → Bytes → Prop} {f : α → ℕ} (hP : ∀ a c, P a c → f a ≤ c.length) {l : List α} {cs : List Bytes}
    (h : List.Forall₂ P l cs) : (l.map f).sum ≤ cs.flatten.length := by
  induction h with
  | nil => simp
  | cons hx _ ih =>
    have := hP _ _ hx
    simp only [List.map_cons, List.sum_cons, List.flatten_cons, List.length_append]; omega

theorem readList_sum {α : Type} {t : Byte} {P : α → Bytes → Prop} {f : α → ℕ} (hP : ∀ a c, P a c → f a ≤ c.length + 2) {l : List α} {v : Bytes}
    (h : ReadList t P l v) : (l.map f).sum ≤ v.length := by
  obtain ⟨cs, rfl, _, h⟩ := h
  have h1 : (l.map f).sum ≤ (cs.flatMap (elem t)).length := by
    clear * - h hP
    induction h with
    | nil => simp
    | @cons a c l cs hx _ ih =>
      have := hP _ _ hx
      have := elem_length t c
      simp only [List.map_cons, List.sum_cons, List.flatMap_cons, List.length_append]; omega
  have := elem_length 0x30 (cs.flatMap (elem t))
  omega

/-! ## The extensions -/

theorem sans_size {env : Env U} {v : Bytes} {s : Sans U} (h : ReadSANs env v s) :
    entries s.dnsNames + entries s.emailAddresses + entries s.ipAddresses + 2 * s.uris.length ≤ v.length := by
  obtain ⟨items, hi, rfl, h5, h1, h2, h3, h6, h4⟩ := h
  rw [h1, h2, h3, ← h4.length_eq]
  clear h1 h2 h3 h4 h5 h6
  refine le_trans ?_ (le_trans (Nat.le_add_right _ 2) (elem_length 0x30 _))
  induction items with
  | nil => simp [withTag, entries]
  | cons x l ih =>
    have hx := tlv_length (hi x (by simp))
    have := ih (fun y hy => hi y (by simp [hy]))
    rw [List.flatMap_cons, List.length_append, withTag_cons, withTag_cons, withTag_cons, withTag_cons]
    by_cases k1 : x.2.2.1 = 1
    · simp [k1, entries_cons, -List.length_flatMap]; omega
    by_cases k2 : x.2.2.1 = 2
    · simp [k2, entries_cons, -List.length_flatMap]; omega
    by_cases k6 : x.2.2.1 = 6
    · simp [k6, -List.length_flatMap]; omega
    by_cases k7 : x.2.2.1 = 7
    · simp [k7, entries_cons, -List.length_flatMap]; omega
    simp [k1, k2, k6, k7, -List.length_flatMap]; omega

theorem valuesOf_cons (t : Byte) (b : Base) (l : List Base) : valuesOf t (b :: l) = if b.1 = t then b.2 :: valuesOf t l else valuesOf t l := by
  unfold valuesOf
  by_cases h : b.1 = t <;> simp [h]

theorem subtrees_size {l : List (Base × Bytes)} {bs : Bytes} (h : AreSubtrees l bs) :
    entries (subtreesOf (l.map Prod.fst)).dnsNames + rangeEntries (subtreesOf (l.map Prod.fst)).ips + entries (subtreesOf (l.map Prod.fst)).emails +
      entries (subtreesOf (l.map Prod.fst)).uriDomains ≤ bs.length := by
  obtain ⟨rfl, hq⟩ := h
  clear hq
  unfold subtreesOf
  dsimp only
  induction l with
  | nil => simp [valuesOf, entries, rangeEntries]
  | cons x l ih =>
    have e1 : x.1.2.length + 4 ≤ (subtree x.1 x.2).length := by
      have a := elem_length 0x30 (elem x.1.1 x.1.2 ++ x.2)
      have b := elem_length x.1.1 x.1.2
      rw [List.length_append] at a
      unfold subtree
      omega
    rw [List.flatMap_cons, List.length_append, List.map_cons, valuesOf_cons, valuesOf_cons, valuesOf_cons, valuesOf_cons]
    by_cases k1 : x.1.1 = 0x82
    · simp [k1, entries_cons, -List.length_flatMap] at ih ⊢; omega
    by_cases k2 : x.1.1 = 0x87
    · have : (netOf x.1.2).ip.length + (netOf x.1.2).mask.length ≤ x.1.2.length := by
        unfold netOf; simp; omega
      simp [k2, rangeEntries, -List.length_flatMap] at ih ⊢; omega
    by_cases k6 : x.1.1 = 0x81
    · simp [k6, entries_cons, -List.length_flatMap] at ih ⊢; omega
    by_cases k7 : x.1.1 = 0x86
    · simp [k7, entries_cons, -List.length_flatMap] at ih ⊢; omega
    rw [if_neg k1, if_neg k2, if_neg k6, if_neg k7]; omega

theorem opt_length (t : Byte) (o : Option Bytes) : (o.getD []).length ≤ (optField t o).length := by
  cases o with
  | none => simp [optField]
  | some c => have := elem_length t c; simp only [Option.getD_some, optField]; omega

theorem dps_size {dp : DP} {c : Bytes} (h : ReadDP dp c) :
    entries (((dp.name.fullName.getD []).filter fun f => f.tag = 6).map RawValue.bytes) ≤ c.length := by
  obtain ⟨r1, r2, more, hn, _⟩ := h
  rcases hn with ⟨c', _, rfl, r, more', hf, _⟩ | ⟨hn, rfl, _⟩
  · have l1 := elem_length 0xa0 c'
    rw [List.length_append]
    suffices entries (((dp.name.fullName.getD []).filter fun f => f.tag = 6).map RawValue.bytes) ≤ c'.length by omega
    rcases hf with ⟨c2, _, rfl, vs, ho, rfl, hv⟩ | ⟨ho, rfl, _⟩
    · rw [ho, Option.getD_some]
      have l2 := elem_length 0xa0 (vs.map RawValue.fullBytes).flatten
      rw [List.length_append]
      suffices entries ((vs.filter fun f => f.tag = 6).map RawValue.bytes) ≤ (vs.map RawValue.fullBytes).flatten.length by omega
      clear * - hv
      induction vs with
      | nil => simp [entries]
      | cons v l ih =>
        have := tlv_length (hv v (by simp))
        have := ih fun x hx => hv x (by simp [hx])
        rw [List.map_cons, List.flatten_cons, List.length_append, List.filter_cons]
        by_cases k : v.tag = 6
        · simp only [k, decide_true, if_true, List.map_cons, entries_cons]; omega
        · simp only [k, decide_false, Bool.false_eq_true, if_false]; omega
    · rw [ho]; simp [entries]
  · rw [hn]
    simp [entries]

theorem entries_flatMap {α : Type} (f : α → List Bytes) (l : List α) : entries (l.flatMap f) = (l.map fun a => entries (f a)).sum := by
  induction l with
  | nil => rfl
  | cons a l ih => rw [List.flatMap_cons, entries_append, ih]; rfl

theorem usages_size (l : List OID) (f : OID → Option Int) :
    2 * (l.filterMap f).length + oidEntries (l.filter fun o => f o = none) ≤ (l.map fun o => max 2 (o.length + 1)).sum := by
  induction l with
  | nil => simp [oidEntries]
  | cons o l ih =>
    cases h : f o with
    | none => simp [h, oidEntries] at ih ⊢; omega
    | some k => simp [h, oidEntries] at ih ⊢; omega

theorem access_size (l : List AIA) (a b : OID) (h : a ≠ b) :
    entries ((l.filter fun v => v.location.tag = 6 ∧ v.method = a).map fun v => v.location.bytes) +
      entries ((l.filter fun v => v.location.tag = 6 ∧ v.method = b).map fun v => v.location.bytes) ≤
      (l.map fun v => v.location.bytes.length + 2).sum := by
  induction l with
  | nil => simp [entries]
  | cons v l ih =>
    rw [List.filter_cons, List.filter_cons, List.map_cons, List.sum_cons]
    by_cases k : v.location.tag = 6 ∧ v.method = a
    · have k' : ¬ (v.location.tag = 6 ∧ v.method = b) := fun h' => h (k.2.symm.trans h'.2)
      rw [if_pos (by simpa using k), if_neg (by simpa using k'), List.map_cons, entries_cons]; omega
    · rw [if_neg (by simpa using k)]
      split
      · rw [List.map_cons, entries_cons]; omega
      · omega

/-- Reading an extension adds at most as much as its value has octets. -/
theorem effect_size {env : Env U} {e : Extension} {out out' : X509Cert U} {u : Bool} (h : Effect env e out out' u) :
    fromExtensions out' ≤ fromExtensions out + e.value.length ∧ out'.extensions = out.extensions ∧
      out'.unhandledCriticalExtensions = out.unhandledCriticalExtensions ∧ out'.raw = out.raw ∧ out'.rawTBS = out.rawTBS ∧ out'.rawSPKI = out.rawSPKI ∧
      out'.rawSubject = out.rawSubject ∧ out'.rawIssuer = out.rawIssuer ∧ out'.signature = out.signature ∧ out'.subject = out.subject ∧
      out'.issuer = out.issuer ∧ out'.extraExtensions = out.extraExtensions := by
  rcases h with ⟨_, k, _, _, rfl⟩ | ⟨_, ca, n, _, _, rfl⟩ | ⟨_, s, hs, _, rfl⟩ | ⟨_, p, x, hc, _, rfl⟩ | ⟨_, dps, hd, _, rfl⟩ | ⟨_, id, ha, _, rfl⟩ |
    ⟨_, oids, ho, _, rfl⟩ | ⟨_, id, hi, _, rfl⟩ | ⟨_, oids, ho, _, rfl⟩ | ⟨_, l, hl, _, rfl⟩ | ⟨_, _, rfl⟩
  · exact ⟨Nat.le_add_right _ _, rfl, rfl, rfl, rfl, rfl, rfl, rfl, rfl, rfl, rfl, rfl⟩
  · exact ⟨Nat.le_add_right _ _, rfl, rfl, rfl, rfl, rfl, rfl, rfl, rfl, rfl, rfl, rfl⟩
  · refine ⟨?_, rfl, rfl, rfl, rfl, rfl, rfl, rfl, rfl, rfl, rfl, rfl⟩
    have := sans_size hs
    simp only [fromExtensions]; omega
  · refine ⟨?_, rfl, rfl, rfl, rfl, rfl, rfl, rfl, rfl, rfl, rfl, rfl⟩
    obtain ⟨perm, excl, lp, lx, hv, _, h1, h2, _, _, rfl, rfl⟩ := hc
    have a := subtrees_size h1
    have b := subtrees_size h2
    have c := opt_length 0xa0 perm
    have d := opt_length 0xa1 excl
    have f := elem_length 0x30 (optField 0xa0 perm ++ optField 0xa1 excl)
    rw [List.length_append] at f
    have : e.value.length = (elem 0x30 (optField 0xa0 perm ++ optField 0xa1 excl)).length := by rw [hv]; rfl
    simp only [fromExtensions]; omega
  · refine ⟨?_, rfl, rfl, rfl, rfl, rfl, rfl, rfl, rfl, rfl, rfl, rfl⟩
    have := readList_sum (f := fun dp => entries (((dp.name.fullName.getD []).filter fun f => f.tag = 6).map RawValue.bytes))
      (fun a c h => le_trans (dps_size h) (Nat.le_add_right _ 2)) hd
    simp only [fromExtensions, entries_append, entries_flatMap]; omega
  · refine ⟨?_, rfl, rfl, rfl, rfl, rfl, rfl, rfl, rfl, rfl, rfl, rfl⟩
    obtain ⟨c, more, hv, _, hm⟩ := ha
    have f := elem_length 0x30 c
    rw [← hv] at f
    have : (id.getD []).length ≤ c.length := by
      rcases hm with ⟨c', _, rfl, rfl⟩ | ⟨rfl, _⟩
      · have := elem_length 0x80 c'
        rw [List.length_append, Option.getD_some]; omega
      · simp
    simp only [fromExtensions]; omega
  · refine ⟨?_, rfl, rfl, rfl, rfl, rfl, rfl, rfl, rfl, rfl, rfl, rfl⟩
    have := readList_sum (f := fun o : OID => max 2 (o.length + 1)) (fun a c h => by have := readOID_length h; omega) ho
    have := usages_size oids extKeyUsageFromOID
    simp only [fromExtensions, oidEntries_append, List.length_append]; omega
  · refine ⟨?_, rfl, rfl, rfl, rfl, rfl, rfl, rfl, rfl, rfl, rfl, rfl⟩
    have := elem_length 0x04 id
    rw [← hi.2] at this
    simp only [fromExtensions]; omega
  · refine ⟨?_, rfl, rfl, rfl, rfl, rfl, rfl, rfl, rfl, rfl, rfl, rfl⟩
    have := readList_sum (f := fun o : OID => o.length + 1) (fun a c h => by
      obtain ⟨oc, more, rfl, h⟩ := h
      have := readOID_length h
      have := elem_length 0x06 oc
      rw [List.length_append]; omega) ho
    simp only [fromExtensions, oidEntries]; omega
  · refine ⟨?_, rfl, rfl, rfl, rfl, rfl, rfl, rfl, rfl, rfl, rfl, rfl⟩
    have := readList_sum (f := fun a : AIA => a.location.bytes.length + 2) (fun a c h => by
      obtain ⟨oc, more, rfl, _, h⟩ := h
      have := tlv_length h
      rw [List.length_append, List.length_append]; omega) hl
    have := access_size l [1, 3, 6, 1, 5, 5, 7, 48, 1] [1, 3, 6, 1, 5, 5, 7, 48, 2] (by decide)
    simp only [fromExtensions, entries_append]; omega
  · exact ⟨Nat.le_add_right _ _, rfl, rfl, rfl, rfl, rfl, rfl, rfl, rfl, rfl, rfl, rfl⟩

/-- The octets of the values. -/
def valueOctets (l : List Extension) : ℕ := (l.map fun e => e.value.length).sum

theorem effects_size {env : Env U} {es : List Extension} {out r : X509Cert U} (h : Effects env es out r) :
    fromExtensions r ≤ fromExtensions out + valueOctets es ∧ r.extensions = out.extensions ++ es ∧
      (∃ l, r.unhandledCriticalExtensions = out.unhandledCriticalExtensions ++ l ∧ l.Sublist (es.map Extension.id)) ∧
      r.raw = out.raw ∧ r.rawTBS = out.rawTBS ∧ r.rawSPKI = out.rawSPKI ∧
      r.rawSubject = out.rawSubject ∧ r.rawIssuer = out.rawIssuer ∧ r.signature = out.signature ∧ r.subject = out.subject ∧
      r.issuer = out.issuer ∧ r.extraExtensions = out.extraExtensions := by
  induction h with
  | nil out => exact ⟨le_rfl, by simp, ⟨[], by simp, by simp⟩, rfl, rfl, rfl, rfl, rfl, rfl, rfl, rfl, rfl⟩
  | @cons e es out mid r u he _ ih =>
    obtain ⟨a, b, c, d⟩ := effect_size he
    obtain ⟨a', b', ⟨l, c', cl⟩, d'⟩ := ih
    have e1 : fromExtensions ({ out with extensions := out.extensions ++ [e] } : X509Cert U) = fromExtensions out := rfl
    have e2 : valueOctets (e :: es) = e.value.length + valueOctets es := rfl
    rw [e1] at a
    rw [e2]
    by_cases hu : e.critical = true ∧ u = true
    · rw [if_pos hu] at a' b' c' d'
      refine ⟨?_, ?_, ⟨e.id :: l, ?_, ?_⟩, ?_⟩
      · have : fromExtensions ({ mid with unhandledCriticalExtensions := mid.unhandledCriticalExtensions ++ [e.id] } : X509Cert U) = fromExtensions mid := rfl
        omega
      · rw [b']; dsimp only; rw [b]; simp
      · rw [c']; dsimp only; rw [c]; simp
      · exact cl.cons_cons _
      · obtain ⟨d1, d2, d3, d4, d5, d6, d7, d8, d9⟩ := d
        obtain ⟨f1, f2, f3, f4, f5, f6, f7, f8, f9⟩ := d'
        exact ⟨f1.trans d1, f2.trans d2, f3.trans d3, f4.trans d4, f5.trans d5, f6.trans d6, f7.trans d7, f8.trans d8, f9.trans d9⟩
    · rw [if_neg hu] at a' b' c' d'
      refine ⟨by omega, ?_, ⟨l, ?_, ?_⟩, ?_⟩
      · rw [b', b]; simp
      · rw [c', c]
      · exact cl.cons _
      · obtain ⟨d1, d2, d3, d4, d5, d6, d7, d8, d9⟩ := d
        obtain ⟨f1, f2, f3, f4, f5, f6, f7, f8, f9⟩ := d'
        exact ⟨f1.trans d1, f2.trans d2, f3.trans d3, f4.trans d4, f5.trans d5, f6.trans d6, f7.trans d7, f8.trans d8, f9.trans d9⟩

/-! ## Names -/

theorem fill_size (n : Name) (a : ATV) (e : Bytes) (h : ReadAttribute a e) : nameSize (n.fillATV a) ≤ nameSize n + e.length := by
  obtain ⟨oid, v, cls, cmp, tag, c, extra, h1, h2, h3, rfl⟩ := h
  have l1 := tlv_length h2
  have l2 := elem_length 0x30 (elem 0x06 oid ++ v ++ extra)
  have l3 := elem_length 0x06 oid
  simp only [List.length_append] at l2
  have l4 : 1 ≤ oid.length := by
    obtain ⟨hv, gs, rfl, hg⟩ := h1
    have g := groups_length (fun n g h => by have := h.1; rintro rfl; simp [IsGroup] at this) hg
    have := subids_length hv
    have : 2 ≤ a.type.length := by
      match a.type, hv with
      | _ :: _ :: _, _ => simp
    omega
  unfold Name.fillATV
  dsimp only
  split
  next s hs =>
    have hc : c = s := by
      rw [hs] at h3
      unfold ValueOf at h3
      split at h3
      · exact h3.1
      · cases h3
    subst hc
    split <;> [skip; split <;> [skip; split <;> [skip; split <;> [skip; split <;> [skip; split <;> [skip; split <;> [skip; split <;> [skip; split]]]]]]]] <;>
      simp only [nameSize, entries_append, entries_cons, List.length_append, List.length_cons, List.length_nil, show entries [] = 0 from rfl] <;> omega
  next => simp only [nameSize, List.length_append, List.length_cons, List.length_nil]; omega

theorem fillAll_size {rdn : List ATV} {es : List Bytes} (h : List.Forall₂ ReadAttribute rdn es) :
    ∀ n, nameSize (rdn.foldl Name.fillATV n) ≤ nameSize n + es.flatten.length := by
  induction h with
  | nil => intro n; simp
  | cons hx _ ih =>
    intro n
    have := fill_size n _ _ hx
    rw [List.foldl_cons, List.flatten_cons, List.length_append]
    refine le_trans (ih _) ?_
    omega

theorem name_size {rdns : RDNSequence} {e : Bytes} (h : ReadName rdns e) : nameSize (Name.fillFromRDNSequence {} rdns) ≤ e.length := by
  obtain ⟨sets, rfl, hq, h⟩ := h
  clear hq
  refine le_trans ?_ (le_trans (Nat.le_add_right _ 2) (elem_length 0x30 _))
  have : ∀ n, nameSize (Name.fillFromRDNSequence n rdns) ≤ nameSize n + (sets.flatMap fun s => elem 0x31 s.flatten).length := by
    unfold Name.fillFromRDNSequence
    induction h with
    | nil => intro n; simp
    | @cons rdn s _ _ hx _ ih =>
      intro n
      rw [List.foldl_cons, List.flatMap_cons, List.length_append]
      have := fillAll_size hx n
      have := elem_length 0x31 s.flatten
      refine le_trans (ih _) ?_
      omega
  have h0 : nameSize ({} : Name) = 0 := rfl
  have := this {}
  omega

/-! ## C150 -/

theorem extension_size {e : Extension} {w : Bytes} (h : ReadExtension e w) : e.id.length + e.value.length + 5 ≤ w.length := by
  obtain ⟨oc, crit, more, h1, _, rfl⟩ := h
  have a := readOID_length h1
  have b := elem_length 0x30 (elem 0x06 oc ++ (crit ++ (elem 0x04 e.value ++ more)))
  have c := elem_length 0x06 oc
  have d := elem_length 0x04 e.value
  simp only [List.length_append] at b
  omega

theorem readBits_size {s c : Bytes} (h : ReadBits s c) : s.length + 1 = c.length := by
  obtain ⟨p, b, rfl, _, _, h, _⟩ := h
  rw [List.length_cons, h]

/-- **C150** for certificates: the fields that hold octets of the certificate lie in it without overlapping, the names are no larger
than their encodings, and everything that is read from the extensions is no larger than their values. -/
theorem C150_certificate (env : Env U) (data : Bytes) (c : X509Cert U) (h : parseCertificate env data = .ok c) :
    c.raw = data ∧ c.rawTBS.length + c.signature.length < data.length ∧
    c.rawSPKI.length + c.rawSubject.length + c.rawIssuer.length + extensionEntries c.extensions < c.rawTBS.length ∧
    nameSize c.subject ≤ c.rawSubject.length ∧ nameSize c.issuer ≤ c.rawIssuer.length ∧
    fromExtensions c ≤ valueOctets c.extensions ∧ c.unhandledCriticalExtensions.Sublist (c.extensions.map Extension.id) ∧ c.extraExtensions = [] := by
  obtain ⟨p, tbs, x, y, issuer, subject, signature, hw, he⟩ := (C144_exact env data c).1 h
  obtain ⟨s1, s2, ⟨l, s3, s3'⟩, s4, s5, s6, s7, s8, s9, s10, s11, s12⟩ := effects_size he
  obtain ⟨alg, params, sc, more, hi, hn1, hn2, hk, ha, hb, hd, _⟩ := hw
  dsimp only at s1 s2 s3 s4 s5 s6 s7 s8 s9 s10 s11 s12
  rw [List.nil_append] at s2 s3
  have f0 : fromExtensions ({
      raw := data, rawTBS := tbs, rawSPKI := p.key, rawSubject := p.subject, rawIssuer := p.issuer, signature := signature
      publicKey := some ⟨x, y⟩, version := (BitVec.ofInt 64 (p.version + 1)).toInt, serialNumber := some p.serial
      issuer := Name.fillFromRDNSequence {} issuer, subject := Name.fillFromRDNSequence {} subject
      notBefore := p.notBefore, notAfter := p.notAfter } : X509Cert U) = 0 := rfl
  rw [f0, Nat.zero_add] at s1
  refine ⟨s4, ?_, ?_, ?_, ?_, by rw [s2]; exact s1, by rw [s3, s2]; exact s3', s12⟩
  · rw [s5, s9, hd]
    have a := elem_length 0x30 (tbs ++ (alg ++ (elem 0x03 sc ++ more)))
    have b := elem_length 0x03 sc
    have d := readBits_size hb
    simp only [List.length_append] at a
    omega
  · rw [s2, s5, s6, s7, s8]
    obtain ⟨pre, sc', alg', oid, params', t1, t2, vmore, r1, id1, r2, id2, r3, more', rfl, _, _, _, _, _, m1, m2, m3⟩ := hi
    have a := elem_length 0x30 (pre ++ (elem 0x02 sc' ++ (alg' ++ (p.issuer ++ (elem 0x30 (t1 ++ (t2 ++ vmore)) ++ (p.subject ++ (p.key ++ r1)))))))
    simp only [List.length_append] at a
    have b := mayBe_length m1
    have d := mayBe_length m2
    suffices extensionEntries (p.exts.getD []) ≤ r3.length by omega
    rcases m3 with ⟨n, cc, _, _, _, rfl, es, ws, ho, rfl, hf⟩ | ⟨ho, _⟩
    · rw [ho, Option.getD_some]
      have g := elem_length 0x30 ws.flatten
      have k : extensionEntries es ≤ ws.flatten.length := forall₂_sum (fun e w h => extension_size h) hf
      simp only [List.length_cons, List.length_append]
      omega
    · rw [ho]; simp [extensionEntries]
  · rw [s10, s7]; exact name_size hn2
  · rw [s11, s8]; exact name_size hn1

/-- In all: what is read from the extensions and the two names together are smaller than the certificate. -/
theorem C150_total (env : Env U) (data : Bytes) (c : X509Cert U) (h : parseCertificate env data = .ok c) :
    fromExtensions c + nameSize c.subject + nameSize c.issuer + c.signature.length < data.length := by
  obtain ⟨_, h1, h2, h3, h4, h5, _⟩ := C150_certificate env data c h
  have : valueOctets c.extensions ≤ extensionEntries c.extensions := by
    unfold valueOctets extensionEntries
    clear * -
    induction c.extensions with
    | nil => simp
    | cons e l ih => simp only [List.map_cons, List.sum_cons]; omega
  omega

theorem asks_size {a : Bytes} {es : List Extension} (h : AsksFor a es) : extensionEntries es ≤ a.length := by
  rcases h with ⟨v, ws, hf, rfl, hw⟩ | ⟨_, rfl⟩
  · obtain ⟨oc, values, more, _, _, rfl⟩ := hf
    have a := elem_length 0x30 (elem 0x06 oc ++ (elem 0x31 (elem 0x30 ws.flatten :: values).flatten ++ more))
    have b := elem_length 0x31 (elem 0x30 ws.flatten :: values).flatten
    have c := elem_length 0x30 ws.flatten
    simp only [List.length_append, List.flatten_cons] at a b
    have k : extensionEntries es ≤ ws.flatten.length := forall₂_sum (fun e w h => extension_size h) hw
    rw [List.flatten_cons]
    omega
  · simp [extensionEntries]

theorem pieces_size {attrs : List Bytes} {pieces : List (List Extension)} (h : List.Forall₂ AsksFor attrs pieces) :
    extensionEntries pieces.flatten ≤ attrs.flatten.length := by
  induction h with
  | nil => simp [extensionEntries]
  | cons hx _ ih =>
    have := asks_size hx
    rw [List.flatten_cons, List.flatten_cons, extensionEntries_append, List.length_append]; omega

theorem sansOf_size {env : Env U} {exts : List Extension} {s : Sans U} (h : SansOf env exts s) :
    entries s.dnsNames + entries s.emailAddresses + entries s.ipAddresses + 2 * s.uris.length ≤ valueOctets exts := by
  rcases h.2 with ⟨l1, e, l2, rfl, _, _, hs⟩ | ⟨_, rfl⟩
  · have := sans_size hs
    simp only [valueOctets, List.map_append, List.map_cons, List.sum_append, List.sum_cons]; omega
  · simp [entries]

/-- **C150** for requests (`Attributes`, which may repeat the extensions as values of attributes, is in `C150_attributes`). -/
theorem C150_request (env : Env U) (data : Bytes) (r : CertReq U) (h : parseCertificateRequest env data = .ok r) :
    r.raw = data ∧ r.rawTBS.length + r.signature.length < data.length ∧
    r.rawSPKI.length + r.rawSubject.length + extensionEntries r.extensions < r.rawTBS.length ∧
    nameSize r.subject ≤ r.rawSubject.length ∧
    entries r.dnsNames + entries r.emailAddresses + entries r.ipAddresses + 2 * r.uris.length ≤ valueOctets r.extensions := by
  obtain ⟨version, subject, key, x, y, exts, s, tbs, signature, hr⟩ := (C143_accepts env data).1.1 ⟨r, h⟩
  obtain ⟨r', h', e1, e2, e3, e4, _, _, e5, e6, e7, e8, e9, e10⟩ := (C143_exact env data tbs subject key signature version x y exts s).2 hr
  obtain rfl : r = r' := Res.ok.inj (h.symm.trans h')
  obtain ⟨rdns, attrs, pieces, alg, params, sc, more, ⟨vc, extra, _, _, _, hi⟩, _, _, hp, he, hs, _, hb, hd, _⟩ := hr
  refine ⟨e1, ?_, ?_, ?_, ?_⟩
  · rw [e2, e6, hd]
    have a := elem_length 0x30 (tbs ++ (alg ++ (elem 0x03 sc ++ more)))
    have b := elem_length 0x03 sc
    have d := readBits_size hb
    simp only [List.length_append] at a
    omega
  · rw [e2, e3, e4, e5, hi, he]
    have a := elem_length 0x30 (elem 0x02 vc ++ (subject ++ (key ++ (elem 0xa0 attrs.flatten ++ extra))))
    have b := elem_length 0xa0 attrs.flatten
    have c := pieces_size hp
    simp only [List.length_append] at a
    omega
  · clear * - h
    unfold parseCertificateRequest at h
    rw [Res.bind_eq_ok] at h
    obtain ⟨v, _, h⟩ := h
    rcases ite_ok h with ⟨_, h⟩ | ⟨_, h⟩
    · cases h
    unfold parseCSR at h
    rw [Res.bind_eq_ok] at h
    obtain ⟨_, _, h⟩ := h
    rcases ite_ok h with ⟨_, h⟩ | ⟨_, h⟩
    · cases h
    rcases ite_ok h with ⟨_, h⟩ | ⟨_, h⟩
    · cases h
    simp only [Res.bind_eq_ok] at h
    obtain ⟨pub, _, rdns, hn, exts, _, sans, _, h⟩ := h
    obtain rfl := Res.ok.inj h
    exact name_size ((C83_exact _ _).1 hn)
  · rw [e5, e7, e8, e9, e10]
    exact sansOf_size hs

/-- Two SAN extensions of 7 and 11 octets, of which the second counts (9), and two extended key usages, one of them known (4 and 2). -/
example : (match parseCertificate exEnv (exCertAfter (elem 0xa3 (elem 0x30
      ([exExtension [0x55, 0x1d, 0x11] false (elem 0x30 (elem 0x82 [0x61, 0x62, 0x63])),
        exExtension [0x55, 0x1d, 0x11] false (elem 0x30 (elem 0x82 [0x61] ++ elem 0x87 [1, 2, 3, 4])),
        exExtension [0x55, 0x1d, 0x25] false (elem 0x30 (elem 0x06 [0x2a, 0x03] ++ elem 0x06 [0x55, 0x1d, 0x25, 0]))].flatten)))) with
    | .ok c => (fromExtensions c, valueOctets c.extensions, extensionEntries c.extensions, nameSize c.subject, c.rawSubject.length)
    | _ => (0, 0, 0, 0, 0)) = (15, 30, 57, 6, 14) := by decide +kernel

end Verif.Props
