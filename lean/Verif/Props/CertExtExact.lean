import Verif.Props.CertFieldExact
import Verif.Props.CertConstraints
import Verif.Props.CertUsage
import Verif.Props.CertRepeated
/-!
# C144: exactly which extension values are read

The grammars of the ten extensions that `parseCertificate` reads, octet by octet, and what it takes from them.
-/
namespace Verif.Props
open Verif Verif.Der Verif.Cert Verif.Spec.DER Verif.Spec.Cert
open Verif.Spec.Names (bits)

variable {U : Type}

/-! ## Grammar -/

/-- Key usage: bits 0 to 8 of a bit string. -/
def ReadKeyUsage (k : ℕ) (value : Bytes) : Prop :=
  ∃ data c n, value = elem 0x03 c ∧ c.length < 2 ^ 31 ∧ IsBitString data n c ∧ k < 512 ∧ ∀ i < 9, k.testBit i = (bits data).getD i false

/-- Basic constraints: both fields may be absent, more octets may follow. -/
def ReadBasicConstraints (isCA : Bool) (pathLen : Int) (value : Bytes) : Prop :=
  ∃ c r more, value = elem 0x30 c ∧ c.length < 2 ^ 31 ∧ MayBe 0x01 (fun b c => c = [if b then 0xff else 0]) false isCA c r ∧
    MayBe 0x02 (fun n c => IsInt n c ∧ c.length ≤ 8) (-1) pathLen r more

/-- Name constraints (as `C56_parse`). -/
def ReadNameConstraints (env : Env U) (ps xs : Subtrees) (value : Bytes) : Prop :=
  ∃ (perm excl : Option Bytes) (lp lx : List (Base × Bytes)), value = nameConstraints perm excl ∧ value.length < 2 ^ 32 ∧
    AreSubtrees lp (perm.getD []) ∧ AreSubtrees lx (excl.getD []) ∧ ¬ (lp = [] ∧ lx = []) ∧
    (∀ x ∈ lp ++ lx, ValidBase env.isIP x.1) ∧ ps = subtreesOf (lp.map Prod.fst) ∧ xs = subtreesOf (lx.map Prod.fst)

/-- An optional element of any form with context-specific tag 2. -/
def MayBeRaw2 (v : RawValue) (bs rest : Bytes) : Prop :=
  (v.cls = 2 ∧ v.tag = 2 ∧ ReadTLV 2 v.isCompound 2 v.bytes v.fullBytes ∧ bs = v.fullBytes ++ rest) ∨
  (v = {} ∧ rest = bs ∧ (bs = [] ∨ (∃ n r, SomeHeader n r bs) ∧ bs.head? ≠ some 0x82 ∧ bs.head? ≠ some 0xa2))

/-- The contents of a `DistributionPointName`. -/
def ReadDPName (n : DPName) (c : Bytes) : Prop :=
  ∃ r more,
    MayBe 0xa0 (fun (o : Option (List RawValue)) c => ∃ vs, o = some vs ∧ c = (vs.map RawValue.fullBytes).flatten ∧
      ∀ v ∈ vs, ReadTLV v.cls v.isCompound v.tag v.bytes v.fullBytes) none n.fullName c r ∧
    MayBe 0xa1 (fun (o : Option RDNSequence) c => ∃ rdns, o = some rdns ∧ ReadName rdns (elem 0x30 c)) none n.relativeName r more

/-- The contents of a `DistributionPoint`. -/
def ReadDP (dp : DP) (c : Bytes) : Prop :=
  ∃ r1 r2 more, MayBe 0xa0 ReadDPName {} dp.name c r1 ∧
    MayBe 0x81 (fun (o : Option BitString) c => ∃ s, o = some s ∧ IsBitString s.bytes s.bitLength c) none dp.reason r1 r2 ∧
    MayBeRaw2 dp.crlIssuer r2 more

/-- A SEQUENCE OF elements with identifier octet `t`. -/
def ReadList {α : Type} (t : Byte) (P : α → Bytes → Prop) (l : List α) (value : Bytes) : Prop :=
  ∃ cs : List Bytes, value = elem 0x30 (cs.flatMap (elem t)) ∧ (cs.flatMap (elem t)).length < 2 ^ 31 ∧ List.Forall₂ P l cs

/-- Authority key identifier. -/
def ReadAuthorityKeyId (id : Option Bytes) (value : Bytes) : Prop :=
  ∃ c more, value = elem 0x30 c ∧ c.length < 2 ^ 31 ∧ MayBe 0x80 (fun i c => i = some c) none id c more

/-- The contents of a `PolicyInformation`: what follows the identifier is not looked at. -/
def ReadPolicy (oid : OID) (c : Bytes) : Prop := ∃ oc more, c = elem 0x06 oc ++ more ∧ ReadOID oid oc

/-- The contents of an `AccessDescription`. -/
def ReadAccess (a : AIA) (c : Bytes) : Prop :=
  ∃ oc more, c = elem 0x06 oc ++ (a.location.fullBytes ++ more) ∧ ReadOID a.method oc ∧
    ReadTLV a.location.cls a.location.isCompound a.location.tag a.location.bytes a.location.fullBytes

/-- An extension that `parseCertificate` can read. -/
def Readable (env : Env U) (e : Extension) : Prop :=
  (e.id = [2, 5, 29, 15] → ∃ k, ReadKeyUsage k e.value) ∧
  (e.id = [2, 5, 29, 19] → ∃ ca n, ReadBasicConstraints ca n e.value) ∧
  (e.id = [2, 5, 29, 17] → ∃ s, ReadSANs env e.value s) ∧
  (e.id = [2, 5, 29, 30] → ∃ ps xs, ReadNameConstraints env ps xs e.value) ∧
  (e.id = [2, 5, 29, 31] → ∃ dps, ReadList 0x30 ReadDP dps e.value) ∧
  (e.id = [2, 5, 29, 35] → ∃ id, ReadAuthorityKeyId id e.value) ∧
  (e.id = [2, 5, 29, 37] → ∃ oids, ReadList 0x06 ReadOID oids e.value) ∧
  (e.id = [2, 5, 29, 14] → ∃ id : Bytes, id.length < 2 ^ 31 ∧ e.value = elem 0x04 id) ∧
  (e.id = [2, 5, 29, 32] → ∃ oids, ReadList 0x30 ReadPolicy oids e.value) ∧
  (e.id = [1, 3, 6, 1, 5, 5, 7, 1, 1] → ∃ l, ReadList 0x30 ReadAccess l e.value)

/-- What an extension does to the certificate `out` so far, and whether it counts as unhandled. -/
def Effect (env : Env U) (e : Extension) (out out' : X509Cert U) (unhandled : Bool) : Prop :=
  (e.id = [2, 5, 29, 15] ∧ ∃ k : ℕ, ReadKeyUsage k e.value ∧ unhandled = false ∧ out' = { out with keyUsage := k }) ∨
  (e.id = [2, 5, 29, 19] ∧ ∃ ca n, ReadBasicConstraints ca n e.value ∧ unhandled = false ∧
    out' = { out with basicConstraintsValid := true, isCA := ca, maxPathLen := n, maxPathLenZero := n = 0 }) ∨
  (e.id = [2, 5, 29, 17] ∧ ∃ s, ReadSANs env e.value s ∧
    unhandled = (s.dnsNames = [] ∧ s.emailAddresses = [] ∧ s.ipAddresses = [] ∧ s.uris.isEmpty = true) ∧
    out' = { out with dnsNames := s.dnsNames, emailAddresses := s.emailAddresses, ipAddresses := s.ipAddresses, uris := s.uris }) ∨
  (e.id = [2, 5, 29, 30] ∧ ∃ p x, ReadNameConstraints env p x e.value ∧ unhandled = (p.unhandled || x.unhandled) ∧
    out' = { out with
      permittedDNSDomains := p.dnsNames, permittedIPRanges := p.ips
      permittedEmailAddresses := p.emails, permittedURIDomains := p.uriDomains
      excludedDNSDomains := x.dnsNames, excludedIPRanges := x.ips
      excludedEmailAddresses := x.emails, excludedURIDomains := x.uriDomains
      permittedDNSDomainsCritical := e.critical }) ∨
  (e.id = [2, 5, 29, 31] ∧ ∃ dps, ReadList 0x30 ReadDP dps e.value ∧ unhandled = false ∧
    out' = { out with crlDistributionPoints := out.crlDistributionPoints ++
      (dps.flatMap fun dp => ((dp.name.fullName.getD []).filter fun f => f.tag = 6).map RawValue.bytes) }) ∨
  (e.id = [2, 5, 29, 35] ∧ ∃ id, ReadAuthorityKeyId id e.value ∧ unhandled = false ∧ out' = { out with authorityKeyId := id.getD [] }) ∨
  (e.id = [2, 5, 29, 37] ∧ ∃ oids, ReadList 0x06 ReadOID oids e.value ∧ unhandled = false ∧
    out' = { out with
      extKeyUsage := out.extKeyUsage ++ oids.filterMap extKeyUsageFromOID
      unknownExtKeyUsage := out.unknownExtKeyUsage ++ (oids.filter fun o => extKeyUsageFromOID o = none) }) ∨
  (e.id = [2, 5, 29, 14] ∧ ∃ id : Bytes, (id.length < 2 ^ 31 ∧ e.value = elem 0x04 id) ∧ unhandled = false ∧ out' = { out with subjectKeyId := id }) ∨
  (e.id = [2, 5, 29, 32] ∧ ∃ oids, ReadList 0x30 ReadPolicy oids e.value ∧ unhandled = false ∧ out' = { out with policyIdentifiers := oids }) ∨
  (e.id = [1, 3, 6, 1, 5, 5, 7, 1, 1] ∧ ∃ l, ReadList 0x30 ReadAccess l e.value ∧ unhandled = false ∧
    out' = { out with
      ocspServer := out.ocspServer ++ (l.filter fun a => a.location.tag = 6 ∧ a.method = [1, 3, 6, 1, 5, 5, 7, 48, 1]).map fun a => a.location.bytes
      issuingCertificateURL := out.issuingCertificateURL ++
        (l.filter fun a => a.location.tag = 6 ∧ a.method = [1, 3, 6, 1, 5, 5, 7, 48, 2]).map fun a => a.location.bytes }) ∨
  (e.id ∉ ([[2, 5, 29, 15], [2, 5, 29, 19], [2, 5, 29, 17], [2, 5, 29, 30], [2, 5, 29, 31], [2, 5, 29, 35], [2, 5, 29, 37], [2, 5, 29, 14],
    [2, 5, 29, 32], [1, 3, 6, 1, 5, 5, 7, 1, 1]] : List OID) ∧ unhandled = true ∧ out' = out)

/-! ## Lemmas -/

theorem mayBe_congr {α : Type} {t : Byte} {P Q : α → Bytes → Prop} {a v : α} {bs rest : Bytes} (h : ∀ v c, c.length < 2 ^ 31 → (P v c ↔ Q v c)) :
    MayBe t P a v bs rest ↔ MayBe t Q a v bs rest := by
  unfold MayBe
  refine or_congr (exists_congr fun c => ?_) Iff.rfl
  constructor
  · rintro ⟨h1, h2, h3⟩; exact ⟨h1, h2, (h _ _ h1).1 h3⟩
  · rintro ⟨h1, h2, h3⟩; exact ⟨h1, h2, (h _ _ h1).2 h3⟩

theorem tail_length {bs a b : Bytes} (h : bs = a ++ b) (hl : bs.length < 2 ^ 31) : b.length < 2 ^ 31 := by
  rw [h, List.length_append] at hl; omega

theorem unmarshalAll_struct {α : Type} {zero : α} {isZero : α → Bool} {body : Bytes → Bytes → Res α} {make : α → Res Bytes} {bs : Bytes} {v : α} :
    unmarshalAll (tyStruct zero isZero body make) bs = .ok v ↔ ∃ c, bs = elem 0x30 c ∧ c.length < 2 ^ 31 ∧ body c (elem 0x30 c) = .ok v := by
  rw [unmarshalAll_iff, parseField_struct_iff]
  simp only [List.append_nil]
  exact exists_congr fun c => ⟨fun ⟨a, b, d⟩ => ⟨b, a, d⟩, fun ⟨a, b, d⟩ => ⟨b, a, d⟩⟩

theorem unmarshalAll_list {α : Type} {ty : Ty α} {P : α → Bytes → Prop} (hm : ty.matchAny = false) (hti : ty.isTime = false) (ht : ty.tag < 31)
    (hseq : seqTag ty.tag = ty.tag) (hP : ∀ v c full, c.length < 2 ^ 31 → (ty.body ⟨0, ty.compound, ty.tag, c.length⟩ ty.tag c full = .ok v ↔ P v c))
    {bs : Bytes} {l : List α} : unmarshalAll (tySlice false ty) bs = .ok l ↔ ReadList (idOctet 0 ty.tag ty.compound) P l bs := by
  rw [unmarshalAll_iff, parseField_slice_exact]
  simp only [List.append_nil, Bool.false_eq_true, if_false]
  constructor
  · rintro ⟨c, h1, rfl, h2⟩
    obtain ⟨cs, rfl, h3⟩ := (parseSequenceOf_exact hm hti ht hseq hP h1).1 h2
    exact ⟨cs, rfl, h1, h3⟩
  · rintro ⟨cs, rfl, h1, h2⟩
    exact ⟨_, h1, rfl, (parseSequenceOf_exact hm hti ht hseq hP h1).2 ⟨cs, rfl, h2⟩⟩

theorem basicConstraints_exact {v : Bytes} {c : BasicConstraints} : unmarshalAll tyBasicConstraints v = .ok c ↔ ReadBasicConstraints c.isCA c.maxPathLen v := by
  unfold tyBasicConstraints
  rw [unmarshalAll_struct]
  simp only [Res.bind_eq_ok]
  have e1 : ∀ (b : Bool) (bs r : Bytes), parseField tyBool { optional := true } bs = .ok (b, r) ↔
      MayBe 0x01 (fun b c => c = [if b then 0xff else 0]) false b bs r := fun b bs r =>
    (parseField_mayBe (ty := tyBool) (p := { optional := true }) rfl rfl rfl rfl (by decide)).trans (mayBe_congr fun v c _ => parseBool_exact)
  have e2 : ∀ (n : Int) (bs r : Bytes), parseField tyInt { optional := true, defaultValue := some (-1) } bs = .ok (n, r) ↔
      MayBe 0x02 (fun n c => IsInt n c ∧ c.length ≤ 8) (-1) n bs r := fun n bs r =>
    (parseField_mayBe (ty := tyInt) (p := { optional := true, defaultValue := some (-1) }) rfl rfl rfl rfl (by decide)).trans
      (mayBe_congr fun v c _ => parseInt64_iff c v)
  constructor
  · rintro ⟨b, h1, h2, ⟨ca, r⟩, h3, ⟨n, more⟩, h4, h5⟩
    simp only [Res.ok.injEq] at h5
    subst h5
    exact ⟨b, r, more, h1, h2, (e1 _ _ _).1 h3, (e2 _ _ _).1 h4⟩
  · rintro ⟨b, r, more, h1, h2, h3, h4⟩
    exact ⟨b, h1, h2, (c.isCA, r), (e1 _ _ _).2 h3, (c.maxPathLen, more), (e2 _ _ _).2 h4, rfl⟩

theorem authorityKeyId_exact {v : Bytes} {a : Option Bytes} : unmarshalAll tyAuthKeyId v = .ok a ↔ ReadAuthorityKeyId a v := by
  unfold tyAuthKeyId
  rw [unmarshalAll_struct]
  simp only [Res.bind_eq_ok]
  have e1 : ∀ (b : Option Bytes) (bs r : Bytes), parseField tyOptBytes { optional := true, tag := some 0 } bs = .ok (b, r) ↔
      MayBe 0x80 (fun i c => i = some c) none b bs r := fun b bs r =>
    (parseField_mayBe (ty := tyOptBytes) (p := { optional := true, tag := some 0 }) rfl rfl rfl rfl (by decide)).trans (mayBe_congr fun v c _ => by
      show Res.ok (some c) = Res.ok v ↔ _
      rw [Res.ok.injEq, eq_comm])
  constructor
  · rintro ⟨b, h1, h2, ⟨ca, r⟩, h3, h5⟩
    simp only [Res.ok.injEq] at h5
    subst h5
    exact ⟨b, r, h1, h2, (e1 _ _ _).1 h3⟩
  · rintro ⟨b, r, h1, h2, h3⟩
    exact ⟨b, h1, h2, (a, r), (e1 _ _ _).2 h3, rfl⟩

theorem oidList_exact {v : Bytes} {l : List OID} : unmarshalAll (tySlice false tyOID) v = .ok l ↔ ReadList 0x06 ReadOID l v :=
  unmarshalAll_list (ty := tyOID) rfl rfl (by decide) rfl fun v c full _ => (readOID_iff v c).symm

theorem subjectKeyId_exact {v id : Bytes} : unmarshalAll tyBytes v = .ok id ↔ id.length < 2 ^ 31 ∧ v = elem 0x04 id := by
  rw [unmarshalAll_iff, parseField_iff (ty := tyBytes) (p := {}) rfl rfl rfl rfl (by decide)]
  simp only [List.append_nil]
  constructor
  · rintro ⟨c, h1, h2, h3⟩
    obtain rfl : c = id := Res.ok.inj h3
    exact ⟨h1, h2⟩
  · rintro ⟨h1, h2⟩
    exact ⟨id, h1, h2, rfl⟩

theorem policies_exact {v : Bytes} {l : List OID} : unmarshalAll (tySlice false tyPolicyInformation) v = .ok l ↔ ReadList 0x30 ReadPolicy l v := by
  refine unmarshalAll_list (ty := tyPolicyInformation) rfl rfl (by decide) rfl fun v c full hc => ?_
  show (do let a ← parseField tyOID {} c; Res.ok a.1) = .ok v ↔ _
  rw [Res.bind_eq_ok]
  constructor
  · rintro ⟨⟨o, r⟩, h1, h2⟩
    obtain rfl : o = v := Res.ok.inj h2
    obtain ⟨oc, _, h3, h4⟩ := parseField_oid_exact.1 h1
    exact ⟨oc, r, h3, h4⟩
  · rintro ⟨oc, more, rfl, h⟩
    have := length_le_elem 0x06 oc
    rw [List.length_append] at hc
    exact ⟨(v, more), parseField_oid_exact.2 ⟨oc, by omega, rfl, h⟩, rfl⟩

theorem access_exact {v : Bytes} {l : List AIA} : unmarshalAll (tySlice false tyAIA) v = .ok l ↔ ReadList 0x30 ReadAccess l v := by
  refine unmarshalAll_list (ty := tyAIA) rfl rfl (by decide) rfl fun v c full hc => ?_
  show (do let a ← parseField tyOID {} c; let b ← parseField tyRaw {} a.2; Res.ok (⟨a.1, b.1⟩ : AIA)) = .ok v ↔ _
  simp only [Res.bind_eq_ok]
  constructor
  · rintro ⟨⟨o, r⟩, h1, ⟨w, r'⟩, h2, h3⟩
    obtain rfl := Res.ok.inj h3
    obtain ⟨oc, _, h4, h5⟩ := parseField_oid_exact.1 h1
    obtain ⟨h6, h7⟩ := (parseField_raw_exact _ _ _).1 h2
    dsimp only at h7
    exact ⟨oc, r', by rw [h4, h7], h5, h6⟩
  · rintro ⟨oc, more, rfl, h1, h2⟩
    have := length_le_elem 0x06 oc
    rw [List.length_append] at hc
    exact ⟨(v.method, _), parseField_oid_exact.2 ⟨oc, by omega, rfl, h1⟩, (v.location, more), (parseField_raw_exact _ _ _).2 ⟨h2, rfl⟩, rfl⟩

theorem crlIssuer_exact {bs rest : Bytes} {v : RawValue} : parseField tyRaw { optional := true, tag := some 2 } bs = .ok (v, rest) ↔ MayBeRaw2 v bs rest := by
  by_cases hb : bs = []
  · subst hb
    have e : parseField tyRaw { optional := true, tag := some 2 } [] = .ok (({} : RawValue), []) := rfl
    rw [e]
    constructor
    · intro h
      simp only [Res.ok.injEq, Prod.mk.injEq] at h
      exact .inr ⟨h.1.symm, h.2.symm, .inl rfl⟩
    · rintro (⟨_, _, h, h'⟩ | ⟨rfl, rfl, _⟩)
      · have := tlv_pos h.tlv
        have := congrArg List.length h'
        simp only [List.length_append, List.length_nil] at this
        omega
      · rfl
  cases hh : parseTagAndLength bs with
  | ok tr =>
    obtain ⟨t, r⟩ := tr
    have hhead := fun cmp => head_iff (cls := 2) (tag := 2) (cmp := cmp) (by decide) (by decide) hh
    have e1 : parseField tyRaw {} bs = (if r.length < t.length then .err "data truncated" else
        .ok (⟨t.cls, t.tag, t.isCompound, r.take t.length, bs.take (bs.length - (r.length - t.length))⟩, r.drop t.length)) := by
      unfold parseField
      rw [if_neg hb, hh, Res.ok_bind]
      simp only [Bool.false_eq_true, if_false]
      unfold parseInner tyRaw
      simp only [Bool.false_eq_true, if_false, Bool.true_eq_false, false_and, or_self]
      rfl
    have e2 : parseField tyRaw { optional := true, tag := some 2 } bs = (if t.cls ≠ 2 ∨ t.tag ≠ 2 then .ok ({}, bs) else parseField tyRaw {} bs) := by
      rw [e1]
      unfold parseField
      rw [if_neg hb, hh, Res.ok_bind]
      simp only [Bool.false_eq_true, if_false]
      unfold parseInner tyRaw
      simp only [Bool.false_eq_true, if_false, Bool.true_eq_false, false_and, or_false, if_true, true_and]
      rfl
    rw [e2]
    by_cases hc : t.cls ≠ 2 ∨ t.tag ≠ 2
    · rw [if_pos hc]
      have n1 : bs.head? ≠ some 0x82 := fun h => by
        obtain ⟨a, _, b⟩ := (hhead false).1 h
        rcases hc with h | h <;> contradiction
      have n2 : bs.head? ≠ some 0xa2 := fun h => by
        obtain ⟨a, _, b⟩ := (hhead true).1 h
        rcases hc with h | h <;> contradiction
      constructor
      · intro h
        simp only [Res.ok.injEq, Prod.mk.injEq] at h
        exact .inr ⟨h.1.symm, h.2.symm, .inr ⟨⟨_, _, someHeader_iff.2 ⟨t, hh, rfl⟩⟩, n1, n2⟩⟩
      · rintro (⟨_, _, ⟨id, h1, h2, h3, h4, h5⟩, h6⟩ | ⟨rfl, rfl, _⟩)
        · exfalso
          have := (parseTagAndLength_exact bs (v.bytes ++ rest) ⟨2, v.isCompound, 2, v.bytes.length⟩).2 ⟨id, h1, h2, h3, h4, by rw [h6, h5]; simp⟩
          rw [hh] at this
          simp only [Res.ok.injEq, Prod.mk.injEq] at this
          rw [this.1] at hc
          simp at hc
        · rfl
    · rw [if_neg hc, parseField_raw_exact]
      simp only [not_or, not_not] at hc
      constructor
      · rintro ⟨h1, h2⟩
        have hcl : v.cls = 2 ∧ v.tag = 2 := by
          obtain ⟨id, k1, k2, k3, k4, k5⟩ := h1
          have := (parseTagAndLength_exact bs (v.bytes ++ rest) ⟨v.cls, v.isCompound, v.tag, v.bytes.length⟩).2 ⟨id, k1, k2, k3, k4, by rw [h2, k5]; simp⟩
          rw [hh] at this
          simp only [Res.ok.injEq, Prod.mk.injEq] at this
          rw [this.1] at hc
          exact hc
        rw [hcl.1, hcl.2] at h1
        exact .inl ⟨hcl.1, hcl.2, h1, h2⟩
      · rintro (⟨h1, h2, h3, h4⟩ | ⟨_, _, h⟩)
        · rw [h1, h2]; exact ⟨h3, h4⟩
        · exfalso
          rcases h with h | ⟨_, h1, h2⟩
          · exact hb h
          · cases hcm : t.isCompound with
            | false => exact h1 ((hhead false).2 ⟨hc.1, hcm, hc.2⟩)
            | true => exact h2 ((hhead true).2 ⟨hc.1, hcm, hc.2⟩)
  | err m =>
    have e1 : parseField tyRaw { optional := true, tag := some 2 } bs = .err m := by
      unfold parseField
      rw [if_neg hb, hh]
      rfl
    rw [e1]
    constructor
    · intro h; simp at h
    · rintro (⟨_, _, ⟨id, h1, h2, h3, h4, h5⟩, h6⟩ | ⟨rfl, rfl, h⟩)
      · exfalso
        have := (parseTagAndLength_exact bs (v.bytes ++ rest) ⟨2, v.isCompound, 2, v.bytes.length⟩).2 ⟨id, h1, h2, h3, h4, by rw [h6, h5]; simp⟩
        rw [hh] at this
        simp at this
      · rcases h with h | ⟨⟨n, r, h⟩, _⟩
        · exact absurd h hb
        · obtain ⟨t, h, _⟩ := someHeader_iff.1 h
          rw [hh] at h
          simp at h
  | panic => have := parseTagAndLength_returned bs; rw [hh] at this; simp [Res.returned] at this
  | loop => have := parseTagAndLength_returned bs; rw [hh] at this; simp [Res.returned] at this

theorem optSlice_body {α : Type} {ty : Ty α} {c full : Bytes} {t : TagAndLength} {u : ℕ} {o : Option (List α)} :
    (tyOptSlice ty).body t u c full = .ok o ↔ ∃ l, o = some l ∧ parseSequenceOf ty c = .ok l := by
  show (parseSequenceOf ty c >>= fun l => Res.ok (some l)) = .ok o ↔ _
  rw [Res.bind_eq_ok]
  exact exists_congr fun l => ⟨fun ⟨a, b⟩ => ⟨(Res.ok.inj b).symm, a⟩, fun ⟨a, b⟩ => ⟨b, by rw [a]⟩⟩

theorem optBits_body {c full : Bytes} {t : TagAndLength} {u : ℕ} {o : Option BitString} :
    tyOptBits.body t u c full = .ok o ↔ ∃ s, o = some s ∧ IsBitString s.bytes s.bitLength c := by
  show (parseBitString c >>= fun l => Res.ok (some l)) = .ok o ↔ _
  rw [Res.bind_eq_ok]
  exact exists_congr fun l => ⟨fun ⟨a, b⟩ => ⟨(Res.ok.inj b).symm, (parseBitString_iff _ _).1 a⟩, fun ⟨a, b⟩ => ⟨(parseBitString_iff _ _).2 b, by rw [a]⟩⟩

theorem relativeName_exact {c : Bytes} {rdns : RDNSequence} (hc : c.length < 2 ^ 31) : parseSequenceOf (tySlice true tyATV) c = .ok rdns ↔ ReadName rdns (elem 0x30 c) := by
  rw [← C83_exact]
  unfold parseName unmarshal
  rw [Res.bind_eq_ok]
  constructor
  · intro h
    refine ⟨(rdns, []), ?_, rfl⟩
    exact (parseField_slice_exact (s := false) (ty := tySlice true tyATV)).2 ⟨c, hc, by simp, h⟩
  · rintro ⟨⟨w, r⟩, h1, h2⟩
    obtain ⟨c', hc', h3, h4⟩ := (parseField_slice_exact (s := false) (ty := tySlice true tyATV)).1 h1
    rcases ite_ok h2 with ⟨_, h2⟩ | ⟨hr, h2⟩
    · simp at h2
    · obtain rfl := Res.ok.inj h2
      have hr : r = [] := List.length_eq_zero_iff.1 (by dsimp only at hr; omega)
      subst hr
      rw [List.append_nil] at h3
      have := elem_small_inj (by omega) (by omega) h3
      rw [this]
      exact h4

theorem dpName_exact {n : DPName} {c full : Bytes} {t : TagAndLength} {u : ℕ} : tyDPName.body t u c full = .ok n ↔ ReadDPName n c := by
  show (do
    let a ← parseField (tyOptSlice tyRaw) { optional := true, tag := some 0 } c
    let b ← parseField (tyOptSlice (tySlice true tyATV)) { optional := true, tag := some 1 } a.2
    Res.ok (⟨a.1, b.1⟩ : DPName)) = .ok n ↔ _
  simp only [Res.bind_eq_ok]
  have e1 : ∀ (o : Option (List RawValue)) (bs r : Bytes), parseField (tyOptSlice tyRaw) { optional := true, tag := some 0 } bs = .ok (o, r) ↔
      MayBe 0xa0 (fun (o : Option (List RawValue)) c => ∃ vs, o = some vs ∧ c = (vs.map RawValue.fullBytes).flatten ∧
        ∀ v ∈ vs, ReadTLV v.cls v.isCompound v.tag v.bytes v.fullBytes) none o bs r := fun o bs r =>
    (parseField_mayBe (ty := tyOptSlice tyRaw) (p := { optional := true, tag := some 0 }) rfl rfl rfl rfl (by decide)).trans
      (mayBe_congr fun v c _ => optSlice_body.trans (exists_congr fun l => and_congr Iff.rfl (parseSequenceOf_raw_exact c l)))
  have e2 : ∀ (o : Option RDNSequence) (bs r : Bytes), parseField (tyOptSlice (tySlice true tyATV)) { optional := true, tag := some 1 } bs = .ok (o, r) ↔
      MayBe 0xa1 (fun (o : Option RDNSequence) c => ∃ rdns, o = some rdns ∧ ReadName rdns (elem 0x30 c)) none o bs r := fun o bs r =>
    (parseField_mayBe (ty := tyOptSlice (tySlice true tyATV)) (p := { optional := true, tag := some 1 }) rfl rfl rfl rfl (by decide)).trans
      (mayBe_congr fun v c hc => optSlice_body.trans (exists_congr fun l => and_congr Iff.rfl (relativeName_exact hc)))
  constructor
  · rintro ⟨⟨f, r⟩, h1, ⟨g, r'⟩, h2, h3⟩
    obtain rfl := Res.ok.inj h3
    exact ⟨r, r', (e1 _ _ _).1 h1, (e2 _ _ _).1 h2⟩
  · rintro ⟨r, more, h1, h2⟩
    exact ⟨(n.fullName, r), (e1 _ _ _).2 h1, (n.relativeName, more), (e2 _ _ _).2 h2, rfl⟩

theorem optBits_mayBe {t : Byte} {k : ℕ} (hk : k < 31) (ht : t = idOctet 2 k false) (o : Option BitString) (bs r : Bytes) :
    parseField tyOptBits { optional := true, tag := some k } bs = .ok (o, r) ↔
      MayBe t (fun (o : Option BitString) c => ∃ s, o = some s ∧ IsBitString s.bytes s.bitLength c) none o bs r := by
  subst ht
  exact (parseField_mayBe (ty := tyOptBits) (p := { optional := true, tag := some k }) rfl rfl rfl rfl hk).trans (mayBe_congr fun v c _ => optBits_body)

theorem distributionPoints_exact {v : Bytes} {l : List DP} : unmarshalAll (tySlice false tyDP) v = .ok l ↔ ReadList 0x30 ReadDP l v := by
  refine unmarshalAll_list (ty := tyDP) rfl rfl (by decide) rfl fun v c full hc => ?_
  show (do
    let a ← parseField tyDPName { optional := true, tag := some 0 } c
    let b ← parseField tyOptBits { optional := true, tag := some 1 } a.2
    let d ← parseField tyRaw { optional := true, tag := some 2 } b.2
    Res.ok (⟨a.1, b.1, d.1⟩ : DP)) = .ok v ↔ _
  simp only [Res.bind_eq_ok]
  have e1 : ∀ (n : DPName) (bs r : Bytes), parseField tyDPName { optional := true, tag := some 0 } bs = .ok (n, r) ↔
      MayBe 0xa0 ReadDPName {} n bs r := fun n bs r =>
    (parseField_mayBe (ty := tyDPName) (p := { optional := true, tag := some 0 }) rfl rfl rfl rfl (by decide)).trans
      (mayBe_congr fun v c _ => dpName_exact)
  have e2 := optBits_mayBe (t := 0x81) (k := 1) (by decide) (by decide)
  constructor
  · rintro ⟨⟨n, r1⟩, h1, ⟨s, r2⟩, h2, ⟨i, r3⟩, h3, h4⟩
    obtain rfl := Res.ok.inj h4
    exact ⟨r1, r2, r3, (e1 _ _ _).1 h1, (e2 _ _ _).1 h2, crlIssuer_exact.1 h3⟩
  · rintro ⟨r1, r2, r3, h1, h2, h3⟩
    exact ⟨(v.name, r1), (e1 _ _ _).2 h1, (v.reason, r2), (e2 _ _ _).2 h2, (v.crlIssuer, r3), crlIssuer_exact.2 h3, rfl⟩

theorem keyUsage_exact {v : Bytes} {r : Int} : parseKeyUsage v = .ok r ↔ ∃ k : ℕ, r = k ∧ ReadKeyUsage k v := by
  rw [C53_parse]
  constructor
  · rintro ⟨data, c, n, k, h1, h2, h3, h4, h5, h6⟩; exact ⟨k, h4, data, c, n, h1, h2, h3, h5, h6⟩
  · rintro ⟨k, h4, data, c, n, h1, h2, h3, h5, h6⟩; exact ⟨data, c, n, k, h1, h2, h3, h4, h5, h6⟩

theorem splitExtKeyUsage_eq (oids : List OID) :
    splitExtKeyUsage oids = (oids.filterMap extKeyUsageFromOID, oids.filter fun o => extKeyUsageFromOID o = none) := by
  induction oids with
  | nil => rfl
  | cons o os ih =>
    rw [splitExtKeyUsage, ih]
    cases h : extKeyUsageFromOID o <;> simp [h]

/-- **C144** One extension: when it is read, and what is taken from it. -/
theorem C144_extension (env : Env U) (e : Extension) (out out' : X509Cert U) (u : Bool) :
    parseExtension env out e = .ok (out', u) ↔ Effect env e out out' u := by
  unfold parseExtension
  by_cases h0 : e.id = [2, 5, 29, 15]
  · rw [if_pos (show e.id = oidExtensionKeyUsage from h0), Res.bind_eq_ok]
    constructor
    · rintro ⟨w, h1, h2⟩
      obtain ⟨k, rfl, h3⟩ := keyUsage_exact.1 h1
      simp only [Res.ok.injEq, Prod.mk.injEq] at h2
      exact .inl ⟨h0, k, h3, h2.2.symm, h2.1.symm⟩
    · intro h
      unfold Effect at h
      rw [h0] at h
      simp only [List.cons.injEq, Nat.reduceEqDiff, true_and, false_and, and_false, and_true, or_false, false_or, List.mem_cons, true_or, not_true, reduceCtorEq] at h
      obtain ⟨k, h1, rfl, rfl⟩ := h
      exact ⟨k, keyUsage_exact.2 ⟨k, rfl, h1⟩, rfl⟩
  rw [if_neg (show e.id ≠ oidExtensionKeyUsage from h0)]
  by_cases h1 : e.id = [2, 5, 29, 19]
  · rw [if_pos (show e.id = oidExtensionBasicConstraints from h1), Res.bind_eq_ok]
    constructor
    · rintro ⟨c, h2, h3⟩
      simp only [Res.ok.injEq, Prod.mk.injEq] at h3
      exact .inr (.inl ⟨h1, c.isCA, c.maxPathLen, basicConstraints_exact.1 h2, h3.2.symm, h3.1.symm⟩)
    · intro h
      unfold Effect at h
      rw [h1] at h
      simp only [List.cons.injEq, Nat.reduceEqDiff, true_and, false_and, and_false, and_true, or_false, false_or, or_true, List.mem_cons, true_or, not_true, reduceCtorEq] at h
      obtain ⟨ca, n, h1, rfl, rfl⟩ := h
      exact ⟨⟨ca, n⟩, basicConstraints_exact.2 h1, rfl⟩
  rw [if_neg (show e.id ≠ oidExtensionBasicConstraints from h1)]
  by_cases h2 : e.id = [2, 5, 29, 17]
  · rw [if_pos (show e.id = oidExtensionSubjectAltName from h2), Res.bind_eq_ok]
    have key : ∀ s : Sans U, (!hasSans s.dnsNames s.emailAddresses s.ipAddresses s.uris) =
        decide (s.dnsNames = [] ∧ s.emailAddresses = [] ∧ s.ipAddresses = [] ∧ s.uris.isEmpty = true) := by
      intro s
      unfold hasSans
      obtain ⟨a, b, c, d⟩ := s
      cases a <;> cases b <;> cases c <;> cases d <;> simp
    constructor
    · rintro ⟨s, h3, h4⟩
      simp only [Res.ok.injEq, Prod.mk.injEq] at h4
      exact .inr (.inr (.inl ⟨h2, s, (C72_exact _ _ _).1 h3, by rw [← h4.2, key]; simp, h4.1.symm⟩))
    · intro h
      unfold Effect at h
      rw [h2] at h
      simp only [List.cons.injEq, Nat.reduceEqDiff, true_and, false_and, and_false, and_true, or_false, false_or, or_true, List.mem_cons, true_or, not_true, reduceCtorEq] at h
      obtain ⟨s, h1, h3, rfl⟩ := h
      refine ⟨s, (C72_exact _ _ _).2 h1, ?_⟩
      rw [key]
      simp only [Res.ok.injEq, Prod.mk.injEq, true_and]
      rw [← Bool.coe_iff_coe, h3]; simp
  rw [if_neg (show e.id ≠ oidExtensionSubjectAltName from h2)]
  by_cases h3 : e.id = [2, 5, 29, 30]
  · rw [if_pos (show e.id = oidExtensionNameConstraints from h3), Res.bind_eq_ok]
    constructor
    · rintro ⟨⟨p, x⟩, h4, h5⟩
      simp only [Res.ok.injEq, Prod.mk.injEq] at h5
      exact .inr (.inr (.inr (.inl ⟨h3, p, x, (C56_parse _ _ _ _).1 h4, h5.2.symm, h5.1.symm⟩)))
    · intro h
      unfold Effect at h
      rw [h3] at h
      simp only [List.cons.injEq, Nat.reduceEqDiff, true_and, false_and, and_false, and_true, or_false, false_or, or_true, List.mem_cons, true_or, not_true, reduceCtorEq] at h
      obtain ⟨p, x, h1, rfl, rfl⟩ := h
      exact ⟨(p, x), (C56_parse _ _ _ _).2 h1, rfl⟩
  rw [if_neg (show e.id ≠ oidExtensionNameConstraints from h3)]
  by_cases h4 : e.id = [2, 5, 29, 31]
  · rw [if_pos (show e.id = oidExtensionCRLDistributionPoints from h4), Res.bind_eq_ok]
    constructor
    · rintro ⟨c, h5, h6⟩
      simp only [Res.ok.injEq, Prod.mk.injEq] at h6
      exact .inr (.inr (.inr (.inr (.inl ⟨h4, c, distributionPoints_exact.1 h5, h6.2.symm, h6.1.symm⟩))))
    · intro h
      unfold Effect at h
      rw [h4] at h
      simp only [List.cons.injEq, Nat.reduceEqDiff, true_and, false_and, and_false, and_true, or_false, false_or, or_true, List.mem_cons, true_or, not_true, reduceCtorEq] at h
      obtain ⟨l, h1, rfl, rfl⟩ := h
      exact ⟨l, distributionPoints_exact.2 h1, rfl⟩
  rw [if_neg (show e.id ≠ oidExtensionCRLDistributionPoints from h4)]
  by_cases h5 : e.id = [2, 5, 29, 35]
  · rw [if_pos (show e.id = oidExtensionAuthorityKeyId from h5), Res.bind_eq_ok]
    constructor
    · rintro ⟨c, h6, h7⟩
      simp only [Res.ok.injEq, Prod.mk.injEq] at h7
      exact .inr (.inr (.inr (.inr (.inr (.inl ⟨h5, c, authorityKeyId_exact.1 h6, h7.2.symm, h7.1.symm⟩)))))
    · intro h
      unfold Effect at h
      rw [h5] at h
      simp only [List.cons.injEq, Nat.reduceEqDiff, true_and, false_and, and_false, and_true, or_false, false_or, or_true, List.mem_cons, true_or, not_true, reduceCtorEq] at h
      obtain ⟨l, h1, rfl, rfl⟩ := h
      exact ⟨l, authorityKeyId_exact.2 h1, rfl⟩
  rw [if_neg (show e.id ≠ oidExtensionAuthorityKeyId from h5)]
  by_cases h6 : e.id = [2, 5, 29, 37]
  · rw [if_pos (show e.id = oidExtensionExtendedKeyUsage from h6), Res.bind_eq_ok]
    constructor
    · rintro ⟨c, h7, h8⟩
      rw [splitExtKeyUsage_eq] at h8
      simp only [Res.ok.injEq, Prod.mk.injEq] at h8
      exact .inr (.inr (.inr (.inr (.inr (.inr (.inl ⟨h6, c, oidList_exact.1 h7, h8.2.symm, h8.1.symm⟩))))))
    · intro h
      unfold Effect at h
      rw [h6] at h
      simp only [List.cons.injEq, Nat.reduceEqDiff, true_and, false_and, and_false, and_true, or_false, false_or, or_true, List.mem_cons, true_or, not_true, reduceCtorEq] at h
      obtain ⟨l, h1, rfl, rfl⟩ := h
      exact ⟨l, oidList_exact.2 h1, by rw [splitExtKeyUsage_eq]⟩
  rw [if_neg (show e.id ≠ oidExtensionExtendedKeyUsage from h6)]
  by_cases h7 : e.id = [2, 5, 29, 14]
  · rw [if_pos (show e.id = oidExtensionSubjectKeyId from h7), Res.bind_eq_ok]
    constructor
    · rintro ⟨c, h8, h9⟩
      simp only [Res.ok.injEq, Prod.mk.injEq] at h9
      exact .inr (.inr (.inr (.inr (.inr (.inr (.inr (.inl ⟨h7, c, subjectKeyId_exact.1 h8, h9.2.symm, h9.1.symm⟩)))))))
    · intro h
      unfold Effect at h
      rw [h7] at h
      simp only [List.cons.injEq, Nat.reduceEqDiff, true_and, false_and, and_false, and_true, or_false, false_or, or_true, List.mem_cons, true_or, not_true, reduceCtorEq] at h
      obtain ⟨l, h1, rfl, rfl⟩ := h
      exact ⟨l, subjectKeyId_exact.2 h1, rfl⟩
  rw [if_neg (show e.id ≠ oidExtensionSubjectKeyId from h7)]
  by_cases h8 : e.id = [2, 5, 29, 32]
  · rw [if_pos (show e.id = oidExtensionCertificatePolicies from h8), Res.bind_eq_ok]
    constructor
    · rintro ⟨c, h9, h10⟩
      simp only [Res.ok.injEq, Prod.mk.injEq] at h10
      exact .inr (.inr (.inr (.inr (.inr (.inr (.inr (.inr (.inl ⟨h8, c, policies_exact.1 h9, h10.2.symm, h10.1.symm⟩))))))))
    · intro h
      unfold Effect at h
      rw [h8] at h
      simp only [List.cons.injEq, Nat.reduceEqDiff, true_and, false_and, and_false, and_true, or_false, false_or, or_true, List.mem_cons, true_or, not_true, reduceCtorEq] at h
      obtain ⟨l, h1, rfl, rfl⟩ := h
      exact ⟨l, policies_exact.2 h1, rfl⟩
  rw [if_neg (show e.id ≠ oidExtensionCertificatePolicies from h8)]
  by_cases h9 : e.id = [1, 3, 6, 1, 5, 5, 7, 1, 1]
  · rw [if_pos (show e.id = oidExtensionAuthorityInfoAccess from h9), Res.bind_eq_ok]
    constructor
    · rintro ⟨c, h10, h11⟩
      simp only [Res.ok.injEq, Prod.mk.injEq] at h11
      exact .inr (.inr (.inr (.inr (.inr (.inr (.inr (.inr (.inr (.inl ⟨h9, c, access_exact.1 h10, h11.2.symm, h11.1.symm⟩)))))))))
    · intro h
      unfold Effect at h
      rw [h9] at h
      simp only [List.cons.injEq, Nat.reduceEqDiff, true_and, false_and, and_false, or_false, false_or, or_true, List.mem_cons, true_or, not_true, reduceCtorEq] at h
      obtain ⟨l, h1, rfl, rfl⟩ := h
      exact ⟨l, access_exact.2 h1, rfl⟩
  rw [if_neg (show e.id ≠ oidExtensionAuthorityInfoAccess from h9)]
  constructor
  · intro h
    simp only [Res.ok.injEq, Prod.mk.injEq] at h
    refine .inr (.inr (.inr (.inr (.inr (.inr (.inr (.inr (.inr (.inr ⟨?_, h.2.symm, h.1.symm⟩)))))))))
    simp only [List.mem_cons, List.not_mem_nil, or_false, not_or]
    exact ⟨h0, h1, h2, h3, h4, h5, h6, h7, h8, h9⟩
  · rintro (⟨h, _⟩ | ⟨h, _⟩ | ⟨h, _⟩ | ⟨h, _⟩ | ⟨h, _⟩ | ⟨h, _⟩ | ⟨h, _⟩ | ⟨h, _⟩ | ⟨h, _⟩ | ⟨h, _⟩ | ⟨_, rfl, rfl⟩) <;> first | contradiction | rfl

/-- **C144** An extension is read exactly if its value is a word of the grammar for its identifier. -/
theorem C144_readable (env : Env U) (e : Extension) (out : X509Cert U) : (∃ out' u, parseExtension env out e = .ok (out', u)) ↔ Readable env e := by
  simp only [C144_extension]
  have hn : ∀ {a b : OID}, e.id = a → a ≠ b → e.id ≠ b := fun h h' => by rw [h]; exact h'
  constructor
  · rintro ⟨out', u, h⟩
    rcases h with ⟨h, k, h', _⟩ | ⟨h, k, n, h', _⟩ | ⟨h, k, h', _⟩ | ⟨h, k, n, h', _⟩ | ⟨h, k, h', _⟩ | ⟨h, k, h', _⟩ | ⟨h, k, h', _⟩ | ⟨h, k, h', _⟩ | ⟨h, k, h', _⟩ | ⟨h, k, h', _⟩ | ⟨h, _⟩
    case inr.inr.inr.inr.inr.inr.inr.inr.inr.inr =>
      simp only [List.mem_cons, List.not_mem_nil, or_false, not_or] at h
      obtain ⟨h0, h1, h2, h3, h4, h5, h6, h7, h8, h9⟩ := h
      exact ⟨fun h => absurd h h0, fun h => absurd h h1, fun h => absurd h h2, fun h => absurd h h3, fun h => absurd h h4, fun h => absurd h h5,
        fun h => absurd h h6, fun h => absurd h h7, fun h => absurd h h8, fun h => absurd h h9⟩
    all_goals
      refine ⟨?_, ?_, ?_, ?_, ?_, ?_, ?_, ?_, ?_, ?_⟩ <;> first
        | exact fun _ => ⟨_, h'⟩
        | exact fun _ => ⟨_, _, h'⟩
        | exact fun hh => absurd hh (hn h (by decide))
  · rintro ⟨h0, h1, h2, h3, h4, h5, h6, h7, h8, h9⟩
    by_cases c0 : e.id = [2, 5, 29, 15]
    · obtain ⟨k, h⟩ := h0 c0; exact ⟨_, _, .inl ⟨c0, k, h, rfl, rfl⟩⟩
    by_cases c1 : e.id = [2, 5, 29, 19]
    · obtain ⟨k, n, h⟩ := h1 c1; exact ⟨_, _, .inr (.inl ⟨c1, k, n, h, rfl, rfl⟩)⟩
    by_cases c2 : e.id = [2, 5, 29, 17]
    · obtain ⟨k, h⟩ := h2 c2
      exact ⟨_, decide (k.dnsNames = [] ∧ k.emailAddresses = [] ∧ k.ipAddresses = [] ∧ k.uris.isEmpty = true), .inr (.inr (.inl ⟨c2, k, h, by simp, rfl⟩))⟩
    by_cases c3 : e.id = [2, 5, 29, 30]
    · obtain ⟨k, n, h⟩ := h3 c3; exact ⟨_, _, .inr (.inr (.inr (.inl ⟨c3, k, n, h, rfl, rfl⟩)))⟩
    by_cases c4 : e.id = [2, 5, 29, 31]
    · obtain ⟨k, h⟩ := h4 c4; exact ⟨_, _, .inr (.inr (.inr (.inr (.inl ⟨c4, k, h, rfl, rfl⟩))))⟩
    by_cases c5 : e.id = [2, 5, 29, 35]
    · obtain ⟨k, h⟩ := h5 c5; exact ⟨_, _, .inr (.inr (.inr (.inr (.inr (.inl ⟨c5, k, h, rfl, rfl⟩)))))⟩
    by_cases c6 : e.id = [2, 5, 29, 37]
    · obtain ⟨k, h⟩ := h6 c6; exact ⟨_, _, .inr (.inr (.inr (.inr (.inr (.inr (.inl ⟨c6, k, h, rfl, rfl⟩))))))⟩
    by_cases c7 : e.id = [2, 5, 29, 14]
    · obtain ⟨k, h⟩ := h7 c7; exact ⟨_, _, .inr (.inr (.inr (.inr (.inr (.inr (.inr (.inl ⟨c7, k, h, rfl, rfl⟩)))))))⟩
    by_cases c8 : e.id = [2, 5, 29, 32]
    · obtain ⟨k, h⟩ := h8 c8; exact ⟨_, _, .inr (.inr (.inr (.inr (.inr (.inr (.inr (.inr (.inl ⟨c8, k, h, rfl, rfl⟩))))))))⟩
    by_cases c9 : e.id = [1, 3, 6, 1, 5, 5, 7, 1, 1]
    · obtain ⟨k, h⟩ := h9 c9; exact ⟨_, _, .inr (.inr (.inr (.inr (.inr (.inr (.inr (.inr (.inr (.inl ⟨c9, k, h, rfl, rfl⟩)))))))))⟩
    refine ⟨out, true, .inr (.inr (.inr (.inr (.inr (.inr (.inr (.inr (.inr (.inr ⟨?_, rfl, rfl⟩)))))))))⟩
    simp only [List.mem_cons, List.not_mem_nil, or_false, not_or]
    exact ⟨c0, c1, c2, c3, c4, c5, c6, c7, c8, c9⟩

/-- The whole list. -/
theorem parseExtensions_readable (env : Env U) (es : List Extension) (out : X509Cert U) :
    (∃ r, parseExtensions env es out = .ok r) ↔ ∀ e ∈ es, Readable env e := by
  constructor
  · rintro ⟨r, h⟩ e he
    obtain ⟨a, ha⟩ := parseExtensions_each h e he
    unfold Alone at ha
    rw [parseExtensions, Res.bind_eq_ok] at ha
    obtain ⟨⟨o, u⟩, h1, _⟩ := ha
    exact (C144_readable env e _).1 ⟨o, u, h1⟩
  · intro h
    refine parseExtensions_ok env es out fun e he out => ?_
    obtain ⟨o, u, h1⟩ := (C144_readable env e out).2 (h e he)
    exact ⟨(o, u), h1⟩

/-! ## Cases -/

/-- Basic constraints with octets after the path length; an integer in the place of the flag; a flag after the integer is not looked at. -/
example : ReadBasicConstraints true 3 (elem 0x30 (elem 0x01 [0xff] ++ (elem 0x02 [3] ++ [0x77]))) ∧
    ReadBasicConstraints false 3 (elem 0x30 (elem 0x02 [3] ++ elem 0x01 [0xff])) := by
  constructor
  · exact basicConstraints_exact (c := ⟨true, 3⟩).1 (by decide +kernel)
  · exact basicConstraints_exact (c := ⟨false, 3⟩).1 (by decide +kernel)

/-- Octets that are no header are refused where an optional field could come. -/
example : ¬ ∃ ca n, ReadBasicConstraints ca n (elem 0x30 (elem 0x01 [0xff] ++ [0x77])) := by
  rintro ⟨ca, n, h⟩
  have := basicConstraints_exact (c := ⟨ca, n⟩).2 h
  have e : unmarshalAll tyBasicConstraints (elem 0x30 (elem 0x01 [0xff] ++ [0x77])) = .err "truncated tag or length" := by decide +kernel
  rw [e] at this
  simp at this

/-- Two distribution points, the second with a reason and an issuer. -/
example : ReadList 0x30 ReadDP [⟨⟨some [⟨2, 6, false, [0x61], [0x86, 1, 0x61]⟩], none⟩, none, {}⟩,
      ⟨{}, some ⟨[0x60], 3⟩, ⟨2, 2, true, [0x05, 0], [0xa2, 2, 0x05, 0]⟩⟩]
    (elem 0x30 (elem 0x30 (elem 0xa0 (elem 0xa0 (elem 0x86 [0x61]))) ++ elem 0x30 (elem 0x81 [5, 0x60] ++ elem 0xa2 (elem 0x05 [])))) :=
  distributionPoints_exact.1 (by decide +kernel)

example : ReadAuthorityKeyId (some [1, 2]) (elem 0x30 (elem 0x80 [1, 2] ++ elem 0x82 [5])) := authorityKeyId_exact.1 (by decide +kernel)
example : ReadAuthorityKeyId none (elem 0x30 (elem 0x82 [5] ++ elem 0x80 [1, 2])) := authorityKeyId_exact.1 (by decide +kernel)

end Verif.Props
