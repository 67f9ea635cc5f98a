import Verif.Props.CertRequest
import Verif.Cert.SubjectSpec
import Verif.Cert.MakeTotal
import Verif.Cert.TimeLemmas
import Verif.Cert.FieldLemmas
/-!
# C80-C82: names of subjects and issuers
-/
namespace Verif.Props
open Verif Verif.Der Verif.Cert Verif.Spec.DER Verif.Spec.Cert Verif.Spec.Subject Verif.Spec.Utf8

variable {U α β : Type}

/-! ## C80: names are read back -/

/-- The string values of the attributes with type `o`, in order. -/
def stringsOf (o : OID) (as : List ATV) : List Bytes :=
  as.filterMap fun a => if a.type = o then (match a.value with | .str s => some s | _ => none) else none

theorem stringsOf_append (o : OID) (as bs : List ATV) : stringsOf o (as ++ bs) = stringsOf o as ++ stringsOf o bs :=
  List.filterMap_append ..

theorem fillFrom_flatten (n : Name) (rdns : RDNSequence) : n.fillFromRDNSequence rdns = rdns.flatten.foldl Name.fillATV n := by
  unfold Name.fillFromRDNSequence
  rw [List.foldl_flatten]

/-- What reading does to each field. -/
def Filled (n : Name) (as : List ATV) (m : Name) : Prop :=
  m.country = n.country ++ stringsOf [2, 5, 4, 6] as ∧ m.organization = n.organization ++ stringsOf [2, 5, 4, 10] as ∧
  m.organizationalUnit = n.organizationalUnit ++ stringsOf [2, 5, 4, 11] as ∧ m.locality = n.locality ++ stringsOf [2, 5, 4, 7] as ∧
  m.province = n.province ++ stringsOf [2, 5, 4, 8] as ∧ m.streetAddress = n.streetAddress ++ stringsOf [2, 5, 4, 9] as ∧
  m.postalCode = n.postalCode ++ stringsOf [2, 5, 4, 17] as ∧
  m.serialNumber = ((stringsOf [2, 5, 4, 5] as).getLast?).getD n.serialNumber ∧
  m.commonName = ((stringsOf [2, 5, 4, 3] as).getLast?).getD n.commonName ∧
  m.names = n.names ++ as ∧ m.extraNames = n.extraNames

theorem filled_one (n : Name) (a : ATV) : Filled n [a] (n.fillATV a) := by
  obtain ⟨ty, v⟩ := a
  unfold Filled stringsOf Name.fillATV
  cases v with
  | str s =>
    dsimp only
    simp only [oidCommonName, oidSerialNumber, oidCountry, oidLocality, oidProvince, oidStreetAddress, oidOrganization,
      oidOrganizationalUnit, oidPostalCode]
    by_cases h1 : ty = [2, 5, 4, 3]; · subst h1; simp
    by_cases h2 : ty = [2, 5, 4, 5]; · subst h2; simp
    by_cases h3 : ty = [2, 5, 4, 6]; · subst h3; simp
    by_cases h4 : ty = [2, 5, 4, 7]; · subst h4; simp
    by_cases h5 : ty = [2, 5, 4, 8]; · subst h5; simp
    by_cases h6 : ty = [2, 5, 4, 9]; · subst h6; simp
    by_cases h7 : ty = [2, 5, 4, 10]; · subst h7; simp
    by_cases h8 : ty = [2, 5, 4, 11]; · subst h8; simp
    by_cases h9 : ty = [2, 5, 4, 17]; · subst h9; simp
    simp [h1, h2, h3, h4, h5, h6, h7, h8, h9]
  | _ => simp

theorem filled_trans {n m k : Name} {as bs : List ATV} (h1 : Filled n as m) (h2 : Filled m bs k) : Filled n (as ++ bs) k := by
  unfold Filled at h1 h2 ⊢
  obtain ⟨a1, a2, a3, a4, a5, a6, a7, a8, a9, a10, a11⟩ := h1
  obtain ⟨b1, b2, b3, b4, b5, b6, b7, b8, b9, b10, b11⟩ := h2
  simp only [stringsOf_append, List.getLast?_append]
  refine ⟨by rw [b1, a1, List.append_assoc], by rw [b2, a2, List.append_assoc], by rw [b3, a3, List.append_assoc],
    by rw [b4, a4, List.append_assoc], by rw [b5, a5, List.append_assoc], by rw [b6, a6, List.append_assoc],
    by rw [b7, a7, List.append_assoc], ?_, ?_, by rw [b10, a10, List.append_assoc], by rw [b11, a11]⟩
  · rw [b8, a8]; cases (stringsOf [2, 5, 4, 5] bs).getLast? <;> simp
  · rw [b9, a9]; cases (stringsOf [2, 5, 4, 3] bs).getLast? <;> simp

theorem filled_fold (as : List ATV) : ∀ n : Name, Filled n as (as.foldl Name.fillATV n) := by
  induction as with
  | nil => intro n; simp [Filled, stringsOf]
  | cons a as ih => intro n; exact filled_trans (filled_one n a) (ih _)

/-- C80, reading: for every sequence of attributes, each field of the name holds the string values of its type, in order;
for the common name and the serial number the last one counts. -/
theorem C80_read (rdns : RDNSequence) :
    let m := Name.fillFromRDNSequence {} rdns
    m.country = stringsOf [2, 5, 4, 6] rdns.flatten ∧ m.organization = stringsOf [2, 5, 4, 10] rdns.flatten ∧
    m.organizationalUnit = stringsOf [2, 5, 4, 11] rdns.flatten ∧ m.locality = stringsOf [2, 5, 4, 7] rdns.flatten ∧
    m.province = stringsOf [2, 5, 4, 8] rdns.flatten ∧ m.streetAddress = stringsOf [2, 5, 4, 9] rdns.flatten ∧
    m.postalCode = stringsOf [2, 5, 4, 17] rdns.flatten ∧ m.serialNumber = ((stringsOf [2, 5, 4, 5] rdns.flatten).getLast?).getD [] ∧
    m.commonName = ((stringsOf [2, 5, 4, 3] rdns.flatten).getLast?).getD [] ∧ m.names = rdns.flatten ∧ m.extraNames = [] := by
  have := filled_fold rdns.flatten {}
  rw [← fillFrom_flatten] at this
  simpa [Filled] using this

/-- The values of a field that are written: none if the extra names have its type. -/
def written (n : Name) (o : OID) (vs : List Bytes) : List ATV :=
  if ∃ a ∈ n.extraNames, a.type = o then [] else vs.map fun v => ⟨o, .str v⟩

theorem appendRDNs_flatten (n : Name) (inp : RDNSequence) (vs : List Bytes) (o : OID) :
    (n.appendRDNs inp vs o).flatten = inp.flatten ++ written n o vs := by
  unfold Name.appendRDNs written
  by_cases h : ∃ a ∈ n.extraNames, a.type = o
  · rw [if_pos (by simpa using .inr h), if_pos h, List.append_nil]
  · by_cases hv : vs = []
    · subst hv; simp
    · rw [if_neg, if_neg h]
      · simp
      · simp only [List.any_eq_true, decide_eq_true_eq, not_or]
        exact ⟨by simpa using hv, h⟩

/-- The one value of the common name or serial number. -/
def oneOf (s : Bytes) : List Bytes := if s = [] then [] else [s]

theorem written_nil (n : Name) (o : OID) : written n o [] = [] := by unfold written; split <;> rfl

theorem toRDN_flatten (n : Name) : n.toRDNSequence.flatten =
    written n [2, 5, 4, 6] n.country ++ written n [2, 5, 4, 10] n.organization ++ written n [2, 5, 4, 11] n.organizationalUnit ++
      written n [2, 5, 4, 7] n.locality ++ written n [2, 5, 4, 8] n.province ++ written n [2, 5, 4, 9] n.streetAddress ++
      written n [2, 5, 4, 17] n.postalCode ++ written n [2, 5, 4, 3] (oneOf n.commonName) ++
      written n [2, 5, 4, 5] (oneOf n.serialNumber) ++ n.extraNames := by
  have hone : ∀ (s : Bytes) (o : OID) (r : RDNSequence),
      (if s.length > 0 then n.appendRDNs r [s] o else r).flatten = r.flatten ++ written n o (oneOf s) := by
    intro s o r
    unfold oneOf
    cases s with
    | nil => simp [written_nil]
    | cons b bs => rw [if_pos (by simp), appendRDNs_flatten, if_neg (by simp)]
  have hx : (n.extraNames.map fun a => [a]).flatten = n.extraNames := by
    induction n.extraNames with
    | nil => rfl
    | cons a as ih => simp [ih]
  unfold Name.toRDNSequence
  dsimp only
  rw [List.flatten_append, hx, hone, hone]
  simp only [appendRDNs_flatten, List.flatten_nil, List.nil_append]
  rfl

theorem stringsOf_written (n : Name) (o o' : OID) (vs : List Bytes) : stringsOf o (written n o' vs) =
    if o' = o ∧ ¬ ∃ a ∈ n.extraNames, a.type = o then vs else [] := by
  unfold written stringsOf
  by_cases h : ∃ a ∈ n.extraNames, a.type = o'
  · rw [if_pos h, if_neg]
    · rfl
    · rintro ⟨rfl, h'⟩; exact h' h
  · rw [if_neg h, List.filterMap_map]
    by_cases ho : o' = o
    · subst ho
      rw [if_pos ⟨rfl, h⟩]
      simp
    · rw [if_neg fun e => ho e.1]
      simp [ho]

/-- The values of type `o` in a name: those of the extra names if they have any of this type, else the field. -/
def fieldOr (n : Name) (o : OID) (vs : List Bytes) : List Bytes :=
  if ∃ a ∈ n.extraNames, a.type = o then stringsOf o n.extraNames else vs

theorem strings_extra {n : Name} {o : OID} (h : ¬ ∃ a ∈ n.extraNames, a.type = o) : stringsOf o n.extraNames = [] := by
  unfold stringsOf
  rw [List.filterMap_eq_nil_iff]
  intro a ha
  rw [if_neg fun e => h ⟨a, ha, e⟩]

theorem field_or (n : Name) (o : OID) (vs : List Bytes) :
    (if ¬ ∃ a ∈ n.extraNames, a.type = o then vs else []) ++ stringsOf o n.extraNames = fieldOr n o vs := by
  unfold fieldOr
  by_cases h : ∃ a ∈ n.extraNames, a.type = o
  · rw [if_pos h, if_neg (not_not.2 h), List.nil_append]
  · rw [if_neg h, if_pos h, strings_extra h, List.append_nil]

/-- C80, round trip: reading what a name is written as gives each field, or the strings among the extra names of the
same type if there are extra names of that type. -/
theorem C80_roundtrip (n : Name) :
    let m := Name.fillFromRDNSequence {} n.toRDNSequence
    m.country = fieldOr n [2, 5, 4, 6] n.country ∧ m.organization = fieldOr n [2, 5, 4, 10] n.organization ∧
    m.organizationalUnit = fieldOr n [2, 5, 4, 11] n.organizationalUnit ∧ m.locality = fieldOr n [2, 5, 4, 7] n.locality ∧
    m.province = fieldOr n [2, 5, 4, 8] n.province ∧ m.streetAddress = fieldOr n [2, 5, 4, 9] n.streetAddress ∧
    m.postalCode = fieldOr n [2, 5, 4, 17] n.postalCode ∧
    m.serialNumber = ((fieldOr n [2, 5, 4, 5] [n.serialNumber]).getLast?).getD [] ∧
    m.commonName = ((fieldOr n [2, 5, 4, 3] [n.commonName]).getLast?).getD [] ∧
    m.names = n.toRDNSequence.flatten ∧ m.extraNames = [] := by
  have h := C80_read n.toRDNSequence
  have hone : ∀ (o : OID) (s : Bytes), ((fieldOr n o (oneOf s)).getLast?).getD [] = ((fieldOr n o [s]).getLast?).getD [] := by
    intro o s
    unfold fieldOr oneOf
    split
    · rfl
    · cases s <;> simp
  dsimp only at h ⊢
  obtain ⟨a1, a2, a3, a4, a5, a6, a7, a8, a9, a10, a11⟩ := h
  rw [toRDN_flatten] at a1 a2 a3 a4 a5 a6 a7 a8 a9
  simp only [stringsOf_append, stringsOf_written] at a1 a2 a3 a4 a5 a6 a7 a8 a9
  simp only [List.cons.injEq, Nat.reduceEqDiff, and_true, and_false, false_and, true_and, if_false, List.nil_append, List.append_nil,
    field_or] at a1 a2 a3 a4 a5 a6 a7 a8 a9
  rw [hone] at a8 a9
  exact ⟨a1, a2, a3, a4, a5, a6, a7, a8, a9, a10, a11⟩

/-- C80, requests: the subject of a created request is the template's. -/
theorem C80_request (env : Env U) (t : CertReq U) (d : ℕ) (pub : Sm2.PublicKey) (hd : ¬ Sm2.n ∣ d)
    (hpub : Sm2.calculatePubKey ⟨d⟩ = .ok pub) (id : Option Bytes) (tape : Sm2.Tape) (csr : Bytes) (after : List ATVSET)
    (h : createCertificateRequest env t pub ⟨d⟩ id tape = .ok (csr, after)) (hl : csr.length < 2 ^ 31)
    (hraw : t.rawSubject = []) (hname : t.subject.extraNames = [])
    (hattr : ∀ a ∈ t.attributes, a.Ok) (hext : ∀ e ∈ t.extraExtensions, OIDFits e.id) (hsan : GoodSANs env t) :
    ∃ r, parseCertificateRequest env csr = .ok r ∧ r.subject = { t.subject with names := t.subject.toRDNSequence.flatten } := by
  obtain ⟨r, h1, -, -, -, h2, -⟩ := C59_created env t d pub hd hpub id tape csr after h hl (fun h => absurd hraw h)
    (by simp [hname]) hattr hext hsan
  refine ⟨r, h1, ?_⟩
  rw [h2 hraw]
  have := C80_roundtrip t.subject
  simp only [fieldOr, hname, List.not_mem_nil, false_and, exists_false, if_false, List.getLast?_singleton, Option.getD_some] at this
  obtain ⟨a1, a2, a3, a4, a5, a6, a7, a8, a9, a10, a11⟩ := this
  generalize Name.fillFromRDNSequence {} t.subject.toRDNSequence = m at *
  obtain ⟨m1, m2, m3, m4, m5, m6, m7, m8, m9, m10, m11⟩ := m
  dsimp only at *
  subst a1 a2 a3 a4 a5 a6 a7 a8 a9 a10 a11
  rw [← hname]

/-- A name with several values and extra names that overrule a field. -/
def exName : Name :=
  { country := [[0x62], [0x61]], commonName := [0x61], organization := [[0x6f]], extraNames := [⟨[2, 5, 4, 3], .str [0x7a]⟩, ⟨[1, 2, 3], .str [0x71]⟩] }

example : (Name.fillFromRDNSequence {} exName.toRDNSequence).country = [[0x62], [0x61]] ∧
    (Name.fillFromRDNSequence {} exName.toRDNSequence).commonName = [0x7a] := by decide

/-- A template with a subject of two fields. -/
def exSubjectTemplate : CertReq Bytes := { subject := { commonName := [0x61], country := [[0x62], [0x61]] } }

example : GoodSANs exEnv exSubjectTemplate := ⟨by simp [requestedBy, exSubjectTemplate], by simp [WantsSAN, exSubjectTemplate]⟩

example : exCreate exSubjectTemplate (fun r =>
    match parseCertificateRequest exEnv r.1 with
    | .ok q => decide (q.subject.commonName = [0x61] ∧ q.subject.country = [[0x62], [0x61]])
    | _ => false) = true := by set_option maxRecDepth 100000 in decide +kernel

/-! ## C82: what names are written as -/

theorem printable_iff (b : Byte) : isPrintable b false false = true ↔ PrintableChar b := by
  revert b; decide +kernel

theorem isPrintable_iff_nat (n : ℕ) : (decide (n < 0x80) && isPrintable (BitVec.ofNat 8 n) false false) = true ↔
    n < 0x80 ∧ PrintableChar (BitVec.ofNat 8 n) := by
  rw [Bool.and_eq_true, printable_iff, decide_eq_true_eq]

theorem printable_ascii {b : Byte} : PrintableChar b → b.toNat < 0x80 := by
  revert b; decide +kernel

/-- A string is written as a `DirectoryString`, or refused. -/
theorem makeString_iff (s e : Bytes) (hl : s.length < 2 ^ 63) : makeString s = .ok e ↔ IsUtf8 s ∧ e = directoryString s := by
  have hp : ((Utf8.runes s).all fun r => r < 0x80 && isPrintable (BitVec.ofNat 8 r) false false) = true ↔ ∀ b ∈ s, PrintableChar b := by
    rw [List.all_eq_true]
    simp only [isPrintable_iff_nat]
    rw [Utf8.runes_all_iff _ (fun n h => h.1)]
    constructor
    · intro h b hb; simpa using (h b hb).2
    · intro h b hb; exact ⟨printable_ascii (h b hb), by simpa using h b hb⟩
  unfold makeString directoryString
  by_cases h : ∀ b ∈ s, PrintableChar b
  · rw [if_pos (hp.2 h), if_pos h, makeElem_eq hl, Res.ok.injEq]
    have : IsUtf8 s := (Utf8.valid_iff s).1 (Utf8.valid_of_ascii fun b hb => printable_ascii (h b hb))
    exact ⟨fun e => ⟨this, e.symm⟩, fun e => e.2.symm⟩
  · rw [if_neg fun e => h (hp.1 e), if_neg h]
    by_cases hv : Utf8.valid s = true
    · rw [if_pos hv, makeElem_eq hl, Res.ok.injEq]
      have : IsUtf8 s := (Utf8.valid_iff s).1 hv
      exact ⟨fun e => ⟨this, e.symm⟩, fun e => e.2.symm⟩
    · rw [if_neg hv]
      have : ¬ IsUtf8 s := fun e => hv ((Utf8.valid_iff s).2 e)
      simp [this]

/-- A field without parameters. -/
theorem makeTagged_plain {tag : ℕ} {c z : Bool} {d : Int → Bool} {body : Res Bytes} :
    makeTagged {} tag c z d body = (do let b ← body; .ok (makeElem 0 tag c b)) := by
  unfold makeTagged
  rw [omitted_mandatory rfl]
  rfl

/-- One attribute of type 2.5.4.`k`. -/
theorem makeATV_iff {o : OID} {k : Byte} (ho : makeObjectIdentifier o = .ok [0x55, 0x04, k]) (s e : Bytes) (hl : e.length < 2 ^ 63) :
    tyATV.make {} ⟨o, .str s⟩ = .ok e ↔ IsUtf8 s ∧ e = attr k s := by
  have ho' : tyOID.make {} o = .ok (elem 0x06 [0x55, 0x04, k]) := by
    have : tyOID.make {} o = makeTagged {} 6 false false (fun _ => false) (makeObjectIdentifier o) := rfl
    rw [this, makeTagged_plain, ho, Res.ok_bind, makeElem_eq (by simp)]
    rfl
  have hs : tyATV.make {} ⟨o, .str s⟩ = makeTagged {} 16 true (decide ((⟨o, .str s⟩ : ATV) = {})) (fun _ => false)
      (do let a ← tyOID.make {} o; let b ← makeString s; .ok (a ++ b)) := rfl
  rw [hs]
  rw [makeTagged_plain, ho', Res.ok_bind]
  constructor
  · intro h
    simp only [Res.bind_eq_ok, Res.ok.injEq] at h
    obtain ⟨x, ⟨y, h1, rfl⟩, rfl⟩ := h
    have h2 := length_le_makeElem 0 16 true (elem 0x06 [0x55, 0x04, k] ++ y)
    rw [List.length_append] at h2
    have h3 : s.length ≤ y.length := by
      unfold makeString at h1
      repeat' split at h1
      all_goals first | (simp at h1; done) | (simp only [Res.ok.injEq] at h1; subst h1; exact (length_le_makeElem _ _ _ _).le)
    obtain ⟨g1, rfl⟩ := (makeString_iff s y (by omega)).1 h1
    exact ⟨g1, makeElem_eq (by rw [List.length_append]; omega)⟩
  · rintro ⟨h1, rfl⟩
    unfold attr at hl ⊢
    have h2 := length_le_elem 0x30 (elem 0x06 [0x55, 0x04, k] ++ directoryString s)
    have h3 : s.length ≤ (directoryString s).length := by
      unfold directoryString
      split <;> exact Nat.le_trans (by omega) (length_le_elem _ _)
    rw [List.length_append] at h2
    rw [(makeString_iff s _ (by omega)).2 ⟨h1, rfl⟩, Res.ok_bind, Res.ok_bind, makeElem_eq (by rw [List.length_append]; omega)]
    rfl

/-- The elements of a slice. -/
theorem makeElems_iff {ty : Ty α} {P : β → Prop} {f : β → Bytes} {g : β → α} : ∀ (xs : List β) (e : Bytes), e.length < 2 ^ 63 →
    (∀ x ∈ xs, ∀ e, e.length < 2 ^ 63 → (ty.make {} (g x) = .ok e ↔ P x ∧ e = f x)) →
    (makeElems ty (xs.map g) = .ok e ↔ (∀ x ∈ xs, P x) ∧ e = xs.flatMap f) := by
  intro xs
  induction xs with
  | nil => intro e _ _; simp [makeElems, eq_comm]
  | cons x xs ih =>
    intro e he hf
    have ih := fun e he => ih e he fun x hx => hf x (by simp [hx])
    have hf := hf x (by simp)
    rw [List.map_cons, makeElems]
    simp only [Res.bind_eq_ok, Res.ok.injEq]
    constructor
    · rintro ⟨a, h1, b, h2, rfl⟩
      rw [List.length_append] at he
      obtain ⟨g1, rfl⟩ := (hf a (by omega)).1 h1
      obtain ⟨g2, rfl⟩ := (ih b (by omega)).1 h2
      exact ⟨by simpa using ⟨g1, g2⟩, by simp⟩
    · rintro ⟨h1, rfl⟩
      rw [List.flatMap_cons, List.length_append] at he
      exact ⟨_, (hf _ (by omega)).2 ⟨h1 x (by simp), rfl⟩, _, (ih _ (by omega)).2 ⟨fun w hw => h1 w (by simp [hw]), rfl⟩, by simp⟩

/-- A slice. -/
theorem makeSlice_iff {ty : Ty α} {P : β → Prop} {f : β → Bytes} {g : β → α} (s : Bool) (xs : List β) (e : Bytes) (hl : e.length < 2 ^ 63)
    (hf : ∀ x ∈ xs, ∀ e, e.length < 2 ^ 63 → (ty.make {} (g x) = .ok e ↔ P x ∧ e = f x)) :
    (tySlice s ty).make {} (xs.map g) = .ok e ↔ (∀ x ∈ xs, P x) ∧ e = elem (if s then 0x31 else 0x30) (xs.flatMap f) := by
  have hid : ∀ b : Bytes, b.length < 2 ^ 63 → makeElem 0 (if s then 17 else 16) true b = elem (if s then 0x31 else 0x30) b := by
    intro b hb
    rw [makeElem_eq hb]
    cases s <;> rfl
  have hs : (tySlice s ty).make {} (xs.map g) = makeTagged {} (if s then 17 else 16) true false (fun _ => false) (makeElems ty (xs.map g)) := rfl
  rw [hs, makeTagged_plain]
  simp only [Res.bind_eq_ok, Res.ok.injEq]
  constructor
  · rintro ⟨b, h1, rfl⟩
    have := length_le_makeElem 0 (if s = true then 17 else 16) true b
    obtain ⟨g1, rfl⟩ := (makeElems_iff xs b (by omega) hf).1 h1
    exact ⟨g1, hid _ (by omega)⟩
  · rintro ⟨h1, rfl⟩
    have := length_le_elem (if s then 0x31 else 0x30) (xs.flatMap f)
    exact ⟨_, (makeElems_iff xs _ (by omega) hf).2 ⟨h1, rfl⟩, hid _ (by omega)⟩

/-- The fields of a name that are not empty, with the last component of their types, in the order they are written. -/
def parts (n : Name) : List (Byte × List Bytes) :=
  ([(6, n.country), (10, n.organization), (11, n.organizationalUnit), (7, n.locality), (8, n.province), (9, n.streetAddress),
    (17, n.postalCode), (3, oneOf n.commonName), (5, oneOf n.serialNumber)] : List (Byte × List Bytes)).filter fun p => p.2 ≠ []

/-- The attributes of one field. -/
def rdnOf (p : Byte × List Bytes) : List ATV := p.2.map fun v => ⟨[2, 5, 4, p.1.toNat], .str v⟩

theorem toRDN_parts {n : Name} (hn : n.extraNames = []) : n.toRDNSequence = (parts n).map rdnOf := by
  have h1 : ∀ (r : RDNSequence) (vs : List Bytes) (k : Byte), n.appendRDNs r vs [2, 5, 4, k.toNat] =
      r ++ (([(k, vs)] : List (Byte × List Bytes)).filter fun p => p.2 ≠ []).map rdnOf := by
    intro r vs k
    unfold Name.appendRDNs
    rw [hn]
    cases vs with
    | nil => simp
    | cons v vs => simp [rdnOf]
  have h2 : ∀ (r : RDNSequence) (s : Bytes) (k : Byte), (if s.length > 0 then n.appendRDNs r [s] [2, 5, 4, k.toNat] else r) =
      r ++ (([(k, oneOf s)] : List (Byte × List Bytes)).filter fun p => p.2 ≠ []).map rdnOf := by
    intro r s k
    unfold oneOf
    cases s with
    | nil => simp
    | cons v vs => rw [if_pos (by simp), h1]; simp
  unfold Name.toRDNSequence parts
  dsimp only
  rw [hn, List.map_nil, List.append_nil]
  have e : [oidCountry, oidOrganization, oidOrganizationalUnit, oidLocality, oidProvince, oidStreetAddress, oidPostalCode, oidCommonName,
      oidSerialNumber] = [[2, 5, 4, BitVec.toNat (6 : Byte)], [2, 5, 4, BitVec.toNat (10 : Byte)], [2, 5, 4, BitVec.toNat (11 : Byte)],
      [2, 5, 4, BitVec.toNat (7 : Byte)], [2, 5, 4, BitVec.toNat (8 : Byte)], [2, 5, 4, BitVec.toNat (9 : Byte)],
      [2, 5, 4, BitVec.toNat (17 : Byte)], [2, 5, 4, BitVec.toNat (3 : Byte)], [2, 5, 4, BitVec.toNat (5 : Byte)]] := by decide
  simp only [List.cons.injEq, and_true] at e
  obtain ⟨e1, e2, e3, e4, e5, e6, e7, e8, e9⟩ := e
  rw [e1, e2, e3, e4, e5, e6, e7, e8, e9]
  rw [h2, h2, h1, h1, h1, h1, h1, h1, h1]
  simp only [← List.map_append, ← List.filter_append, List.nil_append, List.cons_append]

/-- The object identifiers 2.5.4.`k`. -/
theorem attrOID {k : Byte} (hk : k.toNat < 128) : makeObjectIdentifier [2, 5, 4, k.toNat] = .ok [0x55, 0x04, k] := by
  revert k; decide +kernel

/-- C82: a name without extra names is written as a sequence of sets of attributes, one set for each field with values,
its strings as PrintableString if they have only such characters and as UTF8String otherwise; it is refused exactly if one of
them is not UTF-8. -/
theorem C82_written (n : Name) (hn : n.extraNames = []) (e : Bytes) (hl : e.length < 2 ^ 63) :
    subjectBytes [] n = .ok e ↔ (∀ p ∈ parts n, ∀ s ∈ p.2, IsUtf8 s) ∧ e = name (parts n) := by
  show marshal tyRDNSequence n.toRDNSequence = _ ↔ _
  rw [toRDN_parts hn]
  refine makeSlice_iff (P := fun p => ∀ s ∈ p.2, IsUtf8 s) (f := fun r : Byte × List Bytes => elem 0x31 (r.2.flatMap (attr r.1))) false
    (parts n) e hl ?_
  intro p hp e he
  have hk : p.1.toNat < 128 := by
    have := List.mem_of_mem_filter hp
    simp only [List.mem_cons, List.not_mem_nil, or_false] at this
    rcases this with rfl | rfl | rfl | rfl | rfl | rfl | rfl | rfl | rfl <;> (dsimp only; decide)
  exact makeSlice_iff (P := IsUtf8) (f := attr p.1) true p.2 e he fun s _ e he => makeATV_iff (attrOID hk) s e he

theorem slice_ok {s : Bool} {ty : Ty α} {vs : List α} {e : Bytes} (h : (tySlice s ty).make {} vs = .ok e) :
    ∀ v ∈ vs, ∃ x, ty.make {} v = .ok x := by
  have hs : (tySlice s ty).make {} vs = makeTagged {} (if s then 17 else 16) true false (fun _ => false) (makeElems ty vs) := rfl
  rw [hs, makeTagged_plain, Res.bind_eq_ok] at h
  obtain ⟨c, h, -⟩ := h
  obtain ⟨es, -, h'⟩ := makeElems_ok h
  intro v hv
  clear hs h
  induction h' with
  | nil => simp at hv
  | cons h1 _ ih =>
    rcases List.mem_cons.1 hv with rfl | hv
    · exact ⟨_, h1⟩
    · exact ih hv

/-- C82, refusal: a name with a string that is not UTF-8 gives an error, at any length. -/
theorem C82_refused (n : Name) (hn : n.extraNames = []) (p : Byte × List Bytes) (hp : p ∈ parts n) (s : Bytes) (hs : s ∈ p.2)
    (hu : ¬ IsUtf8 s) : ∃ m, subjectBytes [] n = .err m := by
  show ∃ m, marshal tyRDNSequence n.toRDNSequence = .err m
  have hr : (marshal tyRDNSequence n.toRDNSequence).returned = true := mt_rdnSequence _ _
  cases h : marshal tyRDNSequence n.toRDNSequence with
  | err m => exact ⟨m, rfl⟩
  | panic => rw [h] at hr; simp [Res.returned] at hr
  | loop => rw [h] at hr; simp [Res.returned] at hr
  | ok e =>
    exfalso
    rw [toRDN_parts hn] at h
    obtain ⟨x, h⟩ := slice_ok h (rdnOf p) (List.mem_map.2 ⟨p, hp, rfl⟩)
    obtain ⟨y, h⟩ := slice_ok h ⟨[2, 5, 4, p.1.toNat], .str s⟩ (List.mem_map.2 ⟨s, hs, rfl⟩)
    have hs' : tyATV.make {} ⟨[2, 5, 4, p.1.toNat], .str s⟩ = makeTagged {} 16 true (decide ((⟨[2, 5, 4, p.1.toNat], .str s⟩ : ATV) = {})) (fun _ => false)
      (do let a ← tyOID.make {} [2, 5, 4, p.1.toNat]; let b ← makeString s; .ok (a ++ b)) := rfl
    rw [hs', makeTagged_plain] at h
    simp only [Res.bind_eq_ok] at h
    obtain ⟨_, ⟨_, _, z, h, _⟩, _⟩ := h
    unfold makeString at h
    split at h
    · rename_i hp
      rw [List.all_eq_true] at hp
      have := (Utf8.runes_all_iff (fun r => (decide (r < 0x80) && isPrintable (BitVec.ofNat 8 r) false false) = true)
        (fun n h => ((isPrintable_iff_nat n).1 h).1) s).1 hp
      exact hu ((Utf8.valid_iff s).1 (Utf8.valid_of_ascii fun b hb => ((isPrintable_iff_nat _).1 (this b hb)).1))
    · split at h
      · rename_i hv
        exact hu ((Utf8.valid_iff s).1 hv)
      · simp at h

example : subjectBytes [] { country := [[0x43, 0x4e]], commonName := [0x61, 0x2a] } =
    .ok ([0x30, 26, 0x31, 11, 0x30, 9, 6, 3, 0x55, 4, 6, 0x13, 2, 0x43, 0x4e] ++
      [0x31, 11, 0x30, 9, 6, 3, 0x55, 4, 3, 0x0c, 2, 0x61, 0x2a]) := by decide +kernel

example : ∃ m, subjectBytes [] { commonName := [0xc0, 0x80] } = .err m := ⟨"string not valid UTF-8", by decide +kernel⟩

/-! ## C81: sets in names -/

/-- C81, what holds: if every field has at most one value, every set has exactly one element and is in order. -/
theorem C81_single_partial (n : Name) (hn : n.extraNames = []) (hs : ∀ p ∈ parts n, p.2.length ≤ 1) (e : Bytes) (hl : e.length < 2 ^ 63)
    (h : subjectBytes [] n = .ok e) :
    ∃ sets : List (List Bytes), e = elem 0x30 (sets.flatMap fun s => elem 0x31 s.flatten) ∧ ∀ s ∈ sets, s.length = 1 ∧ AscendingSet s := by
  obtain ⟨-, rfl⟩ := (C82_written n hn e hl).1 h
  refine ⟨(parts n).map fun r => r.2.map (attr r.1), ?_, ?_⟩
  · unfold name
    rw [List.flatMap_map]
    rfl
  · intro s hs'
    obtain ⟨p, hp, rfl⟩ := List.mem_map.1 hs'
    have h1 := hs p hp
    have h2 : p.2 ≠ [] := by simpa using (List.mem_filter.1 hp).2
    obtain ⟨v, hv⟩ : ∃ v, p.2 = [v] := by
      match hh : p.2 with
      | [] => exact absurd hh h2
      | [v] => exact ⟨v, rfl⟩
      | a :: b :: t => rw [hh] at h1; simp at h1
    rw [hv]
    exact ⟨rfl, by simp [AscendingSet]⟩

/-- C81, what is wrong: several values of one field are written in the order given. -/
theorem C81_order_violated : ∃ (n : Name) (e a b : Bytes), n.extraNames = [] ∧ subjectBytes [] n = .ok e ∧
    e = elem 0x30 (elem 0x31 (a ++ b)) ∧ a = attr 6 [0x62] ∧ b = attr 6 [0x61] ∧ ¬ AscendingSet [a, b] :=
  ⟨{ country := [[0x62], [0x61]] }, _, _, _, rfl, (C82_written _ rfl (name [(6, [[0x62], [0x61]])]) (by decide)).2
    ⟨by
      intro p hp s hs
      have hp : p = (6, [[0x62], [0x61]]) := by simpa [parts, oneOf] using hp
      subst hp
      refine (Utf8.valid_iff s).1 (Utf8.valid_of_ascii ?_)
      revert s
      decide, by decide⟩, by decide, rfl, rfl, by unfold AscendingSet; decide⟩

/-! ## C83: what names are read from -/

/-- The string types that are read into strings, with the tag and the characters allowed. encoding/asn1 also allows `*` and
`&` in a PrintableString. -/
def StringOf (tag : ℕ) (s : Bytes) : Prop :=
  (tag = 19 ∧ ∀ b ∈ s, PrintableChar b ∨ b = 0x2a ∨ b = 0x26) ∨ (tag = 18 ∧ ∀ b ∈ s, 0x30 ≤ b.toNat ∧ b.toNat ≤ 0x39 ∨ b = 0x20) ∨
  (tag = 22 ∧ ∀ b ∈ s, b.toNat < 0x80) ∨ tag = 20 ∨ (tag = 12 ∧ IsUtf8 s)

/-- The contents octets `c` of a primitive element of the universal class with this tag stand for the value. -/
def UniversalValue (tag : ℕ) (c : Bytes) : AnyVal → Prop
  | .str s => c = s ∧ StringOf tag s
  | .int z => tag = 2 ∧ IsInt z c ∧ c.length ≤ 8
  | .bits b => tag = 3 ∧ IsBitString b.bytes b.bitLength c
  | .oid o => tag = 6 ∧ OIDContent o c
  | .time t => (tag = 23 ∧ IsUTCTime t.year t.month t.day t.hour t.min t.sec t.offset c) ∨
      (tag = 24 ∧ IsGeneralizedTime t.year t.month t.day t.hour t.min t.sec t.offset c)
  | .octets b => tag = 4 ∧ c = b
  | .nil => tag ∉ [2, 3, 4, 6, 12, 18, 19, 20, 22, 23, 24]

/-- The element stands for the value; elements of other kinds are read as no value. -/
def ValueOf (v : AnyVal) (cls : ℕ) (cmp : Bool) (tag : ℕ) (c : Bytes) : Prop :=
  if cls = 0 ∧ cmp = false then UniversalValue tag c v else v = .nil

theorem starred (b : Byte) : isPrintable b true true = true ↔ PrintableChar b ∨ b = 0x2a ∨ b = 0x26 := by
  revert b; decide +kernel

theorem numeric (b : Byte) : ((0x30 ≤ b && b ≤ 0x39) || b == 0x20) = true ↔ 0x30 ≤ b.toNat ∧ b.toNat ≤ 0x39 ∨ b = 0x20 := by
  revert b; decide +kernel

theorem ascii (b : Byte) : decide (b < 0x80) = true ↔ b.toNat < 0x80 := by
  revert b; decide +kernel

theorem parseString_iff {tag : ℕ} (ht : tag = 19 ∨ tag = 18 ∨ tag = 22 ∨ tag = 20 ∨ tag = 12) (c s : Bytes) :
    parseString tag c = .ok s ↔ c = s ∧ StringOf tag s := by
  have key : ∀ (P : Prop) [Decidable P] (m : String), (if P then Res.ok c else .err m) = .ok s ↔ c = s ∧ P := by
    intro P _ m
    split <;> simp [*]
  unfold parseString StringOf
  rcases ht with rfl | rfl | rfl | rfl | rfl
  · rw [if_pos rfl, key, List.all_eq_true]
    simp only [starred]
    constructor
    · rintro ⟨rfl, h⟩; exact ⟨rfl, .inl ⟨trivial, h⟩⟩
    · rintro ⟨rfl, h⟩; exact ⟨rfl, by simpa using h⟩
  · rw [if_neg (by decide), if_pos rfl, key, List.all_eq_true]
    simp only [numeric]
    constructor
    · rintro ⟨rfl, h⟩; exact ⟨rfl, .inr (.inl ⟨trivial, h⟩)⟩
    · rintro ⟨rfl, h⟩; exact ⟨rfl, by simpa using h⟩
  · rw [if_neg (by decide), if_neg (by decide), if_pos rfl, key, List.all_eq_true]
    simp only [ascii]
    constructor
    · rintro ⟨rfl, h⟩; exact ⟨rfl, .inr (.inr (.inl ⟨trivial, h⟩))⟩
    · rintro ⟨rfl, h⟩; exact ⟨rfl, by simpa using h⟩
  · simp
  · rw [if_neg (by decide), if_neg (by decide), if_neg (by decide), if_neg (by decide), key, Utf8.valid_iff]
    constructor
    · rintro ⟨rfl, h⟩; exact ⟨rfl, .inr (.inr (.inr (.inr ⟨rfl, h⟩)))⟩
    · rintro ⟨rfl, h⟩; exact ⟨rfl, by simpa using h⟩

/-- The values of attributes. -/
theorem parseAnyBody_iff (tag : ℕ) (c : Bytes) (v : AnyVal) : parseAnyBody tag c = .ok v ↔ UniversalValue tag c v := by
  unfold parseAnyBody
  by_cases hs : tag = 19 ∨ tag = 18 ∨ tag = 22 ∨ tag = 20 ∨ tag = 12
  · rw [if_pos hs]
    simp only [Res.bind_eq_ok, Res.ok.injEq, parseString_iff hs]
    constructor
    · rintro ⟨s, h, rfl⟩; exact h
    · intro h
      cases v with
      | str s => exact ⟨s, h, rfl⟩
      | nil => exfalso; simp only [UniversalValue, List.mem_cons, List.not_mem_nil, or_false] at h; omega
      | _ => exfalso; simp only [UniversalValue] at h; omega
  · rw [if_neg hs]
    have hns : ∀ s, ¬ UniversalValue tag c (.str s) := by
      rintro s ⟨_, h⟩
      unfold StringOf at h
      omega
    by_cases h2 : tag = 2
    · subst h2
      rw [if_pos rfl]
      simp only [Res.bind_eq_ok, Res.ok.injEq, parseInt64_iff]
      constructor
      · rintro ⟨s, h, rfl⟩; exact ⟨rfl, h⟩
      · intro h
        cases v with
        | int z => exact ⟨z, h.2, rfl⟩
        | str s => exact absurd h (hns s)
        | _ => exfalso; simp [UniversalValue] at h
    rw [if_neg h2]
    by_cases h3 : tag = 3
    · subst h3
      rw [if_pos rfl]
      simp only [Res.bind_eq_ok, Res.ok.injEq, parseBitString_iff]
      constructor
      · rintro ⟨s, h, rfl⟩; exact ⟨rfl, h⟩
      · intro h
        cases v with
        | bits z => exact ⟨z, h.2, rfl⟩
        | str s => exact absurd h (hns s)
        | _ => exfalso; simp [UniversalValue] at h
    rw [if_neg h3]
    by_cases h6 : tag = 6
    · subst h6
      rw [if_pos rfl]
      simp only [Res.bind_eq_ok, Res.ok.injEq, parseObjectIdentifier_iff]
      constructor
      · rintro ⟨s, h, rfl⟩; exact ⟨rfl, h⟩
      · intro h
        cases v with
        | oid z => exact ⟨z, h.2, rfl⟩
        | str s => exact absurd h (hns s)
        | _ => exfalso; simp [UniversalValue] at h
    rw [if_neg h6]
    by_cases h23 : tag = 23
    · subst h23
      rw [if_pos rfl]
      simp only [Res.bind_eq_ok, Res.ok.injEq, parseUTCTime_iff]
      constructor
      · rintro ⟨s, h, rfl⟩; exact .inl ⟨rfl, h⟩
      · intro h
        cases v with
        | time z => exact ⟨z, by simpa [UniversalValue] using h, rfl⟩
        | str s => exact absurd h (hns s)
        | _ => exfalso; simp [UniversalValue] at h
    rw [if_neg h23]
    by_cases h24 : tag = 24
    · subst h24
      rw [if_pos rfl]
      simp only [Res.bind_eq_ok, Res.ok.injEq, parseGeneralizedTime_iff]
      constructor
      · rintro ⟨s, h, rfl⟩; exact .inr ⟨rfl, h⟩
      · intro h
        cases v with
        | time z => exact ⟨z, by simpa [UniversalValue] using h, rfl⟩
        | str s => exact absurd h (hns s)
        | _ => exfalso; simp [UniversalValue] at h
    rw [if_neg h24]
    by_cases h4 : tag = 4
    · subst h4
      rw [if_pos rfl, Res.ok.injEq]
      constructor
      · rintro rfl; exact ⟨rfl, rfl⟩
      · intro h
        cases v with
        | octets b => rw [h.2]
        | str s => exact absurd h (hns s)
        | _ => exfalso; simp [UniversalValue] at h
    rw [if_neg h4, Res.ok.injEq]
    constructor
    · rintro rfl
      simp only [UniversalValue, List.mem_cons, List.not_mem_nil, or_false]
      omega
    · intro h
      cases v with
      | nil => rfl
      | str s => exact absurd h (hns s)
      | _ => exfalso; simp only [UniversalValue] at h; omega

/-- `e` is an attribute with this type and value, the tag of which is restricted by `T`; encoding/asn1 tolerates octets at
the end. -/
def IsAttribute (T : ℕ → Prop) (a : ATV) (e : Bytes) : Prop :=
  ∃ oid v cls cmp tag c extra, OIDContent a.type oid ∧ T tag ∧ IsTLV cls cmp tag c v ∧ ValueOf a.value cls cmp tag c ∧
    e = elem 0x30 (elem 0x06 oid ++ v ++ extra)

/-- `e` is a sequence of sets of attributes. -/
def IsName (T : ℕ → Prop) (rdns : RDNSequence) (e : Bytes) : Prop :=
  ∃ sets : List (List Bytes), e = elem 0x30 (sets.flatMap fun s => elem 0x31 s.flatten) ∧
    List.Forall₂ (List.Forall₂ (IsAttribute T)) rdns sets

theorem parseAny_sound {bs rest : Bytes} {v : AnyVal} (h : parseAny bs = .ok (v, rest)) :
    ∃ e cls cmp tag c, bs = e ++ rest ∧ IsTLV cls cmp tag c e ∧ ValueOf v cls cmp tag c := by
  unfold parseAny at h
  rcases ite_ok h with ⟨_, h⟩ | ⟨_, h⟩
  · simp at h
  rw [Res.bind_eq_ok] at h
  obtain ⟨⟨t, r⟩, h1, h2⟩ := h
  dsimp only at h2
  rcases ite_ok h2 with ⟨_, h⟩ | ⟨hlen, h⟩
  · simp at h
  obtain ⟨w, h3, h4⟩ : ∃ w, (if t.isCompound = false ∧ t.cls = 0 then parseAnyBody t.tag (List.take t.length r) else Res.ok AnyVal.nil) = .ok w ∧
      Res.ok (w, List.drop t.length r) = .ok (v, rest) := by
    split at h
    · rename_i hc
      rw [Res.bind_eq_ok] at h
      rw [if_pos hc]
      exact h
    · rename_i hc
      rw [if_neg hc]
      exact ⟨_, rfl, h⟩
  simp only [Res.ok.injEq, Prod.mk.injEq] at h4
  obtain ⟨rfl, rfl⟩ := h4
  obtain ⟨k1, id, k2, rfl⟩ := parseTagAndLength_sound h1
  refine ⟨id ++ lenOctets t.length ++ r.take t.length, t.cls, t.isCompound, t.tag, r.take t.length, by simp, ⟨id, k2, ?_⟩, ?_⟩
  · rw [List.length_take, Nat.min_eq_left (by omega)]
  · unfold ValueOf
    by_cases hc : t.cls = 0 ∧ t.isCompound = false
    · rw [if_pos hc]
      rw [if_pos ⟨hc.2, hc.1⟩, parseAnyBody_iff] at h3
      exact h3
    · rw [if_neg hc]
      rw [if_neg (fun h => hc ⟨h.2, h.1⟩), Res.ok.injEq] at h3
      exact h3.symm

theorem forall₂_choose {γ : Type} {R : α → β → Prop} {S : α → γ → Prop} {f : γ → β} (hf : ∀ a b, R a b → ∃ c, b = f c ∧ S a c)
    {l : List α} {m : List β} (h : List.Forall₂ R l m) : ∃ k, m = k.map f ∧ List.Forall₂ S l k := by
  induction h with
  | nil => exact ⟨[], rfl, .nil⟩
  | cons h1 _ ih =>
    obtain ⟨c, rfl, hc⟩ := hf _ _ h1
    obtain ⟨k, rfl, hk⟩ := ih
    exact ⟨c :: k, rfl, .cons hc hk⟩

/-- C83, soundness: what is accepted as a name is a sequence of sets of attributes, and each attribute is read as what it
stands for. -/
theorem C83_sound (b : Bytes) (rdns : RDNSequence) (h : parseName b = .ok rdns) : IsName (fun _ => True) rdns b := by
  unfold parseName unmarshal at h
  rw [Res.bind_eq_ok] at h
  obtain ⟨⟨r, rest⟩, h1, h2⟩ := h
  dsimp only at h2
  rcases ite_ok h2 with ⟨_, h⟩ | ⟨he, h⟩
  · simp at h
  simp only [Res.ok.injEq] at h
  subst h
  have he : rest = [] := List.length_eq_zero_iff.1 (by omega)
  subst he
  obtain ⟨c, hc, e, h3⟩ := parseField_slice h1
  rw [List.append_nil] at e
  subst e
  obtain ⟨ws, rfl, h4⟩ := parseSequenceOf_sound rfl rfl (by decide) h3
  obtain ⟨sets, rfl, h5⟩ := forall₂_choose (f := fun s : List Bytes => elem 0x31 s.flatten) (S := List.Forall₂ (IsAttribute fun _ => True))
    (by
      rintro l w ⟨c, rfl, hb⟩
      obtain ⟨es, rfl, h6⟩ := parseSequenceOf_sound rfl rfl (by decide) (show parseSequenceOf tyATV c = .ok l from hb)
      refine ⟨es, rfl, h6.imp ?_⟩
      rintro a w ⟨c, rfl, hb⟩
      have hb : (do let x ← parseField tyOID {} c; let y ← parseAny x.2; Res.ok (⟨x.1, y.1⟩ : ATV)) = .ok a := hb
      simp only [Res.bind_eq_ok, Res.ok.injEq] at hb
      obtain ⟨⟨o, c1⟩, g1, ⟨v, c2⟩, g2, rfl⟩ := hb
      obtain ⟨oid, -, rfl, g3⟩ := parseField_oid g1
      dsimp only at g2
      obtain ⟨e, cls, cmp, tag, cc, rfl, g4, g5⟩ := parseAny_sound g2
      exact ⟨oid, e, cls, cmp, tag, cc, c2, g3, trivial, g4, g5, by rw [List.append_assoc]; rfl⟩) h4
  refine ⟨sets, ?_, h5⟩
  rw [List.flatMap_def]
  rfl

theorem parseAny_low {v : AnyVal} {cls tag : ℕ} {cmp : Bool} {c e : Bytes} (ht : tag < 31) (hl : c.length < 2 ^ 31) (he : IsTLV cls cmp tag c e)
    (hv : ValueOf v cls cmp tag c) (rest : Bytes) : parseAny (e ++ rest) = .ok (v, rest) := by
  obtain ⟨id, ⟨hc, hid⟩, rfl⟩ := he
  rcases hid with ⟨_, rfl⟩ | ⟨h, _⟩
  · have e1 : [BitVec.ofNat 8 (cls * 64 + (if cmp = true then 32 else 0) + tag)] ++ lenOctets c.length ++ c = elem (idOctet cls tag cmp) c := rfl
    rw [e1]
    unfold parseAny
    rw [if_neg (elem_append_ne_nil _ _ _), parseTagAndLength_elem rest hc ht hl, Res.ok_bind]
    dsimp only
    rw [if_neg (by simp), List.take_left' rfl, List.drop_left' rfl]
    unfold ValueOf at hv
    by_cases h0 : cls = 0 ∧ cmp = false
    · rw [if_pos h0] at hv
      rw [if_pos ⟨h0.2, h0.1⟩, (parseAnyBody_iff _ _ _).2 hv]
      rfl
    · rw [if_neg h0] at hv
      rw [if_neg fun h => h0 ⟨h.2, h.1⟩, hv]
      rfl
  · omega

/-- C83, completeness: every sequence of sets of attributes below 2^31 bytes, with values of low tag numbers, is accepted. -/
theorem C83_complete (b : Bytes) (rdns : RDNSequence) (hl : b.length < 2 ^ 31) (h : IsName (· < 31) rdns b) : parseName b = .ok rdns := by
  obtain ⟨sets, rfl, h⟩ := h
  have hel := length_le_elem 0x30 (sets.flatMap fun s => elem 0x31 s.flatten)
  have hattr : ∀ (a : ATV) (e : Bytes), IsAttribute (· < 31) a e → e.length < 2 ^ 31 → ElemOk tyATV e a := by
    rintro ⟨ty, v⟩ e ⟨oid, w, cls, cmp, tag, c, extra, h1, h2, h3, h4, rfl⟩ hl
    have k1 := length_le_elem 0x30 (elem 0x06 oid ++ w ++ extra)
    have k2 := length_le_elem 0x06 oid
    have k3 := tlv_pos h3
    simp only [List.length_append] at k1
    have hc : (elem 0x06 oid ++ w ++ extra).length < 2 ^ 31 := by simp only [List.length_append]; omega
    refine ⟨⟨0, 16, true, ⟨_, hc, rfl⟩, by decide, by decide, .inr ⟨rfl, rfl, rfl⟩⟩, fun rest => ?_⟩
    refine parseField_elem (ty := tyATV) (p := {}) rest rfl rfl rfl (by decide) hc ?_
    show (do let x ← parseField tyOID {} _; let y ← parseAny x.2; Res.ok (⟨x.1, y.1⟩ : ATV)) = _
    have : parseField tyOID {} (elem 0x06 oid ++ w ++ extra) = .ok (ty, w ++ extra) := by
      rw [List.append_assoc]
      exact parseField_elem (ty := tyOID) (p := {}) _ rfl rfl rfl (by decide) (by omega) ((parseObjectIdentifier_iff _ _).2 h1)
    rw [this, Res.ok_bind]
    dsimp only
    rw [parseAny_low h2 (by omega) h3 h4, Res.ok_bind]
  have hset : ∀ (r : List ATV) (s : List Bytes), List.Forall₂ (IsAttribute (· < 31)) r s → s.flatten.length < 2 ^ 31 →
      ElemOk (tySlice true tyATV) (elem 0x31 s.flatten) r := by
    intro r s h hl
    have h' : List.Forall₂ (ElemOk tyATV) s r := by
      induction h with
      | nil => exact .nil
      | cons h1 _ ih =>
        rw [List.flatten_cons, List.length_append] at hl
        exact .cons (hattr _ _ h1 (by omega)) (ih (by omega))
    refine ⟨⟨0, 17, true, ⟨_, hl, rfl⟩, by decide, by decide, .inr ⟨rfl, rfl, rfl⟩⟩, fun rest => ?_⟩
    exact parseField_elem (ty := tySlice true tyATV) (p := {}) rest rfl rfl rfl (by decide) hl (parseSequenceOf_ok h')
  have hall : List.Forall₂ (ElemOk (tySlice true tyATV)) (sets.map fun s => elem 0x31 s.flatten) rdns := by
    have hl' : (sets.flatMap fun s => elem 0x31 s.flatten).length < 2 ^ 31 := by omega
    clear hl hel
    induction h with
    | nil => exact .nil
    | cons h1 _ ih =>
      rename_i r s _ _ _
      rw [List.flatMap_cons, List.length_append] at hl'
      have := length_le_elem 0x31 s.flatten
      exact .cons (hset _ _ h1 (by omega)) (ih (by omega))
  have hp : parseField tyRDNSequence {} (elem 0x30 (sets.flatMap fun s => elem 0x31 s.flatten) ++ []) = .ok (rdns, []) := by
    refine parseField_elem (ty := tyRDNSequence) (p := {}) [] rfl rfl rfl (by decide) (by omega) ?_
    rw [List.flatMap_def]
    exact parseSequenceOf_ok hall
  unfold parseName unmarshal
  rw [List.append_nil] at hp
  rw [hp, Res.ok_bind]
  rfl

/-- A subject with a string, a number and an element that is not understood. -/
example : parseName (elem 0x30 (elem 0x31 (elem 0x30 (elem 0x06 [0x55, 4, 3] ++ elem 0x14 [0xe9])) ++
      elem 0x31 (elem 0x30 (elem 0x06 [0x55, 4, 5] ++ elem 0x02 [5]) ++ elem 0x30 (elem 0x06 [0x55, 4, 6] ++ elem 0xa3 [] ++ [1])))) =
    .ok [[⟨[2, 5, 4, 3], .str [0xe9]⟩], [⟨[2, 5, 4, 5], .int 5⟩, ⟨[2, 5, 4, 6], .nil⟩]] := by decide +kernel
