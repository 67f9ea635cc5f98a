import Verif.Der.RoundTrip
import Verif.Cert.Total
import Verif.Cert.Accept
/-!
# Round trips of the struct types
-/
namespace Verif.Cert
open Verif Verif.Der Verif.Spec.DER

variable {α : Type}

/-- What `makeField` writes for a struct, and how `parseField` reads it. -/
theorem struct_rt {zero : α} {isZero : α → Bool} {body : Bytes → Bytes → Res α} {make : α → Res Bytes} {p : Params} {v : α} {e : Bytes}
    (hx : p.explicit = false) (ho : omitted p (isZero v) (fun _ => false) = false)
    (ht : p.tag.getD (if p.set = true then 17 else 16) < 31)
    (h : (tyStruct zero isZero body make).make p v = .ok e) (hl : e.length < 2 ^ 31) :
    ∃ c, make v = .ok c ∧ c.length < 2 ^ 31 ∧ e = elem (idOctet (wireCls p) (p.tag.getD (if p.set = true then 17 else 16)) true) c ∧
      ∀ w rest, body c e = .ok w → parseField (tyStruct zero isZero body make) p (e ++ rest) = .ok (w, rest) := by
  obtain ⟨c, h1, h2, rfl⟩ := makeTagged_elem (tag := 16) (cmp := true) (z := isZero v) (d := fun _ => false) (body := make v) hx ho h hl
  refine ⟨c, h1, h2, rfl, fun w rest hb => ?_⟩
  have hw : wireTag (tyStruct zero isZero body make) p = p.tag.getD (if p.set = true then 17 else 16) := by
    simp [wireTag, univTag, tyStruct]
  exact parseField_elem (ty := tyStruct zero isZero body make) rest rfl rfl hx (by rw [hw]; exact ht) h2 hb

/-- The same for a field without parameters. -/
theorem struct_rt' {zero : α} {isZero : α → Bool} {body : Bytes → Bytes → Res α} {make : α → Res Bytes} {v : α} {e : Bytes}
    (h : (tyStruct zero isZero body make).make {} v = .ok e) (hl : e.length < 2 ^ 31) :
    ∃ c, make v = .ok c ∧ c.length < 2 ^ 31 ∧ e = elem 0x30 c ∧
      ∀ w, body c e = .ok w → ElemOk (tyStruct zero isZero body make) e w := by
  obtain ⟨c, h1, h2, h3, h4⟩ := struct_rt (p := {}) rfl (omitted_mandatory rfl _ _) (by decide) h hl
  have h5 : e = elem 0x30 c := h3
  exact ⟨c, h1, h2, h5, fun w hb => ⟨⟨0, 16, true, ⟨c, h2, h3⟩, by decide, by decide, .inr ⟨rfl, rfl, rfl⟩⟩, fun rest => h4 w rest hb⟩⟩

/-! ## Raw values -/

/-- Bytes that are one element with a low tag. -/
def RawOk (b : Bytes) : Prop := ∃ cls tag cmp c, cls < 4 ∧ tag < 31 ∧ c.length < 2 ^ 31 ∧ b = elem (idOctet cls tag cmp) c

theorem RawOk.ne_nil {b : Bytes} (h : RawOk b) : b ≠ [] := by
  obtain ⟨_, _, _, _, _, _, _, rfl⟩ := h; simp [elem]

/-- A raw value given by its bytes is read back with these bytes. -/
theorem raw_rt {b : Bytes} (h : RawOk b) : ∃ v : RawValue, v.fullBytes = b ∧ ∀ p : Params, p.explicit = false → p.tag = none →
    ∀ rest, parseField tyRaw p (b ++ rest) = .ok (v, rest) := by
  obtain ⟨cls, tag, cmp, c, h1, h2, h3, rfl⟩ := h
  exact ⟨⟨cls, tag, cmp, c, elem (idOctet cls tag cmp) c⟩, rfl, fun p hx hp rest => parseField_raw rest hx hp h1 h2 h3⟩

theorem raw_make {p : Params} {v : RawValue} (h : v.fullBytes ≠ []) : tyRaw.make p v = .ok v.fullBytes := by
  show (if omitted p (v = {}) (fun _ => false) = true then Res.ok [] else if v.fullBytes.length ≠ 0 then .ok v.fullBytes
    else .ok (makeElem v.cls v.tag v.isCompound v.bytes)) = _
  have h1 : decide (v = {}) = false := by rw [decide_eq_false_iff_not]; rintro rfl; exact h rfl
  have h2 : v.fullBytes.length ≠ 0 := by rw [Ne, List.length_eq_zero_iff]; exact h
  rw [h1, if_neg, if_pos h2]
  unfold omitted
  cases p.optional <;> cases p.defaultValue <;> simp

theorem raw_parts_make {v : RawValue} (h : v.fullBytes = []) : tyRaw.make {} v = .ok (makeElem v.cls v.tag v.isCompound v.bytes) := by
  show (if omitted {} (v = {}) (fun _ => false) = true then Res.ok [] else if v.fullBytes.length ≠ 0 then .ok v.fullBytes
    else .ok (makeElem v.cls v.tag v.isCompound v.bytes)) = _
  rw [if_neg (by simp [omitted]), if_neg (by simp [h])]

/-! ## AlgorithmIdentifier -/

/-- Without parameters. -/
theorem algId_rt_none {oid : OID} {e : Bytes} (hf : OIDFits oid) (h : tyAlgId.make {} ⟨oid, {}⟩ = .ok e) (hl : e.length < 2 ^ 31) :
    ElemOk tyAlgId e ⟨oid, {}⟩ := by
  obtain ⟨c, h1, h2, h3, h4⟩ := struct_rt' h hl
  apply h4
  simp only [Res.bind_eq_ok, Res.ok.injEq] at h1
  obtain ⟨a, ha, b, hb, rfl⟩ := h1
  have : b = [] := by
    have : tyRaw.make { optional := true } {} = .ok [] := rfl
    rw [this] at hb; simp at hb; exact hb
  subst this
  rw [List.append_nil] at *
  have := fieldRT_oid (p := {}) rfl rfl (by decide) hf a ha h2 []
  rw [List.append_nil] at this
  rw [this, Res.ok_bind]
  dsimp only
  rw [parseField_skip_nil rfl]
  rfl

/-- With parameters given by their bytes. -/
theorem algId_rt_some {oid : OID} {b e : Bytes} {w : RawValue} (hf : OIDFits oid) (hb : RawOk b) (hw : w.fullBytes = b)
    (h : tyAlgId.make {} ⟨oid, w⟩ = .ok e)
    (hl : e.length < 2 ^ 31) : ∃ v : RawValue, v.fullBytes = b ∧ ElemOk tyAlgId e ⟨oid, v⟩ := by
  obtain ⟨v, hv, hp⟩ := raw_rt hb
  refine ⟨v, hv, ?_⟩
  obtain ⟨c, h1, h2, h3, h4⟩ := struct_rt' h hl
  apply h4
  simp only [Res.bind_eq_ok, Res.ok.injEq] at h1
  obtain ⟨a, ha, b', hb', rfl⟩ := h1
  rw [raw_make (by rw [hw]; exact hb.ne_nil), hw] at hb'
  simp only [Res.ok.injEq] at hb'
  subst hb'
  rw [List.length_append] at h2
  rw [fieldRT_oid (p := {}) rfl rfl (by decide) hf a ha (by omega), Res.ok_bind]
  dsimp only
  have := hp { optional := true } rfl rfl []
  rw [List.append_nil] at this
  rw [this]
  rfl

/-! ## Extension -/

theorem bytes_make {v : Bytes} {e : Bytes} (h : tyBytes.make {} v = .ok e) (hl : e.length < 2 ^ 31) :
    v.length < 2 ^ 31 ∧ e = elem (idOctet 0 4 false) v := by
  obtain ⟨c, h1, h2, h3⟩ := makeTagged_elem (p := {}) (tag := 4) (cmp := false) (z := false) (d := fun _ => false) (body := .ok v) rfl
    (omitted_mandatory rfl _ _) h hl
  simp only [Res.ok.injEq] at h1
  subst h1
  exact ⟨h2, h3⟩

theorem bool_true_make {p : Params} (hx : p.explicit = false) (hp : p.tag = none) (hs : p.set = false) (hd : p.defaultValue = none) {e : Bytes}
    (h : tyBool.make p true = .ok e) (hl : e.length < 2 ^ 31) : FieldRT tyBool p true true ∧ ∀ rest, parseField tyBool p (e ++ rest) = .ok (true, rest) := by
  have := fieldRT_bool (p := p) (v := true) hx (by simp [omitted, hd]) (by simp [wireTag, univTag, hp, hs, tyBool])
  exact ⟨this, this e h hl⟩

theorem extension_rt {v : Extension} {e : Bytes} (hf : OIDFits v.id) (h : tyExtension.make {} v = .ok e) (hl : e.length < 2 ^ 31) :
    ElemOk tyExtension e v := by
  obtain ⟨c, h1, h2, h3, h4⟩ := struct_rt' h hl
  apply h4
  simp only [Res.bind_eq_ok, Res.ok.injEq] at h1
  obtain ⟨a, ha, b, hb, d, hd, rfl⟩ := h1
  simp only [List.length_append] at h2
  have hdd := fieldRT_bytes (p := {}) rfl rfl (by decide) d hd (by omega) []
  rw [List.append_nil] at hdd
  rw [fieldRT_oid (p := {}) rfl rfl (by decide) hf a ha (by omega), Res.ok_bind]
  dsimp only
  obtain ⟨id, crit, val⟩ := v
  cases crit with
  | true =>
    rw [(bool_true_make (p := { optional := true }) rfl rfl rfl rfl hb (by omega)).2, Res.ok_bind]
    dsimp only
    rw [hdd]; rfl
  | false =>
    have : b = [] := by
      have : tyBool.make { optional := true } false = .ok [] := rfl
      rw [this] at hb; simp at hb; exact hb
    subst this
    obtain ⟨l1, rfl⟩ := bytes_make hd (by omega)
    rw [List.nil_append]
    have := parseField_skip (ty := tyBool) (p := { optional := true }) (cls := 0) (tag := 4) (cmp := false) (c := val) [] rfl rfl rfl rfl
      (by decide) (by decide) l1 (.inr (by decide))
    rw [List.append_nil] at this
    rw [this, Res.ok_bind]
    dsimp only
    rw [hdd]; rfl

/-! ## Names -/

/-- An attribute that survives. -/
def ATVOk (a : ATV) : Prop := OIDFits a.type ∧ AnyOk a.value

theorem atv_rt {v : ATV} {e : Bytes} (hf : ATVOk v) (h : tyATV.make {} v = .ok e) (hl : e.length < 2 ^ 31) :
    ElemOk tyATV e v := by
  obtain ⟨c, h1, h2, h3, h4⟩ := struct_rt' h hl
  apply h4
  simp only [Res.bind_eq_ok, Res.ok.injEq] at h1
  obtain ⟨a, ha, b, hb, rfl⟩ := h1
  simp only [List.length_append] at h2
  rw [fieldRT_oid (p := {}) rfl rfl (by decide) hf.1 a ha (by omega), Res.ok_bind]
  dsimp only
  have := any_rt hf.2 hb (by omega) []
  rw [List.append_nil] at this
  rw [this]; rfl

/-- An attribute with an octet string is an extension that is not critical. -/
theorem atv_octets_make (id : OID) (b : Bytes) : tyATV.make {} ⟨id, .octets b⟩ = tyExtension.make {} ⟨id, false, b⟩ := by
  have : (do
      let a ← tyOID.make {} id
      let b ← makeAny (.octets b)
      Res.ok (a ++ b)) = (do
      let a ← tyOID.make {} id
      let b' ← tyBool.make { optional := true } false
      let c ← tyBytes.make {} b
      Res.ok (a ++ (b' ++ c))) := by
    cases tyOID.make {} id with
    | ok a =>
      rw [Res.ok_bind, Res.ok_bind]
      have : tyBool.make { optional := true } false = .ok [] := rfl
      rw [this, Res.ok_bind]
      rfl
    | err _ => rfl
    | panic => rfl
    | loop => rfl
  have e1 : tyATV.make {} ⟨id, .octets b⟩ = makeTagged {} 16 true (decide ((⟨id, .octets b⟩ : ATV) = {})) (fun _ => false) (do
      let a ← tyOID.make {} id
      let b ← makeAny (.octets b)
      Res.ok (a ++ b)) := rfl
  have e2 : tyExtension.make {} ⟨id, false, b⟩ = makeTagged {} 16 true (decide ((⟨id, false, b⟩ : Extension) = {})) (fun _ => false) (do
      let a ← tyOID.make {} id
      let b' ← tyBool.make { optional := true } false
      let c ← tyBytes.make {} b
      Res.ok (a ++ (b' ++ c))) := rfl
  rw [e1, e2, this]
  unfold makeTagged
  rw [omitted_mandatory rfl, omitted_mandatory rfl]

/-! ## Slices again -/

theorem forall₂_self {P : α → α → Prop} : ∀ {l : List α}, (∀ a ∈ l, P a a) → List.Forall₂ P l l := by
  intro l
  induction l with
  | nil => intro _; exact .nil
  | cons a l ih => intro h; exact .cons (h a (by simp)) (ih fun b hb => h b (by simp [hb]))

theorem slice_rt {s : Bool} {ty : Ty α} {vs ws : List α} (h : List.Forall₂ (ElemRT ty) vs ws) : ElemRT (tySlice s ty) vs ws := by
  have hr := fieldRT_slice (s := s) (p := {}) rfl rfl (by cases s <;> simp [wireTag, univTag, tySlice]) h
  exact elemRT_of (z := false) (d := fun _ => false) (body := makeElems ty vs) rfl (by cases s <;> simp [tySlice])
    (by cases s <;> rfl) hr

theorem rdn_rt {s : Bool} {l : List ATV} (h : ∀ a ∈ l, ATVOk a) : ElemRT (tySlice s tyATV) l l :=
  slice_rt (forall₂_self fun a ha _ he hl => atv_rt (h a ha) he hl)

theorem rdnSequence_rt {l : RDNSequence} (h : ∀ r ∈ l, ∀ a ∈ r, ATVOk a) : ElemRT tyRDNSequence l l :=
  slice_rt (forall₂_self fun r hr => rdn_rt (h r hr))

theorem oids_rt {l : List OID} (h : ∀ o ∈ l, OIDFits o) : ElemRT (tySlice false tyOID) l l :=
  slice_rt (forall₂_self fun o ho => elemRT_oid (h o ho))

theorem extensions_rt {l : List Extension} (h : ∀ e ∈ l, OIDFits e.id) : ElemRT (tySlice false tyExtension) l l :=
  slice_rt (forall₂_self fun a ha _ he hl => extension_rt (h a ha) he hl)

/-- Reading a whole marshalled value. -/
theorem unmarshal_of {ty : Ty α} {v w : α} {e : Bytes} (h : ElemRT ty v w) (he : marshal ty v = .ok e) (hl : e.length < 2 ^ 31) :
    unmarshal ty e = .ok (w, []) := by
  have := (h e he hl).2 []
  rw [List.append_nil] at this
  exact this

theorem unmarshalAll_of {ty : Ty α} {v w : α} {e : Bytes} (h : ElemRT ty v w) (he : marshal ty v = .ok e) (hl : e.length < 2 ^ 31) :
    unmarshalAll ty e = .ok w := by
  unfold unmarshalAll
  rw [unmarshal_of h he hl]; rfl

/-! ## Public keys -/

theorem stripTagAndLength_elem {cls tag : Nat} {cmp : Bool} {c : Bytes} (hc : cls < 4) (ht : tag < 31) (hl : c.length < 2 ^ 31) :
    stripTagAndLength (elem (idOctet cls tag cmp) c) = c := by
  unfold stripTagAndLength
  have := parseTagAndLength_elem (cmp := cmp) [] hc ht hl
  simp only [List.append_nil] at this
  rw [this]

theorem withRaw_elem {c : Bytes} (fields : Res Bytes) (hl : c.length < 2 ^ 31) : withRaw (elem 0x30 c) fields = .ok c := by
  unfold withRaw
  rw [if_pos (by simp [elem])]
  have := stripTagAndLength_elem (cls := 0) (tag := 16) (cmp := true) (by decide) (by decide) hl
  rw [show elem 0x30 c = elem (idOctet 0 16 true) c from rfl, this]

/-- Marshalling a struct whose `RawContent` is set gives the same bytes again. -/
theorem struct_raw_make {zero : α} {isZero : α → Bool} {body : Bytes → Bytes → Res α} {fields : α → Res Bytes} {raw : α → Bytes}
    {v : α} {c : Bytes} (hr : raw v = elem 0x30 c) (hl : c.length < 2 ^ 31) :
    (tyStruct zero isZero body (fun v => withRaw (raw v) (fields v))).make {} v = .ok (elem 0x30 c) := by
  show makeTagged {} 16 true (isZero v) (fun _ => false) (withRaw (raw v) (fields v)) = _
  rw [hr, withRaw_elem _ hl]
  unfold makeTagged
  rw [omitted_mandatory rfl, if_neg (by simp), if_neg (by simp), Res.ok_bind]
  unfold wrapTag
  dsimp only
  rw [makeElem_eq (by omega)]
  rfl

/-- What was read can be read again. -/
theorem struct_reparse {zero : α} {isZero : α → Bool} {body : Bytes → Bytes → Res α} {make : α → Res Bytes} {b : Bytes} {v : α}
    (h : unmarshal (tyStruct zero isZero body make) b = .ok (v, [])) :
    ∃ c, c.length < 2 ^ 31 ∧ b = elem 0x30 c ∧ body c b = .ok v ∧ ElemOk (tyStruct zero isZero body make) b v := by
  obtain ⟨c, h1, h2, h3⟩ := parseField_struct h
  rw [List.append_nil] at h2
  subst h2
  refine ⟨c, h1, rfl, h3, ⟨0, 16, true, ⟨c, h1, rfl⟩, by decide, by decide, .inr ⟨rfl, rfl, rfl⟩⟩, fun rest => ?_⟩
  exact (parseField_iff (p := {}) rfl rfl rfl rfl (by show (16 : Nat) < 31; decide)).2 ⟨c, h1, rfl, h3⟩

/-- The key info as the code makes it. -/
theorem pki_rt {oid : OID} {b : Bytes} {w : RawValue} {bits : BitString} {e : Bytes} (hf : OIDFits oid) (hb : RawOk b) (hw : w.fullBytes = b) (hbits : BitsOk bits)
    (h : tyPublicKeyInfo.make {} ⟨[], ⟨oid, w⟩, bits⟩ = .ok e) (hl : e.length < 2 ^ 31) :
    ∃ v : RawValue, v.fullBytes = b ∧ ElemOk tyPublicKeyInfo e ⟨e, ⟨oid, v⟩, bits⟩ := by
  obtain ⟨c, h1, h2, h3, h4⟩ := struct_rt' h hl
  unfold withRaw at h1
  rw [if_neg (by simp)] at h1
  simp only [Res.bind_eq_ok, Res.ok.injEq] at h1
  obtain ⟨x, hx, y, hy, rfl⟩ := h1
  rw [List.length_append] at h2
  obtain ⟨v, hv, g⟩ := algId_rt_some hf hb hw hx (by omega)
  refine ⟨v, hv, h4 _ ?_⟩
  rw [g.2, Res.ok_bind]
  dsimp only
  have := fieldRT_bits (p := {}) rfl rfl (by decide) hbits y hy (by omega) []
  rw [List.append_nil] at this
  rw [this]; rfl

theorem pki_reparse {b : Bytes} {k : PublicKeyInfo} (h : unmarshal tyPublicKeyInfo b = .ok (k, [])) :
    k.raw = b ∧ tyPublicKeyInfo.make {} k = .ok b ∧ ElemOk tyPublicKeyInfo b k ∧ b.length < 2 ^ 31 + 10 := by
  obtain ⟨c, h1, h2, h3, h4⟩ := struct_reparse h
  have hr : k.raw = b := by
    simp only [Res.bind_eq_ok, Res.ok.injEq] at h3
    obtain ⟨_, _, _, _, rfl⟩ := h3
    rfl
  refine ⟨hr, ?_, h4, ?_⟩
  · rw [h2] at hr ⊢
    exact struct_raw_make hr h1
  · rw [h2, CB.length_elem, CB.length_lenOctets]
    have : byteLen c.length ≤ 4 := (byteLen_le_iff _ _).2 (by omega)
    split <;> omega

/-! ## Requests -/

/-- Raw values that came from parsing. -/
def RawFull (v : RawValue) : Prop := ElemOk tyRaw v.fullBytes v ∧ v.fullBytes ≠ []

theorem rawFull_rt {v : RawValue} (h : RawFull v) : ElemRT tyRaw v v := by
  intro e he _
  rw [raw_make h.2] at he
  simp only [Res.ok.injEq] at he
  subst he
  exact h.1

theorem tbsCSR_rt {subj e : Bytes} {pk : PublicKeyInfo} {attrs : List RawValue} (hs : RawOk subj)
    (hpk : ∀ e, tyPublicKeyInfo.make {} pk = .ok e → e.length < 2 ^ 31 → ∃ w, ElemOk tyPublicKeyInfo e w)
    (ha : ∀ v ∈ attrs, RawFull v)
    (h : tyTbsCSR.make {} { version := 0, subject := { fullBytes := subj }, publicKey := pk, rawAttributes := attrs } = .ok e)
    (hl : e.length < 2 ^ 31) :
    ∃ c s epk w, c.length < 2 ^ 31 ∧ e = elem 0x30 c ∧ s.fullBytes = subj ∧ tyPublicKeyInfo.make {} pk = .ok epk ∧ epk.length < 2 ^ 31 ∧ ElemOk tyPublicKeyInfo epk w ∧
      ElemOk tyTbsCSR e ⟨e, 0, s, w, attrs⟩ := by
  obtain ⟨c, h1, h2, h3, h4⟩ := struct_rt' h hl
  unfold withRaw at h1
  rw [if_neg (by simp)] at h1
  simp only [Res.bind_eq_ok, Res.ok.injEq] at h1
  obtain ⟨x1, g1, x2, g2, x3, g3, x4, g4, rfl⟩ := h1
  simp only [List.length_append] at h2
  rw [raw_make hs.ne_nil] at g2
  simp only [Res.ok.injEq] at g2
  subst g2
  obtain ⟨w, hw⟩ := hpk x3 g3 (by omega)
  obtain ⟨s, hs1, hs2⟩ := raw_rt hs
  refine ⟨_, s, x3, w, by simp only [List.length_append]; omega, h3, hs1, g3, by omega, hw, h4 _ ?_⟩
  rw [fieldRT_int (p := {}) rfl (by simp [omitted]) (by decide) (by unfold Int64Range; omega) x1 g1 (by omega), Res.ok_bind]
  dsimp only
  rw [hs2 {} rfl rfl, Res.ok_bind]
  dsimp only
  rw [hw.2, Res.ok_bind]
  dsimp only
  have := fieldRT_slice (s := false) (p := { tag := some 0 }) rfl rfl (by show (0 : Nat) < 31; decide)
    (forall₂_self fun v hv => rawFull_rt (ha v hv)) x4 g4 (by omega) []
  rw [List.append_nil] at this
  rw [this]; rfl

theorem sigAlg_fits : OIDFits oidSignatureSM3WithSM2 := by
  unfold OIDFits; decide

/-- The signed structure of a request. -/
theorem csr_rt {tbs : TbsCSR} {w : TbsCSR} {c sig e : Bytes} (hr : tbs.raw = elem 0x30 c) (hc : c.length < 2 ^ 31)
    (hw : ElemOk tyTbsCSR (elem 0x30 c) w)
    (h : tyCSR.make {} { tbs := tbs, sigAlg := ⟨oidSignatureSM3WithSM2, {}⟩, sigValue := ⟨sig, sig.length * 8⟩ } = .ok e) (hl : e.length < 2 ^ 31) :
    unmarshal tyCSR e = .ok (⟨e, w, ⟨oidSignatureSM3WithSM2, {}⟩, ⟨sig, sig.length * 8⟩⟩, []) := by
  obtain ⟨c', h1, h2, h3, h4⟩ := struct_rt' h hl
  unfold withRaw at h1
  rw [if_neg (by simp)] at h1
  simp only [Res.bind_eq_ok, Res.ok.injEq] at h1
  obtain ⟨x1, g1, x2, g2, x3, g3, rfl⟩ := h1
  simp only [List.length_append] at h2
  have g1' : tyTbsCSR.make {} tbs = .ok (elem 0x30 c) := struct_raw_make hr hc
  rw [g1'] at g1
  simp only [Res.ok.injEq] at g1
  subst g1
  have := (h4 _ (by
    rw [hw.2, Res.ok_bind]
    dsimp only
    rw [(algId_rt_none sigAlg_fits g2 (by omega)).2, Res.ok_bind]
    dsimp only
    have := fieldRT_bits (p := {}) rfl rfl (by decide) (bitsOk_bytes sig) x3 g3 (by omega) []
    rw [List.append_nil] at this
    rw [this, Res.ok_bind])).2 []
  rw [List.append_nil] at this
  exact this

/-! ## Attributes -/

theorem parseSequenceOf_raws : ∀ {es : List Bytes}, (∀ e ∈ es, RawOk e) →
    ∃ vs : List RawValue, parseSequenceOf tyRaw es.flatten = .ok vs ∧ List.Forall₂ (fun e v => v.fullBytes = e ∧ RawFull v) es vs := by
  intro es h
  have : ∃ vs : List RawValue, List.Forall₂ (fun e v => v.fullBytes = e ∧ RawFull v) es vs := by
    induction es with
    | nil => exact ⟨[], .nil⟩
    | cons e es ih =>
      obtain ⟨vs, hvs⟩ := ih fun e he => h e (by simp [he])
      obtain ⟨cls, tag, cmp, c, h1, h2, h3, h4⟩ := h e (by simp)
      refine ⟨⟨cls, tag, cmp, c, e⟩ :: vs, .cons ⟨rfl, ?_, (h e (by simp)).ne_nil⟩ hvs⟩
      dsimp only
      rw [h4]
      exact elemOk_raw h1 h2 h3
  obtain ⟨vs, hvs⟩ := this
  refine ⟨vs, parseSequenceOf_ok (hvs.imp ?_), hvs⟩
  rintro e v ⟨rfl, h⟩
  exact h.1

theorem elem_small_inj {t : Byte} {c c' : Bytes} (hc : c.length < 2 ^ 32) (hc' : c'.length < 2 ^ 32) (h : elem t c = elem t c') : c = c' := by
  have := CB.elem_append_inj (CB.byteLen_lt_127 hc) (CB.byteLen_lt_127 hc') (x := []) (y := []) (by rw [h])
  exact this.2.1

/-- The contents of a marshalled slice that can be read. -/
theorem marshal_slice_contents {β : Type} {ty : Ty α} {ty' : Ty β} {vs : List α} {b : Bytes} {l : List β} (h : marshal (tySlice false ty) vs = .ok b)
    (hu : unmarshal (tySlice false ty') b = .ok (l, [])) :
    ∃ es, List.Forall₂ (fun v e => ty.make {} v = .ok e) vs es ∧ es.flatten.length < 2 ^ 31 ∧ b = elem 0x30 es.flatten ∧
      parseSequenceOf ty' es.flatten = .ok l := by
  have h' : makeTagged {} 16 true false (fun _ => false) (makeElems ty vs) = .ok b := h
  obtain ⟨c, h1, h2, h3⟩ := parseField_slice hu
  rw [List.append_nil] at h2
  unfold makeTagged at h'
  rw [omitted_mandatory rfl, if_neg (by simp), if_neg (by simp), Res.bind_eq_ok] at h'
  obtain ⟨c', h4, h5⟩ := h'
  obtain ⟨es, rfl, h6⟩ := makeElems_ok h4
  simp only [Res.ok.injEq] at h5
  have h5' : makeElem 0 16 true es.flatten = b := h5
  have h7 := length_le_makeElem 0 16 true es.flatten
  have h8 : (elem 0x30 c).length < 2 ^ 32 := CB.length_elem_small (by omega)
  have h9 : b = elem 0x30 c := h2
  rw [h5', h9] at h7
  rw [makeElem_eq (by omega)] at h5'
  have h10 : elem 0x30 es.flatten = elem 0x30 c := by rw [← h9]; exact h5'
  have h11 := elem_small_inj (by omega) (by omega) h10
  refine ⟨es, h6, by rw [h11]; exact h1, by rw [h11]; exact h9, by rw [h11]; exact h3⟩

theorem make_struct_rawOk {zero : α} {isZero : α → Bool} {body : Bytes → Bytes → Res α} {make : α → Res Bytes} {v : α} {e : Bytes}
    (h : (tyStruct zero isZero body make).make {} v = .ok e) (hl : e.length < 2 ^ 31) : RawOk e := by
  obtain ⟨c, h1, h2, h3, h4⟩ := struct_rt' h hl
  exact ⟨0, 16, true, c, by decide, by decide, h2, h3⟩

theorem make_slice_rawOk {ty : Ty α} {v : List α} {e : Bytes}
    (h : (tySlice false ty).make {} v = .ok e) (hl : e.length < 2 ^ 31) : RawOk e := by
  obtain ⟨c, h1, h2, rfl⟩ := makeTagged_elem (p := {}) (tag := 16) (cmp := true) (z := false) (d := fun _ => false) rfl (omitted_mandatory rfl _ _) h hl
  exact ⟨0, 16, true, c, by decide, by decide, h2, rfl⟩

/-- `newRawAttributes` gives the attributes one by one. -/
theorem newRawAttributes_ok {attributes : List ATVSET} {l : List RawValue} (h : newRawAttributes attributes = .ok l) :
    List.Forall₂ (fun a v => tyATVSET.make {} a = .ok v.fullBytes ∧ v.fullBytes.length < 2 ^ 31 ∧ RawFull v) attributes l := by
  unfold newRawAttributes at h
  rw [Res.bind_eq_ok] at h
  obtain ⟨b, hb, h⟩ := h
  rw [Res.bind_eq_ok] at h
  obtain ⟨⟨l', rest⟩, hu, h⟩ := h
  rcases ite_ok h with ⟨_, h⟩ | ⟨hr, h⟩
  · simp at h
  have : rest = [] := by cases rest <;> simp_all
  subst this
  simp only [Res.ok.injEq] at h
  subst h
  obtain ⟨es, h1, h2, h3, h4⟩ := marshal_slice_contents hb hu
  have hlen : ∀ e ∈ es, e.length < 2 ^ 31 := fun e he => by have := length_le_flatten he; omega
  have hraw : ∀ e ∈ es, RawOk e := by
    intro e he
    clear h4 h3 h2 hb hu
    induction h1 with
    | nil => simp at he
    | cons g1 g2 ih =>
      rcases List.mem_cons.1 he with rfl | he
      · exact make_struct_rawOk g1 (hlen _ (by simp))
      · exact ih (fun e he => hlen e (by simp [he])) he
  obtain ⟨vs, g1, g2⟩ := parseSequenceOf_raws hraw
  rw [g1] at h4
  simp only [Res.ok.injEq] at h4
  subst h4
  clear h3 g1 hb hu h2 hraw hr h
  induction h1 generalizing vs with
  | nil => cases g2; exact .nil
  | cons k1 k2 ih =>
    cases g2 with
    | cons m1 m2 =>
      obtain ⟨rfl, m1⟩ := m1
      exact .cons ⟨k1, hlen _ (by simp), m1⟩ (ih (fun e he => hlen e (by simp [he])) _ m2)

end Verif.Cert
