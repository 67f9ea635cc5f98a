import Verif.Cert.TypesRT
/-!
# Requests: the attributes, helper lemmas
-/
namespace Verif.Cert
open Verif Verif.Der Verif.Spec.DER

/-- The extension that an attribute in an extension request stands for. -/
def ATV.toExtension (a : ATV) : Extension := ⟨a.type, false, match a.value with | .octets b => b | _ => []⟩

/-- An attribute in an extension request that can be read as an extension. -/
def ATV.IsExt (a : ATV) : Prop := OIDFits a.type ∧ ∃ b, a.value = .octets b

theorem atv_ext_make {a : ATV} (h : a.IsExt) : tyATV.make {} a = tyExtension.make {} a.toExtension := by
  obtain ⟨t, v⟩ := a
  obtain ⟨_, b, rfl⟩ := h
  exact atv_octets_make t b

theorem makeElems_ext : ∀ {l : List ATV}, (∀ a ∈ l, a.IsExt) → makeElems tyATV l = makeElems tyExtension (l.map ATV.toExtension) := by
  intro l
  induction l with
  | nil => intro _; rfl
  | cons a l ih =>
    intro h
    rw [makeElems, List.map_cons, makeElems, atv_ext_make (h a (by simp)), ih fun b hb => h b (by simp [hb])]

theorem slice_ext_make {l : List ATV} (h : ∀ a ∈ l, a.IsExt) :
    (tySlice false tyATV).make {} l = (tySlice false tyExtension).make {} (l.map ATV.toExtension) := by
  show makeTagged {} 16 true false (fun _ => false) (makeElems tyATV l) = makeTagged {} 16 true false (fun _ => false) (makeElems tyExtension _)
  rw [makeElems_ext h]

/-- How a marshalled attribute is read by `parseCSRExtensions`. -/
theorem pkcs10_of {a : ATVSET} {e : Bytes} (hf : OIDFits a.type) (h : tyATVSET.make {} a = .ok e) (hl : e.length < 2 ^ 31) :
    ∃ vs : List RawValue, unmarshal tyPkcs10Attribute e = .ok (⟨a.type, vs⟩, []) ∧
      List.Forall₂ (fun (l : List ATV) (v : RawValue) => (tySlice false tyATV).make {} l = .ok v.fullBytes ∧ v.fullBytes.length < 2 ^ 31) a.value vs := by
  obtain ⟨c, h1, h2, h3, h4⟩ := struct_rt' h hl
  simp only [Res.bind_eq_ok, Res.ok.injEq] at h1
  obtain ⟨x, hx, y, hy, rfl⟩ := h1
  rw [List.length_append] at h2
  obtain ⟨c, g1, g2, g3⟩ := makeTagged_elem (p := { set := true }) (tag := 16) (cmp := true) (z := false) (d := fun _ => false)
    (body := makeElems (tySlice false tyATV) a.value) rfl (omitted_mandatory rfl _ _) hy (by omega)
  obtain ⟨es, rfl, g4⟩ := makeElems_ok g1
  clear hy h4
  generalize a.value = value at *
  have hlen : ∀ e ∈ es, e.length < 2 ^ 31 := fun e he => by have := length_le_flatten he; omega
  have hraw : ∀ e ∈ es, RawOk e := by
    intro e he
    clear g1 g2 g3
    induction g4 with
    | nil => simp at he
    | cons k1 k2 ih =>
      rcases List.mem_cons.1 he with rfl | he
      · exact make_slice_rawOk k1 (hlen _ (by simp))
      · exact ih (fun e he => hlen e (by simp [he])) he
  obtain ⟨vs, k1, k2⟩ := parseSequenceOf_raws hraw
  refine ⟨vs, ?_, ?_⟩
  · have hy' : parseField (tySlice false tyRaw) { set := true } (y ++ []) = .ok (vs, []) := by
      rw [g3]
      exact parseField_elem (ty := tySlice false tyRaw) (p := { set := true }) [] rfl rfl rfl (by decide) g2 k1
    rw [List.append_nil] at hy'
    have hb : (do
        let a ← parseField tyOID {} (x ++ y)
        let b ← parseField (tySlice false tyRaw) { set := true } a.2
        Res.ok (⟨a.1, b.1⟩ : Pkcs10Attribute)) = .ok ⟨a.type, vs⟩ := by
      rw [fieldRT_oid (p := {}) rfl rfl (by decide) hf x hx (by omega), Res.ok_bind]
      dsimp only
      rw [hy']; rfl
    have := parseField_elem (ty := tyPkcs10Attribute) (p := {}) (c := x ++ y) (v := ⟨a.type, vs⟩) [] rfl rfl rfl (by decide)
      (by rw [List.length_append]; omega) hb
    rw [List.append_nil] at this
    rw [h3]
    exact this
  · clear k1 hraw g1 g2 g3
    induction g4 generalizing vs with
    | nil => cases k2; exact .nil
    | cons m1 m2 ih =>
      cases k2 with
      | cons n1 n2 =>
        obtain ⟨rfl, n1⟩ := n1
        exact .cons ⟨m1, hlen _ (by simp)⟩ (ih (fun e he => hlen e (by simp [he])) _ n2)

/-- The extensions in an attribute. -/
def ATVSET.exts (a : ATVSET) : List Extension :=
  if a.type = oidExtensionRequest then (a.value.head?.getD []).map ATV.toExtension else []

/-- An attribute that `parseCSRExtensions` can read: if it is an extension request, its first value consists of
extensions. -/
def ATVSET.Ok (a : ATVSET) : Prop :=
  OIDFits a.type ∧ (a.type = oidExtensionRequest → ∀ x ∈ a.value.head?.getD [], x.IsExt)

theorem csrExtensionsOf_ok {a : ATVSET} {v : RawValue} (ha : a.Ok) (h : tyATVSET.make {} a = .ok v.fullBytes) (hl : v.fullBytes.length < 2 ^ 31) :
    csrExtensionsOf v = .ok a.exts := by
  obtain ⟨vs, h1, h2⟩ := pkcs10_of ha.1 h hl
  unfold csrExtensionsOf
  rw [h1]
  unfold wholly ATVSET.exts
  dsimp only
  rw [Res.ok_bind]
  simp only [List.length_nil, if_true]
  obtain ⟨t, value⟩ := a
  dsimp only at *
  cases h2 with
  | nil => dsimp only; split <;> simp
  | cons k1 k2 =>
    rename_i l w ls ws
    dsimp only
    by_cases ht : t = oidExtensionRequest
    · rw [if_neg (by simp [ht]), if_pos ht]
      have hx := ha.2 ht
      simp only [List.head?_cons, Option.getD_some] at hx ⊢
      rw [slice_ext_make hx] at k1
      have := unmarshal_of (extensions_rt (l := l.map ATV.toExtension) (by
        intro e he
        obtain ⟨x, hx1, rfl⟩ := List.mem_map.1 he
        exact (hx x hx1).1)) k1.1 k1.2
      rw [this, Res.ok_bind]
    · rw [if_pos ht, if_neg ht]

theorem parseCSRExtensions_ok {as : List ATVSET} {vs : List RawValue}
    (h : List.Forall₂ (fun a v => tyATVSET.make {} a = .ok v.fullBytes ∧ v.fullBytes.length < 2 ^ 31 ∧ RawFull v) as vs) (ha : ∀ a ∈ as, a.Ok) :
    parseCSRExtensions vs = .ok (as.flatMap ATVSET.exts) := by
  induction h with
  | nil => rfl
  | cons h1 h2 ih =>
    rw [parseCSRExtensions, csrExtensionsOf_ok (ha _ (by simp)) h1.1 h1.2.1, Res.ok_bind, ih fun a ha' => ha a (by simp [ha']), Res.ok_bind,
      List.flatMap_cons]

end Verif.Cert
