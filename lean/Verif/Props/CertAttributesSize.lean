import Verif.Props.CertAttributes
import Verif.Props.CertSize
/-!
# C150 for the attributes of a request

`C150_request` leaves the field `Attributes` out. It is bounded as well: what it holds is no larger than the attributes of the request.
-/
namespace Verif.Props
open Verif Verif.Der Verif.Cert Verif.Spec.DER Verif.Spec.Cert

variable {U : Type}

/-! ## Sizes -/

/-- A value: its octets, for an object identifier its components; numbers and times have a fixed size. -/
def anySize : AnyVal → ℕ
  | .str s => s.length
  | .bits b => b.bytes.length
  | .oid o => o.length
  | .octets b => b.length
  | .nil | .int _ | .time _ => 0

/-- A list of pairs: types, values and four octets for each pair. -/
def pairsSize (l : List ATV) : ℕ := (l.map fun a => a.type.length + anySize a.value + 4).sum

/-- An attribute: its type, its values and two octets for each of these, five octets for itself. -/
def attributeSize (a : ATVSET) : ℕ := a.type.length + (a.value.map fun l => pairsSize l + 2).sum + 5

/-! ## Lemmas -/

theorem value_size {v : AnyVal} {cls tag : ℕ} {cmp : Bool} {c : Bytes} (h : ValueOf v cls cmp tag c) : anySize v ≤ c.length + 1 := by
  unfold ValueOf at h
  split at h
  · cases v with
    | nil => simp [anySize]
    | str s => rw [h.1]; simp [anySize]
    | int i => simp [anySize]
    | bits b =>
      obtain ⟨_, pad, rfl, _⟩ := h
      simp [anySize]
      omega
    | oid o => exact readOID_length (c := c) ((readOID_iff _ _).2 ((parseObjectIdentifier_iff _ _).2 h.2))
    | time t => simp [anySize]
    | octets b => rw [h.2]; simp [anySize]
  · rw [h]; simp [anySize]

theorem pair_size {a : ATV} {c : Bytes} (h : ReadPair a c) : a.type.length + anySize a.value + 2 ≤ c.length := by
  obtain ⟨oc, v, cls, cmp, tag, vc, more, h1, h2, h3, rfl⟩ := h
  have a1 := readOID_length h1
  have a2 := tlv_length h2
  have a3 := value_size h3
  have a4 := elem_length 0x06 oc
  simp only [List.length_append]
  omega

theorem elems_sum {α : Type} {t : Byte} {P : α → Bytes → Prop} {f : α → ℕ} (hP : ∀ a c, P a c → f a ≤ c.length + 2) {l : List α} {cs : List Bytes}
    (h : List.Forall₂ P l cs) : (l.map f).sum ≤ (cs.flatMap (elem t)).length := by
  induction h with
  | nil => simp
  | @cons a c l cs hx _ ih =>
    have := hP _ _ hx
    have := elem_length t c
    simp only [List.map_cons, List.sum_cons, List.flatMap_cons, List.length_append]; omega

theorem pairs_size {l : List ATV} {c : Bytes} (h : ReadPairs l c) : pairsSize l ≤ c.length := by
  obtain ⟨cs, rfl, h⟩ := h
  exact elems_sum (fun a c h => by have := pair_size h; omega) h

theorem attrSet_size {a : ATVSET} {w : Bytes} (h : ReadAttrSet a w) : attributeSize a ≤ w.length := by
  obtain ⟨oc, vs, more, h1, h2, rfl⟩ := h
  have k : (a.value.map fun l => pairsSize l + 2).sum ≤ (vs.flatMap (elem 0x30)).length :=
    elems_sum (fun a c h => by have := pairs_size h; omega) h2
  have a1 := readOID_length h1
  have a2 := elem_length 0x06 oc
  have a3 := elem_length 0x31 (vs.flatMap (elem 0x30))
  have a4 := elem_length 0x30 (elem 0x06 oc ++ (elem 0x31 (vs.flatMap (elem 0x30)) ++ more))
  simp only [List.length_append] at a4
  unfold attributeSize
  omega

/-! ## C150 -/

/-- **C150** for requests, with `Attributes`: key, subject and attributes lie side by side in the signed part; what the field holds,
with five octets for each attribute, two for each value and four for each pair, is no larger than the attributes of the request. -/
theorem C150_attributes (env : Env U) (data : Bytes) (r : CertReq U) (h : parseCertificateRequest env data = .ok r) :
    r.rawSPKI.length + r.rawSubject.length + (r.attributes.map attributeSize).sum < r.rawTBS.length := by
  obtain ⟨version, subject, key, x, y, exts, s, tbs, signature, hr⟩ := (C143_accepts env data).1.1 ⟨r, h⟩
  obtain ⟨r', h', -, rfl, rfl, rfl, -⟩ := (C143_exact env data tbs subject key signature version x y exts s).2 hr
  obtain rfl : r = r' := Res.ok.inj (h.symm.trans h')
  obtain ⟨rdns, attrs, pieces, alg, params, sc, more, ⟨vc, extra, _, _, ha, hi⟩, ⟨sets, hn, _⟩, ⟨_, _, _, _, _, _, _, _, hk⟩, -⟩ := hr
  have ht : RequestInfo attrs.flatten r.rawTBS := by
    rw [hn, hk] at hi
    exact ⟨vc, _, _, extra, hi⟩
  obtain ⟨⟨ps, e, hp⟩, -⟩ := (C152_exact_partial env data r h).2 attrs ht ha
  have k : (r.attributes.map attributeSize).sum ≤ attrs.flatten.length := by
    rw [e]
    clear * - hp
    induction hp with
    | nil => simp
    | @cons w p attrs ps h1 _ ih =>
      simp only [List.flatten_cons, List.map_append, List.sum_append, List.length_append]
      rcases h1 with ⟨a, h1, rfl⟩ | ⟨_, rfl⟩
      · have := attrSet_size h1
        simp only [List.map_cons, List.map_nil, List.sum_cons, List.sum_nil]
        omega
      · simp only [List.map_nil, List.sum_nil]
        omega
  have a := elem_length 0x30 (elem 0x02 vc ++ (r.rawSubject ++ (r.rawSPKI ++ (elem 0xa0 attrs.flatten ++ extra))))
  have b := elem_length 0xa0 attrs.flatten
  rw [← hi] at a
  simp only [List.length_append] at a
  omega

/-- Two attributes are kept, as 27 and 29; all three have 95 octets. -/
example : (match parseCertificateRequest exEnv (exAsking exAttrs) with
    | .ok r => (r.attributes.map attributeSize, exAttrs.flatten.length)
    | _ => ([], 0)) = ([27, 29], 95) := by decide +kernel

end Verif.Props
