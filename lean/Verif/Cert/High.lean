import Verif.Cert.Total
import Verif.Cert.Spec
/-!
# Elements with any tag number: what encoding/asn1 reads into a `RawValue`
-/
namespace Verif.Cert
open Verif Verif.Der Verif.Spec.DER Verif.Spec.Cert

theorem ident_low {cls tag : Nat} {cmp : Bool} (hc : cls < 4) (ht : tag < 31) : IsIdent cls cmp tag [idOctet cls tag cmp] :=
  ⟨hc, .inl ⟨ht, rfl⟩⟩

theorem parseTag_sound {b : Byte} {bs r : Bytes} {tag : Nat} (h : parseTag b bs = .ok (tag, r)) :
    ∃ g, bs = g ++ r ∧ IsIdent (b >>> 6).toNat (b &&& 0x20 = 0x20) tag (b :: g) := by
  have hcls : (b >>> 6).toNat < 4 := by rw [shr6]; have := b.isLt; omega
  unfold parseTag at h
  split at h
  · rename_i h1f
    rw [Res.bind_eq_ok] at h
    obtain ⟨⟨v, r'⟩, h1, h2⟩ := h
    dsimp only at h2
    split at h2
    · simp at h2
    · rename_i hv
      simp only [Res.ok.injEq, Prod.mk.injEq] at h2
      obtain ⟨rfl, rfl⟩ := h2
      obtain ⟨g, hg, _, rfl, hv', _⟩ := (parseBase128Int_iff _ _ _ _ _).1 h1
      refine ⟨g, rfl, hcls, .inr ⟨by omega, g, ?_, hg, by omega⟩⟩
      rw [List.cons.injEq]
      refine ⟨?_, rfl⟩
      revert h1f
      clear hv hv' h1 hg hcls
      revert b
      decide +kernel
  · rename_i h1f
    simp only [Res.ok.injEq, Prod.mk.injEq] at h
    obtain ⟨rfl, rfl⟩ := h
    refine ⟨[], rfl, hcls, .inl ⟨?_, ?_⟩⟩
    · revert h1f; clear hcls; revert b; decide +kernel
    · rw [List.cons.injEq]
      refine ⟨?_, rfl⟩
      clear hcls h1f
      revert b
      decide +kernel

/-- The length octets do not depend on the tag. -/
theorem parseTagAndLength_sound {bs rest : Bytes} {t : TagAndLength} (h : parseTagAndLength bs = .ok (t, rest)) :
    t.length < 2 ^ 31 ∧ ∃ id, IsIdent t.cls t.isCompound t.tag id ∧ bs = id ++ lenOctets t.length ++ rest := by
  cases bs with
  | nil => simp [parseTagAndLength] at h
  | cons b bs =>
    have h' := h
    unfold parseTagAndLength at h'
    rw [Res.bind_eq_ok] at h'
    obtain ⟨⟨tag, r⟩, h1, h2⟩ := h'
    obtain ⟨g, rfl, hid⟩ := parseTag_sound h1
    have e1 : ((b &&& 0xe0) >>> 6) = b >>> 6 := by clear h h1 h2 hid; revert b; decide +kernel
    have e2 : ((b &&& 0xe0) &&& 0x20) = b &&& 0x20 := by clear h h1 h2 hid; revert b; decide +kernel
    have e3 : parseTag (b &&& 0xe0) r = .ok (0, r) := by
      have : ((b &&& 0xe0) &&& 0x1f).toNat = 0 := by clear h h1 h2 hid; revert b; decide +kernel
      unfold parseTag
      rw [this, if_neg (by decide)]
    have hlow : parseTagAndLength ((b &&& 0xe0) :: r) = .ok ({ t with tag := 0 }, rest) ∧
        t.cls = (b >>> 6).toNat ∧ t.isCompound = decide (b &&& 0x20 = 0x20) ∧ t.tag = tag := by
      unfold parseTagAndLength
      dsimp only at h2 ⊢
      rw [e3, Res.ok_bind, e1, e2]
      dsimp only
      cases r with
      | nil => simp at h2
      | cons l r =>
        dsimp only at h2 ⊢
        split at h2
        · rename_i hs
          rw [if_pos hs]
          simp only [Res.ok.injEq, Prod.mk.injEq] at h2
          obtain ⟨rfl, rfl⟩ := h2
          exact ⟨rfl, rfl, rfl, rfl⟩
        · rename_i hs
          rw [if_neg hs]
          split at h2
          · simp at h2
          · rename_i hn
            rw [if_neg hn]
            rw [Res.bind_eq_ok] at h2
            obtain ⟨s, g1, g2⟩ := h2
            rw [g1, Res.ok_bind]
            split at g2
            · simp at g2
            · rename_i hv
              rw [if_neg hv]
              simp only [Res.ok.injEq, Prod.mk.injEq] at g2
              obtain ⟨rfl, rfl⟩ := g2
              exact ⟨rfl, rfl, rfl, rfl⟩
    obtain ⟨k1, k2, k3, k4⟩ := hlow
    obtain ⟨m1, m2, m3⟩ := (parseTagAndLength_iff (show ({ t with tag := 0 } : TagAndLength).tag < 31 from Nat.zero_lt_succ _)).1 k1
    rw [List.cons.injEq] at m3
    rw [k2, k3, k4]
    exact ⟨m1, b :: g, hid, by rw [m3.2]; simp⟩

/-- What a `RawValue` is read from. -/
theorem parseField_raw_sound {bs rest : Bytes} {v : RawValue} (h : parseField tyRaw {} bs = .ok (v, rest)) :
    IsTLV v.cls v.isCompound v.tag v.bytes v.fullBytes ∧ bs = v.fullBytes ++ rest ∧ v.bytes.length < 2 ^ 31 := by
  have hne : bs ≠ [] := by rintro rfl; simp [parseField] at h
  obtain ⟨hsplit, _⟩ := parseField_raw_split rfl rfl hne h
  unfold parseField at h
  rw [if_neg hne, Res.bind_eq_ok] at h
  obtain ⟨⟨t, r⟩, h1, h2⟩ := h
  obtain ⟨g1, id, g2, g3⟩ := parseTagAndLength_sound h1
  simp only [Bool.false_eq_true, if_false] at h2
  unfold parseInner tyRaw at h2
  simp only [Bool.false_eq_true, if_false, Bool.true_eq_false, false_and, or_self] at h2
  split at h2
  · simp at h2
  · rename_i hl
    rw [Res.ok_bind] at h2
    simp only [Res.ok.injEq, Prod.mk.injEq] at h2
    obtain ⟨rfl, rfl⟩ := h2
    have e : (r.take t.length).length = t.length := by simp; omega
    refine ⟨⟨id, g2, ?_⟩, hsplit, by dsimp only; omega⟩
    dsimp only
    rw [e]
    rw [show bs.length - (r.length - t.length) = (id ++ lenOctets t.length ++ r.take t.length).length by
      rw [g3]; simp only [List.length_append, e]; omega]
    have e' : bs = (id ++ lenOctets t.length ++ r.take t.length) ++ r.drop t.length := by
      rw [List.append_assoc, List.take_append_drop, g3]
    conv_lhs => rw [e']
    rw [List.take_left' rfl]

end Verif.Cert
