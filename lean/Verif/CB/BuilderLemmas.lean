import Verif.CB.BuilderSpec
import Verif.CB.ReadLemmas
import Verif.Util.HeapLemmas
import Verif.Util.PaddingLemmas
/-! The growing Builder refines its meaning. -/
namespace Verif.CB
open Spec.Builder Spec.DER

/-- A growing builder in good order. -/
structure Good (h : Heap) (b : Bd) : Prop where
  grow : b.fixedSize = false
  valid : b.result.Valid h
  room : b.offset + b.pendingLenLen ≤ b.result.len
  asn1 : b.pendingIsASN1 = true → b.pendingLenLen = 1

theorem Good.mono {h h' : Heap} {b : Bd} (hg : Good h b) (he : h.Ext h') : Good h' b :=
  ⟨hg.grow, hg.valid.mono he, hg.room, hg.asn1⟩

/-- The fields a program never changes. -/
def Bd.frame (b : Bd) : Bool × Nat × Nat × Bool := (b.fixedSize, b.offset, b.pendingLenLen, b.pendingIsASN1)

/-- Nothing but the error changed. -/
def Bd.clr (b : Bd) : Bd := { b with err := none }

theorem addBytes_grow (g : Growth) {h : Heap} {b : Bd} (bs : Bytes) (hf : b.fixedSize = false) (he : b.err = none) :
    addBytes g h b bs = ((goAppend (g h b.result bs.length) h b.result bs).1,
      { b with result := (goAppend (g h b.result bs.length) h b.result bs).2 }) := by
  unfold addBytes
  rw [if_neg (by simp [he]), if_neg (by simp [hf])]

theorem addBytes_err (g : Growth) {h : Heap} {b : Bd} (bs : Bytes) (he : b.err.isSome = true) :
    addBytes g h b bs = (h, b) := by
  unfold addBytes
  rw [if_pos he]

theorem setByte_ok {h : Heap} {s : Slice} {i : Nat} {v : Byte} (hv : s.Valid h) (hi : i < s.len) :
    ∃ h', setByte h s i v = .ok h' ∧ h.Ext h' ∧ s.get h' = overwrite (s.get h) i [v] := by
  refine ⟨_, by unfold setByte; rw [if_pos hi], ?_, ?_⟩
  · exact Heap.ext_set_overwrite hv (by have := hv.1; simp; omega)
  · exact Slice.get_set_overwrite hv (by simp; omega)

theorem storeLen_ok {s : Slice} {off : Nat} : ∀ {k : Nat} {h : Heap} {l : Nat} {pre mid post : Bytes}, s.Valid h →
    s.get h = pre ++ mid ++ post → pre.length = off → mid.length = k →
    ∃ h', storeLen s off k h l = .ok (h', l / 256 ^ k) ∧ h.Ext h' ∧ s.get h' = pre ++ toBE k l ++ post := by
  intro k
  induction k with
  | zero =>
    intro h l pre mid post hv hg hp hm
    refine ⟨h, by simp [storeLen], Heap.Ext.refl h, ?_⟩
    rw [hg, List.length_eq_zero_iff.1 hm]; rfl
  | succ k ih =>
    intro h l pre mid post hv hg hp hm
    have hlen := Slice.length_get hv
    rw [hg] at hlen
    simp only [List.length_append] at hlen
    obtain ⟨h1, e1, x1, g1⟩ := setByte_ok (v := BitVec.ofNat 8 l) (i := off + k) hv (by omega)
    -- split the middle into its first k bytes and the last
    have hmid : mid = mid.take k ++ mid.drop k := (List.take_append_drop k mid).symm
    have hd : (mid.drop k).length = 1 := by simp; omega
    rw [hg, hmid, show off + k = (pre ++ mid.take k).length by simp; omega,
      show pre ++ (mid.take k ++ mid.drop k) ++ post = pre ++ mid.take k ++ mid.drop k ++ post by simp,
      overwrite_append _ _ _ _ (by rw [hd]; rfl)] at g1
    obtain ⟨h2, e2, x2, g2⟩ := ih (l := l / 256) (hv.mono x1)
      (show s.get h1 = pre ++ mid.take k ++ ([BitVec.ofNat 8 l] ++ post) by rw [g1]; simp) hp (by simp; omega)
    refine ⟨h2, ?_, x1.trans x2, ?_⟩
    · rw [storeLen, e1]
      simp only
      rw [e2, Nat.div_div_eq_div_mul, Nat.pow_succ, Nat.mul_comm 256]
    · rw [g2, toBE]; simp

theorem flushLen_ok {h : Heap} {child b : Bd} {k l : Nat} {pre mid post : Bytes} (hv : child.result.Valid h)
    (hb : b.fixedSize = false) (hg : child.result.get h = pre ++ mid ++ post) (hp : pre.length = child.offset)
    (hm : mid.length = k) (hk : child.pendingLenLen = k) :
    ∃ h' b', flushLen h child b l = .ok (h', b') ∧ h.Ext h' ∧ child.result.get h' = pre ++ toBE k l ++ post ∧
      b' = (if l < 256 ^ k then { b with result := child.result }
            else { b with err := some (pendingError l k) }) := by
  subst hk
  obtain ⟨h', e, x, g⟩ := storeLen_ok (l := l) hv hg hp hm
  refine ⟨h', _, ?_, x, g, rfl⟩
  unfold flushLen
  rw [e]
  simp only [hb]
  have hpos : 0 < 256 ^ child.pendingLenLen := Nat.pow_pos (by omega)
  split
  · rename_i hne
    rw [if_neg (by intro hlt; exact hne (Nat.div_eq_of_lt hlt))]
  · rename_i hne
    have hz : l / 256 ^ child.pendingLenLen = 0 := by omega
    have hlt : l < 256 ^ child.pendingLenLen := by
      rcases Nat.div_eq_zero_iff.1 hz with h0 | h0
      · omega
      · exact h0
    rw [if_pos hlt]
    rfl

theorem copyUp_ok {h : Heap} {s : Slice} {pre c ex : Bytes} {e : Nat} (hv : s.Valid h)
    (hg : s.get h = pre ++ c ++ ex) (he : ex.length = e) (hle : e ≤ c.length) :
    ∃ h', copyUp h s (pre.length + e) pre.length = .ok h' ∧ h.Ext h' ∧ s.get h' = pre ++ c.take e ++ c := by
  have hlen := Slice.length_get hv
  rw [hg] at hlen
  simp only [List.length_append] at hlen
  have hsrc : ((s.get h).drop pre.length).take (s.len - (pre.length + e)) = c := by
    rw [hg, List.append_assoc, List.drop_left]
    rw [show s.len - (pre.length + e) = c.length by omega, List.take_left]
  refine ⟨_, by unfold copyUp; rw [if_pos (by omega)], ?_, ?_⟩
  · refine Heap.ext_set_overwrite hv ?_
    have := hv.1
    rw [hsrc]; omega
  · rw [hsrc, Slice.get_set_overwrite hv (by omega), hg]
    have h1 : pre ++ c ++ ex = (pre ++ c.take e) ++ (c.drop e ++ ex) ++ [] := by
      simp only [List.append_nil, List.append_assoc]
      rw [← List.append_assoc (c.take e), List.take_append_drop]
    have h2 : pre.length + e = (pre ++ c.take e).length := by simp; omega
    rw [h1, h2, overwrite_append _ _ _ _ (by simp; omega)]
    simp

theorem asn1LenForm_spec {n : Nat} (hn : n ≤ 0xfffffffe) :
    let f := asn1LenForm n
    1 ≤ f.1 ∧ f.2.2 < 256 ^ (f.1 - 1) ∧ lenOctets n = f.2.1 :: toBE (f.1 - 1) f.2.2 ∧ (f.1 - 1 ≠ 0 → f.1 - 1 ≤ n) := by
  have bl : ∀ k, 256 ^ k ≤ n → n < 256 ^ (k + 1) → byteLen n = k + 1 := by
    intro k h1 h2
    have a := (byteLen_le_iff n (k + 1)).2 h2
    have b : ¬ byteLen n ≤ k := by rw [byteLen_le_iff]; omega
    omega
  unfold asn1LenForm lenOctets natBytes
  simp only
  split
  · rw [if_neg (by omega), bl 3 (by omega) (by omega)]; refine ⟨by simp, by simp; omega, rfl, by simp; omega⟩
  split
  · rw [if_neg (by omega), bl 2 (by omega) (by omega)]; refine ⟨by simp, by simp; omega, rfl, by simp; omega⟩
  split
  · rw [if_neg (by omega), bl 1 (by omega) (by omega)]; refine ⟨by simp, by simp; omega, rfl, by simp; omega⟩
  split
  · rw [if_neg (by omega), bl 0 (by omega) (by omega)]; refine ⟨by simp, by simp; omega, rfl, by simp; omega⟩
  · rw [if_pos (by omega)]; exact ⟨by simp, by simp, rfl, by simp⟩

theorem flushASN1_ok (g : Growth) {h : Heap} {child b : Bd} {pre c : Bytes} {z : Byte} (hv : child.result.Valid h)
    (hc : child.fixedSize = false) (hce : child.err = none)
    (hb : b.fixedSize = false) (hg : child.result.get h = pre ++ [z] ++ c) (hp : pre.length = child.offset)
    (hk : child.pendingLenLen = 1) :
    ∃ h' b' s', flushASN1 g h child b c.length = .ok (h', b') ∧ h.Ext h' ∧ s'.Valid h' ∧ child.result.len ≤ s'.len ∧
      (c.length ≤ 0xfffffffe → s'.get h' = pre ++ lenOctets c.length ++ c) ∧
      b' = (if c.length ≤ 0xfffffffe then { b with result := s' }
            else { b with err := some "pending ASN.1 child too long" }) := by
  unfold flushASN1
  rw [if_neg (by simp [hk])]
  by_cases hlong : c.length > 0xfffffffe
  · rw [if_pos hlong]
    exact ⟨h, _, child.result, rfl, Heap.Ext.refl h, hv, Nat.le_refl _, fun hx => absurd hx (by omega),
      by rw [if_neg (by omega)]⟩
  rw [if_neg hlong]
  have hlen := Slice.length_get hv
  rw [hg] at hlen
  simp only [List.length_append, List.length_cons, List.length_nil] at hlen
  obtain ⟨f1, f2, f3, f4⟩ := asn1LenForm_spec (n := c.length) (by omega)
  generalize hform : asn1LenForm c.length = form at *
  obtain ⟨lenLen, lenByte, l⟩ := form
  simp only at f1 f2 f3 f4 ⊢
  obtain ⟨h1, e1, x1, g1⟩ := setByte_ok (v := lenByte) (i := child.offset) hv (by omega)
  rw [e1]
  simp only
  rw [hg, ← hp, overwrite_append pre [z] c [lenByte] rfl] at g1
  by_cases hex : lenLen - 1 = 0
  · unfold makeRoom
    rw [if_neg (by simp [hex])]
    simp only
    obtain ⟨h2, b2, e2, x2, g2, hb2⟩ := flushLen_ok (h := h1) (l := l) (k := lenLen - 1) (b := b)
      (child := { child with offset := child.offset + 1, pendingLenLen := lenLen - 1 })
      (pre := pre ++ [lenByte]) (mid := []) (post := c) (hv.mono x1) hb (by simpa using g1) (by simp [hp]) (by simp [hex]) rfl
    refine ⟨h2, b2, child.result, e2, x1.trans x2, (hv.mono x1).mono x2, Nat.le_refl _, fun _ => ?_, ?_⟩
    · simp only at g2
      rw [g2, f3]
      simp
    · rw [hb2, if_pos f2, if_pos (by omega)]
  · unfold makeRoom
    rw [if_pos hex]
    have hv1 := hv.mono x1
    rw [addBytes_grow g _ hc hce]
    simp only
    generalize hsp : g h1 child.result (List.replicate (lenLen - 1) (0 : Byte)).length = sp
    have va := goAppend_valid (spare := sp) (ext := List.replicate (lenLen - 1) (0 : Byte)) hv1
    have ga := Padding.goAppend_get (spare := sp) (ext := List.replicate (lenLen - 1) (0 : Byte)) hv1
    have xa := goAppend_ext (spare := sp) (ext := List.replicate (lenLen - 1) (0 : Byte)) hv1
    have la := goAppend_len (spare := sp) (h := h1) (s := child.result) (ext := List.replicate (lenLen - 1) (0 : Byte))
    generalize goAppend sp h1 child.result (List.replicate (lenLen - 1) (0 : Byte)) = ap at *
    obtain ⟨h2, s2⟩ := ap
    simp only at va ga xa la ⊢
    rw [g1] at ga
    obtain ⟨h3, e3, x3, g3⟩ := copyUp_ok (e := lenLen - 1) va ga (by simp) (f4 hex)
    rw [show (pre ++ [lenByte]).length = child.offset + child.pendingLenLen by simp [hp, hk]] at e3
    rw [e3]
    simp only
    obtain ⟨h4, b4, e4, x4, g4, hb4⟩ := flushLen_ok (h := h3) (l := l) (k := lenLen - 1) (b := b)
      (child := { child with result := s2, offset := child.offset + 1, pendingLenLen := lenLen - 1 })
      (pre := pre ++ [lenByte]) (mid := c.take (lenLen - 1)) (post := c) (va.mono x3) hb (by simpa using g3) (by simp [hp])
      (by have := f4 hex; simp; omega) rfl
    refine ⟨h4, b4, s2, e4, x1.trans (xa.trans (x3.trans x4)), (va.mono x3).mono x4, ?_, fun _ => ?_, ?_⟩
    · omega
    · simp only at g4
      rw [g4, f3]
      simp
    · rw [hb4, if_pos f2, if_pos (by omega)]

end Verif.CB
