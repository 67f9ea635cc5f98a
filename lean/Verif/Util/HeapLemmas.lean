import Verif.Util.Heap
/-! Lemmas about slices, `append` and in-place stores. -/
namespace Verif

/-- Later heaps keep every array, with its length. -/
def Heap.Ext (h h' : Heap) : Prop := ∀ (i : Nat) (a : Bytes), h[i]? = some a → ∃ a' : Bytes, h'[i]? = some a' ∧ a'.length = a.length

theorem Heap.Ext.refl (h : Heap) : h.Ext h := fun _ a ha => ⟨a, ha, rfl⟩

theorem Heap.Ext.trans {h₁ h₂ h₃ : Heap} (a : h₁.Ext h₂) (b : h₂.Ext h₃) : h₁.Ext h₃ := by
  intro i x hx
  obtain ⟨y, hy, hl⟩ := a i x hx
  obtain ⟨z, hz, hl'⟩ := b i y hy
  exact ⟨z, hz, by omega⟩

theorem Slice.Valid.mono {h h' : Heap} {s : Slice} (hv : s.Valid h) (he : h.Ext h') : s.Valid h' := by
  obtain ⟨h1, a, ha, h2⟩ := hv
  obtain ⟨a', ha', hl⟩ := he _ _ ha
  exact ⟨h1, a', ha', by omega⟩

theorem Slice.length_get {h : Heap} {s : Slice} (hv : s.Valid h) : (s.get h).length = s.len := by
  obtain ⟨h1, a, ha, h2⟩ := hv
  simp only [Slice.get, ha, Option.getD_some, List.length_take, List.length_drop]
  omega

theorem Heap.ext_set_overwrite {h : Heap} {s : Slice} {i : Nat} {bs : Bytes} (hv : s.Valid h)
    (hi : i + bs.length ≤ s.cap) :
    h.Ext (h.set s.arr (overwrite ((h[s.arr]?).getD []) (s.off + i) bs)) := by
  obtain ⟨h1, a, ha, h2⟩ := hv
  intro j x hx
  have hlt : s.arr < h.length := Slice.Valid.lt (s := s) ⟨h1, a, ha, h2⟩
  by_cases e : s.arr = j
  · subst e
    rw [ha] at hx
    cases hx
    refine ⟨overwrite a (s.off + i) bs, ?_, ?_⟩
    · rw [List.getElem?_set_self hlt, ha]; rfl
    · exact length_overwrite (by omega)
  · exact ⟨x, by rw [List.getElem?_set_ne e]; exact hx, rfl⟩

/-- Storing inside a slice changes what is read through it in the same places. -/
theorem Slice.get_set_overwrite {h : Heap} {s : Slice} {i : Nat} {bs : Bytes} (hv : s.Valid h)
    (hi : i + bs.length ≤ s.len) :
    s.get (h.set s.arr (overwrite ((h[s.arr]?).getD []) (s.off + i) bs)) = overwrite (s.get h) i bs := by
  have hlen := Slice.length_get hv
  have hlt := hv.lt
  obtain ⟨h1, a, ha, h2⟩ := hv
  apply List.ext_getElem?
  intro j
  rw [getElem?_overwrite (by omega)]
  simp only [Slice.get, ha, Option.getD_some, List.getElem?_set_self hlt, List.getElem?_take, List.getElem?_drop]
  rw [getElem?_overwrite (by omega)]
  by_cases hj : j < s.len
  · simp only [hj, if_true]
    by_cases hc : i ≤ j ∧ j < i + bs.length
    · rw [if_pos hc, if_pos (by omega)]; congr 1; omega
    · rw [if_neg hc, if_neg (by omega)]
  · simp only [hj, if_false]
    rw [if_neg (by omega)]

theorem goAppend_ext {spare : Nat} {h : Heap} {s : Slice} {ext : Bytes} (hv : s.Valid h) :
    h.Ext (goAppend spare h s ext).1 := by
  unfold goAppend
  split
  · exact Heap.ext_set_overwrite hv (by assumption)
  · intro i a ha
    refine ⟨a, ?_, rfl⟩
    have : i < h.length := by
      rcases Nat.lt_or_ge i h.length with h1 | h1
      · exact h1
      · rw [List.getElem?_eq_none h1] at ha; cases ha
    simp only [List.getElem?_append_left this]
    exact ha

theorem goAppend_valid {spare : Nat} {h : Heap} {s : Slice} {ext : Bytes} (hv : s.Valid h) :
    (goAppend spare h s ext).2.Valid (goAppend spare h s ext).1 := by
  have he := goAppend_ext (spare := spare) (ext := ext) hv
  have hl := Slice.length_get hv
  revert he
  unfold goAppend
  split
  · rename_i hfit
    intro he
    obtain ⟨h1, a, ha, h2⟩ := hv
    obtain ⟨a', ha', hl'⟩ := he _ _ ha
    refine ⟨hfit, a', ha', ?_⟩
    show s.off + s.cap ≤ a'.length
    omega
  · intro _
    refine ⟨by simp, _, List.getElem?_concat_length, ?_⟩
    simp; omega

theorem goAppend_len {spare : Nat} {h : Heap} {s : Slice} {ext : Bytes} :
    (goAppend spare h s ext).2.len = s.len + ext.length := by
  unfold goAppend; split <;> rfl

theorem overwrite_append (x y z w : Bytes) (h : y.length = w.length) : overwrite (x ++ y ++ z) x.length w = x ++ w ++ z := by
  unfold overwrite
  rw [List.append_assoc x y z, List.take_left, ← h, ← List.append_assoc x y z,
    show x.length + y.length = (x ++ y).length by simp, List.drop_left]

end Verif
