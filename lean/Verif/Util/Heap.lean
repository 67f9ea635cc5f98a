import Verif.Base.Basic
/-!
# Go slices with backing arrays

Used where a property is about aliasing. A heap is a list of byte arrays; a slice names an array,
an offset, a length and a capacity, as in the Go language specification ("Slice types",
"Appending to and copying slices").
-/
namespace Verif

/-- All byte arrays allocated so far. -/
abbrev Heap := List Bytes

/-- A Go `[]byte` value: window `[off, off+len)` of array `arr`, extendable to `off+cap`. -/
structure Slice where
  arr : Nat
  off : Nat
  len : Nat
  cap : Nat
  deriving Repr, DecidableEq

namespace Slice

/-- The slice denotes an existing window: `len ≤ cap` and the capacity lies inside the array. -/
def Valid (h : Heap) (s : Slice) : Prop :=
  s.len ≤ s.cap ∧ ∃ a, h[s.arr]? = some a ∧ s.off + s.cap ≤ a.length

theorem Valid.lt {h : Heap} {s : Slice} (hv : s.Valid h) : s.arr < h.length := by
  obtain ⟨_, a, ha, _⟩ := hv
  rcases Nat.lt_or_ge s.arr h.length with h1 | h1
  · exact h1
  · rw [List.getElem?_eq_none h1] at ha; cases ha

/-- The bytes a program reads through the slice. -/
def get (h : Heap) (s : Slice) : Bytes := (((h[s.arr]?).getD []).drop s.off).take s.len

end Slice

/-- Overwrite `bs.length` bytes of `a` from position `i`. -/
def overwrite (a : Bytes) (i : Nat) (bs : Bytes) : Bytes := a.take i ++ bs ++ a.drop (i + bs.length)

/-- Go `append(s, ext...)`. When the capacity suffices the bytes are stored behind the slice in the
same array, otherwise a new array is allocated; `spare` is the extra capacity the run-time picks. -/
def goAppend (spare : Nat) (h : Heap) (s : Slice) (ext : Bytes) : Heap × Slice :=
  if s.len + ext.length ≤ s.cap then
    (h.set s.arr (overwrite ((h[s.arr]?).getD []) (s.off + s.len) ext),
      { s with len := s.len + ext.length })
  else
    (h ++ [s.get h ++ ext ++ List.replicate spare 0#8],
      { arr := h.length, off := 0, len := s.len + ext.length, cap := s.len + ext.length + spare })

theorem length_overwrite {a : Bytes} {i : Nat} {bs : Bytes} (h : i + bs.length ≤ a.length) :
    (overwrite a i bs).length = a.length := by
  simp [overwrite]; omega

/-- Reading a byte after `overwrite`. -/
theorem getElem?_overwrite {a : Bytes} {i : Nat} {bs : Bytes} (h : i + bs.length ≤ a.length) (j : Nat) :
    (overwrite a i bs)[j]? = if i ≤ j ∧ j < i + bs.length then bs[j - i]? else a[j]? := by
  unfold overwrite
  rw [List.append_assoc, List.getElem?_append]
  simp only [List.length_take, Nat.min_eq_left (show i ≤ a.length by omega)]
  split
  · rw [List.getElem?_take]
    simp only [*, if_true]
    rw [if_neg (by omega)]
  · rw [List.getElem?_append]
    split
    · rw [if_pos (by omega)]
    · rw [List.getElem?_drop, if_neg (by omega)]
      congr 1; omega

theorem drop_overwrite_take {a : Bytes} {i : Nat} {bs : Bytes} (h : i + bs.length ≤ a.length) :
    ((overwrite a i bs).drop i).take bs.length = bs := by
  have h1 : (overwrite a i bs).drop i = bs ++ a.drop (i + bs.length) := by
    unfold overwrite
    rw [List.append_assoc]
    conv => lhs; arg 1; rw [show i = (a.take i).length by simp; omega]
    exact List.drop_left
  rw [h1, List.take_left]

end Verif
