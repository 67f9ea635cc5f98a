import Verif.Sm4.Lemmas
/-! The slice version of `processBlock` as one store. -/
namespace Verif.Sm4
open Verif

theorem overwrite_overwrite {a x y : Bytes} {i : Nat} (h : i + x.length + y.length ≤ a.length) :
    overwrite (overwrite a i x) (i + x.length) y = overwrite a i (x ++ y) := by
  apply List.ext_getElem?
  intro j
  have h1 := length_overwrite (a := a) (i := i) (bs := x) (by omega)
  rw [getElem?_overwrite (by omega), getElem?_overwrite (by omega), getElem?_overwrite (by simp; omega)]
  simp only [List.length_append]
  by_cases hj : i + x.length ≤ j ∧ j < i + x.length + y.length
  · rw [if_pos hj, if_pos (by omega), List.getElem?_append_right (by omega)]
    congr 1; omega
  · rw [if_neg hj]
    by_cases hj2 : i ≤ j ∧ j < i + x.length
    · rw [if_pos hj2, if_pos (by omega), List.getElem?_append_left (by omega)]
    · rw [if_neg hj2, if_neg (by omega)]

theorem load_take (inp : Bytes) : load inp = load (inp.take 16) := by
  unfold load
  simp [List.drop_take, List.take_take]

theorem processBlock_take (rk : List Word) (inp : Bytes) : processBlock rk inp = processBlock rk (inp.take 16) := by
  unfold processBlock; rw [load_take]

theorem processBlockH_eq (rk : List Word) (h : Heap) (src dst : Slice) (hd : dst.Valid h) (hl : 16 ≤ dst.len) :
    processBlockH rk h src dst
      = h.set dst.arr (overwrite ((h[dst.arr]?).getD []) dst.off (processBlock rk ((src.get h).take 16))) := by
  have hlt := hd.lt
  obtain ⟨hlc, a, ha, hcap⟩ := hd
  rw [← processBlock_take]
  unfold processBlockH processBlock
  generalize rounds rk (load (src.get h)) = x
  simp only [ha, Option.getD_some, List.getElem?_set_self hlt, List.set_set, Nat.add_zero]
  congr 1
  have e1 := overwrite_overwrite (a := a) (x := put32 x.x0) (y := put32 x.x1) (i := dst.off) (by simp; omega)
  have e2 := overwrite_overwrite (a := a) (x := put32 x.x0 ++ put32 x.x1) (y := put32 x.x2) (i := dst.off)
    (by simp; omega)
  have e3 := overwrite_overwrite (a := a) (x := put32 x.x0 ++ put32 x.x1 ++ put32 x.x2) (y := put32 x.x3)
    (i := dst.off) (by simp; omega)
  simp only [List.length_append, length_put32, Nat.reduceAdd] at e1 e2 e3
  rw [e1, e2, e3]

end Verif.Sm4
