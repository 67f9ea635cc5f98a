import Verif.Sm3.Model
import Verif.Sm3.Spec
/-! The compression of one block: the code's loops compute the standard's CF. -/
namespace Verif.Sm3
open Verif

theorem getD_set_self {α : Type} {l : List α} {i : Nat} {a d : α} (h : i < l.length) :
    (l.set i a).getD i d = a := by
  rw [List.getD_eq_getElem?_getD, List.getElem?_set_self h]; rfl

theorem getD_set_ne {α : Type} {l : List α} {i j : Nat} {a d : α} (h : i ≠ j) :
    (l.set i a).getD j d = l.getD j d := by
  rw [List.getD_eq_getElem?_getD, List.getElem?_set_ne h, List.getD_eq_getElem?_getD]

/-- The chaining value as the tuple of the standard. -/
def regs (v : V8) : Spec.SM3.Regs := (v.a, v.b, v.c, v.d, v.e, v.f, v.g, v.h)

theorem regs_inj {v v' : V8} (h : regs v = regs v') : v = v' := by
  cases v; cases v'; simp [regs] at h; simp [h]

/-- The constant table against `T_j <<< (j mod 32)`: finite, checked entirely. -/
theorem gT_spec_fin : ∀ j : Fin 64, gT.getD j.val 0 = (Spec.SM3.T j.val).rotateLeft (j.val % 32) := by
  decide +kernel

theorem gT_spec {j : Nat} (h : j < 64) : gT.getD j 0 = (Spec.SM3.T j).rotateLeft (j % 32) := gT_spec_fin ⟨j, h⟩

theorem shl_7 (x : Word) : shl x 7 = x.rotateLeft 7 := rfl
theorem shl_9 (x : Word) : shl x 9 = x.rotateLeft 9 := rfl
theorem shl_12 (x : Word) : shl x 12 = x.rotateLeft 12 := rfl
theorem shl_15 (x : Word) : shl x 15 = x.rotateLeft 15 := rfl
theorem shl_19 (x : Word) : shl x 19 = x.rotateLeft 19 := rfl

theorem W_lt (B : Bytes) {j : Nat} (h : j < 16) : Spec.SM3.W B j = be32 ((B.drop (4 * j)).take 4) := by
  rw [Spec.SM3.W, if_pos h]; rfl

theorem W_ge (B : Bytes) {j : Nat} (h : 16 ≤ j) : Spec.SM3.W B j =
    Spec.SM3.P1 (Spec.SM3.W B (j - 16) ^^^ Spec.SM3.W B (j - 9) ^^^ (Spec.SM3.W B (j - 3)).rotateLeft 15)
    ^^^ (Spec.SM3.W B (j - 13)).rotateLeft 7 ^^^ Spec.SM3.W B (j - 6) := by
  rw [Spec.SM3.W, if_neg (by omega)]

theorem copyLoop (inWords : List Word) (m : Nat) (w : List Word) (hm : m ≤ w.length) :
    ((List.range m).foldl (fun w j => w.set j (inWords.getD j 0)) w).length = w.length ∧
    ∀ j, j < m → ((List.range m).foldl (fun w j => w.set j (inWords.getD j 0)) w).getD j 0 = inWords.getD j 0 := by
  induction m with
  | zero => exact ⟨rfl, fun j h => by omega⟩
  | succ m ih =>
    obtain ⟨h1, h2⟩ := ih (by omega)
    rw [List.range_succ, List.foldl_append]
    simp only [List.foldl_cons, List.foldl_nil]
    refine ⟨by simpa using h1, ?_⟩
    intro j hj
    by_cases hjm : j = m
    · subst hjm; rw [getD_set_self (by omega)]
    · rw [getD_set_ne (by omega), h2 j (by omega)]

theorem expandLoop (B : Bytes) (k : Nat) (w : List Word) (hl : w.length = 68) (hk : 16 + k ≤ 68)
    (h0 : ∀ j, j < 16 → w.getD j 0 = Spec.SM3.W B j) :
    ((List.range' 16 k).foldl expandStep w).length = 68 ∧
    ∀ j, j < 16 + k → ((List.range' 16 k).foldl expandStep w).getD j 0 = Spec.SM3.W B j := by
  induction k with
  | zero => exact ⟨hl, fun j h => h0 j (by omega)⟩
  | succ k ih =>
    obtain ⟨h1, h2⟩ := ih (by omega)
    rw [List.range'_concat, List.foldl_append]
    simp only [List.foldl_cons, List.foldl_nil, Nat.one_mul]
    generalize (List.range' 16 k).foldl expandStep w = u at h1 h2
    unfold expandStep
    simp only
    refine ⟨by simpa using h1, ?_⟩
    intro j hj
    by_cases hjm : j = 16 + k
    · subst hjm
      rw [getD_set_self (by omega), h2 _ (by omega), h2 _ (by omega), h2 _ (by omega), h2 _ (by omega),
        h2 _ (by omega), W_ge B (j := 16 + k) (by omega), shl_15, shl_7]
      rfl
    · rw [getD_set_ne (by omega), h2 j (by omega)]

theorem expand_spec (B : Bytes) (inWords w : List Word) (hl : w.length = 68)
    (h : ∀ j, j < 16 → inWords.getD j 0 = be32 ((B.drop (4 * j)).take 4)) :
    (expand inWords w).length = 68 ∧ ∀ j, j < 68 → (expand inWords w).getD j 0 = Spec.SM3.W B j := by
  obtain ⟨h1, h2⟩ := copyLoop inWords 16 w (by omega)
  unfold expand
  exact expandLoop B 52 _ (h1.trans hl) (by omega) (fun j hj => by rw [h2 j hj, h j hj, W_lt B hj])

theorem roundStep_lo {B : Bytes} {w : List Word} (hw : ∀ j, j < 68 → w.getD j 0 = Spec.SM3.W B j) (s : V8) {j : Nat}
    (hj : j < 16) : regs (roundStep ff0 gg0 w s j) = Spec.SM3.step B (regs s) j := by
  unfold roundStep Spec.SM3.step regs
  simp only [gT_spec (show j < 64 by omega), hw j (by omega), hw (j + 4) (by omega), shl_7, shl_9, shl_12, shl_19,
    Spec.SM3.FF, Spec.SM3.GG, hj, if_true, ff0, gg0]
  rfl

theorem roundStep_hi {B : Bytes} {w : List Word} (hw : ∀ j, j < 68 → w.getD j 0 = Spec.SM3.W B j) (s : V8) {j : Nat}
    (hj : 16 ≤ j) (hj2 : j < 64) : regs (roundStep ff1 gg1 w s j) = Spec.SM3.step B (regs s) j := by
  unfold roundStep Spec.SM3.step regs
  simp only [gT_spec (show j < 64 by omega), hw j (by omega), hw (j + 4) (by omega), shl_7, shl_9, shl_12, shl_19,
    Spec.SM3.FF, Spec.SM3.GG, show ¬ j < 16 by omega, if_false, ff1, gg1]
  rfl

theorem fold_congr {B : Bytes} (f : V8 → Nat → V8) (l : List Nat) (s : V8)
    (h : ∀ s, ∀ j ∈ l, regs (f s j) = Spec.SM3.step B (regs s) j) :
    regs (l.foldl f s) = l.foldl (Spec.SM3.step B) (regs s) := by
  induction l generalizing s with
  | nil => rfl
  | cons j l ih =>
    rw [List.foldl_cons, List.foldl_cons, ← h s j (by simp)]
    exact ih _ (fun s j hj => h s j (by simp [hj]))

theorem compress_spec {B : Bytes} {w : List Word} (hw : ∀ j, j < 68 → w.getD j 0 = Spec.SM3.W B j) (v : V8) :
    regs (compress v w) = Spec.SM3.CF (regs v) B := by
  have e64 : List.range 64 = List.range 16 ++ List.range' 16 48 := by decide
  unfold compress Spec.SM3.CF
  rw [e64, List.foldl_append, ← fold_congr (roundStep ff0 gg0 w) _ v, ← fold_congr (roundStep ff1 gg1 w)]
  · simp only []
    generalize (List.range' 16 48).foldl (roundStep ff1 gg1 w) _ = s
    simp only [regs, Spec.SM3.xorRegs, BitVec.xor_comm]
  · intro s j hj
    rw [List.mem_range'_1] at hj
    exact roundStep_hi hw s (by omega) (by omega)
  · intro s j hj
    rw [List.mem_range] at hj
    exact roundStep_lo hw s hj

theorem V_append (a b : Bytes) (i : Nat) (h : 64 * i ≤ a.length) : Spec.SM3.V (a ++ b) i = Spec.SM3.V a i := by
  induction i with
  | zero => rfl
  | succ i ih =>
    unfold Spec.SM3.V
    rw [ih (by omega), List.drop_append_of_le_length (by omega), List.take_append_of_le_length (by simp; omega)]

theorem V_succ_append (a B : Bytes) (i : Nat) (ha : a.length = 64 * i) (hB : B.length = 64) :
    Spec.SM3.V (a ++ B) (i + 1) = Spec.SM3.CF (Spec.SM3.V a i) B := by
  rw [Spec.SM3.V, V_append a B i (by omega), ← ha, List.drop_left, List.take_of_length_le (by omega)]

theorem out_spec (v : V8) : out v = Spec.SM3.outBytes (regs v) := rfl

end Verif.Sm3
