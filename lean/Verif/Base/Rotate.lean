import Verif.Base.Basic
/-!
# Rotations of words
-/
namespace Verif

theorem bit_rot (x : Word) (r i : Nat) (hi : i < 32) : (x.rotateLeft r).getLsbD i = x.getLsbD ((i + (32 - r % 32)) % 32) := by
  have hr : r % 32 < 32 := Nat.mod_lt _ (by omega)
  rw [BitVec.getLsbD_rotateLeft, Bool.cond_decide]
  generalize r % 32 = r at hr ⊢
  split
  · rw [Nat.mod_eq_of_lt (by omega)]; congr 1; omega
  · rw [decide_eq_true hi, Bool.true_and]; congr 1
    rw [show i + (32 - r) = (i - r) + 32 by omega, Nat.add_mod_right, Nat.mod_eq_of_lt (by omega)]

theorem rot_rot (x : Word) (a b : Nat) : (x.rotateLeft a).rotateLeft b = x.rotateLeft (a + b) := by
  refine BitVec.eq_of_getLsbD_eq fun i hi => ?_
  rw [bit_rot _ b i hi, bit_rot _ a _ (Nat.mod_lt _ (by omega)), bit_rot _ (a + b) i hi]
  congr 1
  omega

theorem rot_xor (x y : Word) (a : Nat) : (x ^^^ y).rotateLeft a = x.rotateLeft a ^^^ y.rotateLeft a := by
  refine BitVec.eq_of_getLsbD_eq fun i hi => ?_
  rw [BitVec.getLsbD_xor, bit_rot _ a i hi, bit_rot _ a i hi, bit_rot _ a i hi, BitVec.getLsbD_xor]

theorem rot_mod (x : Word) (a b : Nat) (h : a % 32 = b % 32) : x.rotateLeft a = x.rotateLeft b := by
  refine BitVec.eq_of_getLsbD_eq fun i hi => ?_
  rw [bit_rot _ a i hi, bit_rot _ b i hi, h]

/-- `x ⊕ (x <<< m) ⊕ (x <<< n)`. -/
def lin (m n : Nat) (x : Word) : Word := x ^^^ x.rotateLeft m ^^^ x.rotateLeft n

/-- Applied twice, it is the same with doubled rotations. -/
theorem lin_twice (m n : Nat) (x : Word) : lin m n (lin m n x) = lin (2 * m) (2 * n) x := by
  unfold lin
  rw [rot_xor, rot_xor, rot_xor, rot_xor, rot_rot, rot_rot, rot_rot, rot_rot, show m + m = 2 * m by omega, show n + n = 2 * n by omega,
    show n + m = m + n by omega]
  generalize x.rotateLeft m = p
  generalize x.rotateLeft n = q
  generalize x.rotateLeft (2 * m) = u
  generalize x.rotateLeft (2 * n) = v
  generalize x.rotateLeft (m + n) = w
  have : x ^^^ p ^^^ q ^^^ (p ^^^ u ^^^ w) ^^^ (q ^^^ w ^^^ v) = (x ^^^ u ^^^ v) ^^^ (p ^^^ p) ^^^ (q ^^^ q) ^^^ (w ^^^ w) := by ac_rfl
  rw [this]
  simp

end Verif
