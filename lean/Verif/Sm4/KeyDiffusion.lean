import Verif.Sm4.Diffusion
/-!
# The linear transform of SM4's key schedule on the bytes of a word

For a word and its image under `lAp` (sm4/sm4.go:149-151) together at least four of the eight bytes are not zero.
-/
namespace Verif.Sm4
open Verif

theorem lAp_eq (b : Word) : lAp b = b ^^^ b.rotateLeft 13 ^^^ b.rotateLeft 23 := rfl

theorem lAp_xor (x y : Word) : lAp (x ^^^ y) = lAp x ^^^ lAp y := by
  simp only [lAp_eq, rot_xor]
  ac_rfl

theorem lAp_zero : lAp 0 = 0 := by decide

theorem lAp_rot (x : Word) (k : Nat) : lAp (x.rotateLeft k) = (lAp x).rotateLeft k := by
  simp only [lAp_eq, rot_xor, rot_rot, Nat.add_comm]

theorem lAp_two (y : Word) : lAp (lAp y) = y ^^^ y.rotateLeft 26 ^^^ y.rotateLeft 14 := by
  rw [lAp_eq (lAp y)]
  simp only [lAp_eq, rot_xor, rot_rot, Nat.reduceAdd]
  rw [rot_mod y 36 4 rfl, rot_mod y 46 14 rfl]
  refine BitVec.eq_of_getLsbD_eq fun i _ => ?_
  simp only [BitVec.getLsbD_xor]
  generalize (y.rotateLeft 13).getLsbD i = a
  generalize (y.rotateLeft 23).getLsbD i = b
  generalize (y.rotateLeft 4).getLsbD i = c
  generalize (y.rotateLeft 14).getLsbD i = d
  generalize (y.rotateLeft 26).getLsbD i = e
  generalize y.getLsbD i = g
  revert a b c d e g
  decide

theorem lAp_four (y : Word) : lAp (lAp (lAp (lAp y))) = y ^^^ y.rotateLeft 20 ^^^ y.rotateLeft 28 := by
  rw [lAp_two, lAp_two]
  simp only [rot_xor, rot_rot, Nat.reduceAdd]
  rw [rot_mod y 52 20 rfl, rot_mod y 40 8 rfl]
  refine BitVec.eq_of_getLsbD_eq fun i _ => ?_
  simp only [BitVec.getLsbD_xor]
  generalize (y.rotateLeft 26).getLsbD i = a
  generalize (y.rotateLeft 14).getLsbD i = b
  generalize (y.rotateLeft 20).getLsbD i = c
  generalize (y.rotateLeft 28).getLsbD i = d
  generalize (y.rotateLeft 8).getLsbD i = e
  generalize y.getLsbD i = g
  revert a b c d e g
  decide

theorem lAp_eight (y : Word) : lAp (lAp (lAp (lAp (lAp (lAp (lAp (lAp y))))))) = y ^^^ y.rotateLeft 8 ^^^ y.rotateLeft 24 := by
  rw [lAp_four, lAp_four]
  simp only [rot_xor, rot_rot, Nat.reduceAdd]
  rw [rot_mod y 40 8 rfl, rot_mod y 48 16 rfl, rot_mod y 56 24 rfl]
  refine BitVec.eq_of_getLsbD_eq fun i _ => ?_
  simp only [BitVec.getLsbD_xor]
  generalize (y.rotateLeft 8).getLsbD i = a
  generalize (y.rotateLeft 16).getLsbD i = b
  generalize (y.rotateLeft 20).getLsbD i = c
  generalize (y.rotateLeft 28).getLsbD i = d
  generalize (y.rotateLeft 24).getLsbD i = e
  generalize y.getLsbD i = g
  revert a b c d e g
  decide

/-- The inverse of `lAp`: `lAp` applied 15 times. -/
def lApInv (x : Word) : Word :=
  let a := lAp x
  let b := a ^^^ a.rotateLeft 26 ^^^ a.rotateLeft 14
  let c := b ^^^ b.rotateLeft 20 ^^^ b.rotateLeft 28
  c ^^^ c.rotateLeft 8 ^^^ c.rotateLeft 24

theorem lApInv_eq (x : Word) : lApInv (lAp x) = x := by
  unfold lApInv
  dsimp only
  rw [← lAp_eight, ← lAp_four, ← lAp_two]
  have : ∀ z, lAp (lAp (lAp (lAp (lAp (lAp (lAp (lAp (lAp (lAp (lAp (lAp (lAp (lAp (lAp (lAp z))))))))))))))) = z := by
    intro z
    rw [lAp_eight, lAp_eight]
    simp only [rot_xor, rot_rot, Nat.reduceAdd]
    rw [rot_mod z 32 0 rfl, rot_mod z 48 16 rfl, rot_zero]
    refine BitVec.eq_of_getLsbD_eq fun i _ => ?_
    simp only [BitVec.getLsbD_xor]
    generalize (z.rotateLeft 8).getLsbD i = a
    generalize (z.rotateLeft 16).getLsbD i = b
    generalize (z.rotateLeft 24).getLsbD i = c
    generalize z.getLsbD i = g
    revert a b c g
    decide
  exact this x

theorem lAp_inj {x y : Word} (h : lAp x = lAp y) : x = y := by
  rw [← lApInv_eq x, h, lApInv_eq]

theorem singleAp_fin : ∀ a : Fin 255, 3 ≤ nz (lAp (at8 (BitVec.ofNat 8 (a.val + 1)) 0)) ∧
    3 ≤ nz (lApInv (at8 (BitVec.ofNat 8 (a.val + 1)) 0)) := by decide +kernel

theorem single_of {y : Word} (h0 : byt y 0 ≠ 0) (h1 : byt y 1 = 0) (h2 : byt y 2 = 0) (h3 : byt y 3 = 0) :
    3 ≤ nz (lAp y) ∧ 3 ≤ nz (lApInv y) := by
  have e := word_split y
  rw [h1, h2, h3] at e
  simp only [at8_zero, z_xor] at e
  obtain ⟨a, ha⟩ := byte_fin h0
  have hs := singleAp_fin a
  rwa [← ha, ← e] at hs

/-- A word with one byte that is not zero is a rotation of one in which this is the lowest. -/
theorem one_byte {y : Word} (h : nz y = 1) : ∃ k, byt (y.rotateLeft k) 0 ≠ 0 ∧ byt (y.rotateLeft k) 1 = 0 ∧ byt (y.rotateLeft k) 2 = 0 ∧
    byt (y.rotateLeft k) 3 = 0 ∧ ∀ x : Word, nz (x.rotateLeft k) = nz x := by
  obtain ⟨a0, a1, a2, a3⟩ := byt_rot y
  obtain ⟨b0, b1, b2, b3⟩ := byt_rot (y.rotateLeft 8)
  obtain ⟨c0, c1, c2, c3⟩ := byt_rot ((y.rotateLeft 8).rotateLeft 8)
  rw [rot_rot] at b0 b1 b2 b3
  rw [rot_rot, rot_rot] at c0 c1 c2 c3
  simp only [Nat.reduceAdd] at *
  have r16 : ∀ x : Word, nz (x.rotateLeft 16) = nz x := fun x => by
    rw [show x.rotateLeft 16 = (x.rotateLeft 8).rotateLeft 8 by rw [rot_rot], nz_rot, nz_rot]
  have r24 : ∀ x : Word, nz (x.rotateLeft 24) = nz x := fun x => by
    rw [show x.rotateLeft 24 = (x.rotateLeft 16).rotateLeft 8 by rw [rot_rot], nz_rot, r16]
  rw [rot_rot] at c0 c1 c2 c3
  simp only [Nat.reduceAdd] at *
  have z : ∀ {b : Byte}, ¬ b = 0 → nzb b = 1 := fun h => if_neg h
  unfold nz at h
  by_cases h3 : byt y 3 = 0 <;> by_cases h2 : byt y 2 = 0 <;> by_cases h1 : byt y 1 = 0 <;> by_cases h0 : byt y 0 = 0
  all_goals first
    | (simp_all [nzb]; done)
    | exact ⟨0, by rw [rot_zero]; exact h0, by rw [rot_zero]; exact h1, by rw [rot_zero]; exact h2, by rw [rot_zero]; exact h3, fun x => by rw [rot_zero]⟩
    | exact ⟨8, by rw [a0]; exact h3, by rw [a1]; exact h0, by rw [a2]; exact h1, by rw [a3]; exact h2, nz_rot⟩
    | exact ⟨16, by rw [b0, a3]; exact h2, by rw [b1, a0]; exact h3, by rw [b2, a1]; exact h0, by rw [b3, a2]; exact h1, r16⟩
    | exact ⟨24, by rw [c0, b3, a2]; exact h1, by rw [c1, b0, a3]; exact h2, by rw [c2, b1, a0]; exact h3, by rw [c3, b2, a1]; exact h0, r24⟩

/-- The branch number of `lAp` is at least four. -/
theorem branchAp (x : Word) (hx : x ≠ 0) : 4 ≤ nz x + nz (lAp x) := by
  have hn : nz x ≠ 0 := fun e => hx (nz_eq_zero e)
  have hz : nz (lAp x) ≠ 0 := fun e => hx (lAp_inj (by rw [nz_eq_zero e, lAp_zero]))
  rcases (by omega : nz x = 1 ∨ nz (lAp x) = 1 ∨ 4 ≤ nz x + nz (lAp x)) with h | h | h
  · obtain ⟨k, h0, h1, h2, h3, h4⟩ := one_byte h
    have := (single_of h0 h1 h2 h3).1
    rw [lAp_rot, h4] at this
    omega
  · obtain ⟨k, h0, h1, h2, h3, h4⟩ := one_byte h
    have := (single_of h0 h1 h2 h3).2
    rw [← lAp_rot, lApInv_eq, h4] at this
    omega
  · exact h

end Verif.Sm4
