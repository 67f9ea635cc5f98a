import Verif.Base.Rotate
import Verif.Props.Sm3
import Mathlib.Logic.Function.Basic
import Mathlib.Logic.ExistsUnique
/-!
# Property C137: SM3 compresses by a permutation with feed-forward
-/
namespace Verif.Props
open Verif Verif.Sm3 Function

theorem lin_self (m n : Nat) (x : Word) (h : m % 32 = n % 32) : lin m n x = x := by
  unfold lin
  rw [rot_mod x m n h, BitVec.xor_assoc, BitVec.xor_self, BitVec.xor_zero]

/-- `p0` four times is the identity. -/
theorem p0_four (x : Word) : p0 (p0 (p0 (p0 x))) = x := by
  have h : ∀ y, p0 y = lin 9 17 y := fun _ => rfl
  rw [h, h, h, h, lin_twice, lin_twice, lin_twice]
  exact lin_self _ _ x rfl

/-- `p1` four times is the identity. -/
theorem p1_four (x : Word) : p1 (p1 (p1 (p1 x))) = x := by
  have h : ∀ y, p1 y = lin 15 23 y := fun _ => rfl
  rw [h, h, h, h, lin_twice, lin_twice, lin_twice]
  exact lin_self _ _ x rfl

theorem rot_back (x : Word) (a b : Nat) (h : (a + b) % 32 = 0) : (x.rotateLeft a).rotateLeft b = x := by
  rw [rot_rot, rot_mod x (a + b) 0 h]
  refine BitVec.eq_of_getLsbD_eq fun i hi => ?_
  rw [bit_rot _ 0 i hi]
  congr 1
  omega

/-- The step undone. -/
def unStep (ff gg : Word → Word → Word → Word) (w : List Word) (s : V8) (j : Nat) : V8 :=
  let a := s.b
  let b := s.c.rotateLeft 23
  let c := s.d
  let e := s.f
  let f := s.g.rotateLeft 13
  let g := s.h
  let a12 := shl a 12
  let SS1 := shl (a12 + e + gT.getD j 0) 7
  let Wj := w.getD j 0
  { a := a, b := b, c := c, d := s.a - (Wj ^^^ w.getD (j + 4) 0) - (SS1 ^^^ a12) - ff a b c,
    e := e, f := f, g := g, h := p0 (p0 (p0 s.e)) - Wj - SS1 - gg e f g }

theorem add_undo (x d y z : Word) : x + d + y + z - z - y - x = d := by
  rw [BitVec.add_sub_cancel, BitVec.add_sub_cancel, BitVec.add_comm, BitVec.add_sub_cancel]

theorem undo_add (x d y z : Word) : x + (d - z - y - x) + y + z = d := by
  rw [BitVec.add_comm x, BitVec.sub_add_cancel, BitVec.sub_add_cancel, BitVec.sub_add_cancel]

theorem unStep_step (ff gg : Word → Word → Word → Word) (w : List Word) (s : V8) (j : Nat) : unStep ff gg w (roundStep ff gg w s j) j = s := by
  obtain ⟨a, b, c, d, e, f, g, h⟩ := s
  unfold unStep roundStep
  simp only [shl_9, shl_19, p0_four, rot_back b 9 23 rfl, rot_back f 19 13 rfl, add_undo]

theorem step_unStep (ff gg : Word → Word → Word → Word) (w : List Word) (s : V8) (j : Nat) : roundStep ff gg w (unStep ff gg w s j) j = s := by
  obtain ⟨a, b, c, d, e, f, g, h⟩ := s
  unfold unStep roundStep
  simp only [shl_9, shl_19, rot_back c 23 9 rfl, rot_back g 13 19 rfl, undo_add, p0_four]

theorem step_bijective (ff gg : Word → Word → Word → Word) (w : List Word) (j : Nat) : Bijective fun s => roundStep ff gg w s j :=
  ⟨fun s s' h => by
    have := congrArg (fun s => unStep ff gg w s j) h
    simpa only [unStep_step] using this, fun s => ⟨unStep ff gg w s j, step_unStep ff gg w s j⟩⟩

theorem steps_bijective (ff gg : Word → Word → Word → Word) (w : List Word) : ∀ l : List Nat, Bijective fun s => l.foldl (roundStep ff gg w) s
  | [] => bijective_id
  | j :: l => (steps_bijective ff gg w l).comp (step_bijective ff gg w j)

/-- Componentwise xor of eight words. -/
def xor8 (v s : V8) : V8 := ⟨v.a ^^^ s.a, v.b ^^^ s.b, v.c ^^^ s.c, v.d ^^^ s.d, v.e ^^^ s.e, v.f ^^^ s.f, v.g ^^^ s.g, v.h ^^^ s.h⟩

theorem xor8_cancel (v s : V8) : xor8 (xor8 v s) v = s := by
  obtain ⟨a, b, c, d, e, f, g, h⟩ := v
  obtain ⟨a', b', c', d', e', f', g', h'⟩ := s
  have k : ∀ x y : Word, x ^^^ y ^^^ x = y := fun x y => by rw [BitVec.xor_comm x y, BitVec.xor_assoc, BitVec.xor_self, BitVec.xor_zero]
  simp only [xor8, k]

theorem compress_eq (v : V8) (w : List Word) :
    compress v w = xor8 v ((List.range' 16 48).foldl (roundStep ff1 gg1 w) ((List.range 16).foldl (roundStep ff0 gg0 w) v)) := by
  unfold compress xor8
  rfl

/-- C137: with the block fixed, the chaining value that `processBlock` computes is, up to the feed-forward of the old one, a
permutation of it: no two chaining values are mapped to the same and none is left out. -/
theorem C137_permutation (d : Digest) : Bijective fun v => xor8 (processBlock { d with v := v }).v v := by
  have : (fun v => xor8 (processBlock { d with v := v }).v v) = (fun s => (List.range' 16 48).foldl (roundStep ff1 gg1 (expand d.inWords d.w)) s) ∘
      (fun s => (List.range 16).foldl (roundStep ff0 gg0 (expand d.inWords d.w)) s) := by
    funext v
    have h : (processBlock { d with v := v }).v = compress v (expand d.inWords d.w) := rfl
    rw [h, compress_eq, xor8_cancel, Function.comp_apply]
  rw [this]
  exact (steps_bijective _ _ _ _).comp (steps_bijective _ _ _ _)

/-- C137: for every block there is exactly one chaining value that the block does not change. -/
theorem C137_fixed (d : Digest) : ∃! v, (processBlock { d with v := v }).v = v := by
  obtain ⟨v, hv, hu⟩ := (C137_permutation d).existsUnique ⟨0, 0, 0, 0, 0, 0, 0, 0⟩
  have key : ∀ v, xor8 (processBlock { d with v := v }).v v = ⟨0, 0, 0, 0, 0, 0, 0, 0⟩ ↔ (processBlock { d with v := v }).v = v := by
    intro v
    generalize (processBlock { d with v := v }).v = u
    obtain ⟨a, b, c, d, e, f, g, h⟩ := v
    obtain ⟨a', b', c', d', e', f', g', h'⟩ := u
    have k : ∀ x y : Word, x ^^^ y = 0 ↔ x = y := fun x y => BitVec.xor_eq_zero_iff
    simp only [xor8, V8.mk.injEq, k]
  exact ⟨v, (key v).1 hv, fun u h => hu u ((key u).2 h)⟩

theorem W_back (B B' : Bytes) (i : Nat) (h : ∀ j, j < 16 → Spec.SM3.W B (i + j) = Spec.SM3.W B' (i + j)) :
    ∀ j, j < 16 → Spec.SM3.W B j = Spec.SM3.W B' j := by
  induction i with
  | zero => intro j hj; have := h j hj; rwa [Nat.zero_add] at this
  | succ i ih =>
    apply ih
    intro j hj
    match j, hj with
    | 0, _ =>
      have e := h 15 (by omega)
      rw [W_ge B (by omega), W_ge B' (by omega)] at e
      have g3 := h 12 (by omega)
      have g6 := h 9 (by omega)
      have g9 := h 6 (by omega)
      have g13 := h 2 (by omega)
      rw [show i + 1 + 15 - 16 = i by omega, show i + 1 + 15 - 9 = i + 1 + 6 by omega, show i + 1 + 15 - 3 = i + 1 + 12 by omega,
        show i + 1 + 15 - 13 = i + 1 + 2 by omega, show i + 1 + 15 - 6 = i + 1 + 9 by omega, g3, g6, g9, g13] at e
      have c : ∀ {x y z : Word}, x ^^^ z = y ^^^ z → x = y := fun {x y z} h => by
        have := congrArg (· ^^^ z) h
        simpa [BitVec.xor_assoc] using this
      have e := c (c e)
      have e := congrArg (fun x => p1 (p1 (p1 x))) e
      have q : ∀ x, Spec.SM3.P1 x = p1 x := fun _ => rfl
      simp only [q, p1_four] at e
      exact c (c e)
    | j + 1, hj =>
      have := h j (by omega)
      rwa [show i + 1 + j = i + (j + 1) by omega] at this

/-- C137: nothing of the block is lost by the message expansion: any sixteen consecutive of the 68 words that `processBlock`
computes determine the sixteen words of the block. -/
theorem C137_expansion (u u' w w' : List Word) (hu : u.length = 16) (hu' : u'.length = 16) (hw : w.length = 68) (hw' : w'.length = 68)
    (i : Nat) (hi : i + 16 ≤ 68) (h : ∀ j, j < 16 → (expand u w).getD (i + j) 0 = (expand u' w').getD (i + j) 0) : u = u' := by
  have hx : ∀ (u w : List Word), u.length = 16 → w.length = 68 → ∀ j, j < 68 → (expand u w).getD j 0 = Spec.SM3.W (wbytes u) j :=
    fun u w hu hw => (expand_spec (wbytes u) u w hw fun j hj => (wbytes_word u j (by omega)).symm).2
  have hb := W_back (wbytes u) (wbytes u') i fun j hj => by
    rw [← hx u w hu hw _ (by omega), ← hx u' w' hu' hw' _ (by omega)]
    exact h j hj
  refine List.ext_getElem (hu.trans hu'.symm) fun j h1 h2 => ?_
  have e := hb j (by omega)
  rw [W_lt _ (by omega), W_lt _ (by omega), wbytes_word u j h1, wbytes_word u' j h2] at e
  simpa [List.getD_eq_getElem?_getD, h1, h2] using e

/-! The fixed point of the block of zeros, found by undoing the 64 steps from zero. -/
def exFixed137 : V8 := ⟨0x833780a2, 0x8b5fd89e, 0x7724d5ab, 0x40a83b15, 0x1f15e4ea, 0x475bcb63, 0x4c32bdcf, 0x735d6a70⟩
example : (processBlock { new with v := exFixed137 }).v = exFixed137 := by decide +kernel
example : (processBlock new).v ≠ new.v := by decide +kernel
example : (expand (List.replicate 16 1) (List.replicate 68 0)).getD 67 0 ≠ (expand (List.replicate 16 2) (List.replicate 68 0)).getD 67 0 := by
  decide +kernel

end Verif.Props
