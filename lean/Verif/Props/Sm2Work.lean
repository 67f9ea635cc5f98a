import Verif.EC.Work
import Verif.Props.Sm2Producible
import Mathlib.Data.Nat.Digits.Defs
/-!
# C116: the curve operations of a scalar multiplication and its scalar

`CurveParams.ScalarMult` doubles for every bit and adds for every bit that is set. `EC.ops` is the sequence of these calls.
-/
namespace Verif.Props
open Verif Verif.EC Verif.Sm2

/-- `EC.ops` is what `ScalarMult` executes: the result is that of the calls in the sequence, one after the other. -/
theorem C116_calls_partial (c : CurveParams) (b : Int × Int) (k : Bytes) :
    scalarMult c b k = affineFromJacobian c ((ops k).foldl (fun s o => match o with
      | .dbl => doubleJacobian c s
      | .add => addJacobian c ⟨b.1, b.2, 1⟩ s) ⟨0, 0, 0⟩) := by
  rw [scalarMult_ops]
  congr 2

/-- What an observer of the sequence computes: double for a doubling, one more for an addition. -/
def scalarOf (t : List Op) : ℕ := t.foldl (fun a o => match o with
  | .dbl => 2 * a
  | .add => a + 1) 0

theorem bitOps_scalar (byte : Byte) (a : ℕ) : (bitOps 8 byte).foldl (fun a o => match o with
    | .dbl => 2 * a
    | .add => a + 1) a = 256 * a + byte.toNat := by
  have h : ∀ (t : List Op) (a : ℕ), t.foldl (fun a o => match o with
      | .dbl => 2 * a
      | .add => a + 1) a = 2 ^ t.count .dbl * a + scalarOf t := by
    intro t
    induction t using List.reverseRecOn with
    | nil => intro a; simp [scalarOf]
    | append_singleton t o ih =>
      intro a
      have ih0 := ih a
      unfold scalarOf at *
      rw [List.foldl_append, ih0, List.foldl_append]
      cases o
      · simp [List.count_append]; ring
      · simp [List.count_append]; ring
  have h2 : ∀ b : Byte, (bitOps 8 b).count .dbl = 8 ∧ scalarOf (bitOps 8 b) = b.toNat := by decide +kernel
  rw [h, (h2 byte).1, (h2 byte).2]
  norm_num

/-- The sequence of operations tells the scalar. -/
theorem C116_reveals_violated (k : Bytes) : scalarOf (ops k) = beNat k := by
  unfold scalarOf ops
  induction k using List.reverseRecOn with
  | nil => rfl
  | append_singleton k byte ih =>
    rw [List.flatMap_append, List.foldl_append, ih, List.flatMap_cons, List.flatMap_nil, List.append_nil, bitOps_scalar, beNat_snoc]
    ring

/-- From one signature and the sequence of operations of its scalar multiplication the private key is computed. -/
theorem C116_key_violated (d : ℕ) (hd : d < n) (id : Option Bytes) (M raw : Bytes) (r s : Int)
    (h : signToRS ⟨d⟩ id M [some raw] = .ok (r, s)) : keyFromNonce r s (scalarOf (ops (intBytes (beNat raw)))) = d := by
  rw [C116_reveals_violated, beNat_intBytes, Int.natAbs_natCast]
  exact C107_nonce_violated d hd id M raw r s h

/-- The multiplication of `Decrypt` with the private key: its operations tell the key. -/
theorem C116_decrypt_violated (d : ℕ) (c1 : Int × Int) :
    ∃ t : List Op, scalarMult cv c1 (intBytes d) = affineFromJacobian cv (t.foldl (execOp cv c1) ⟨0, 0, 0⟩) ∧ t = ops (intBytes d) ∧
      scalarOf t = d :=
  ⟨_, scalarMult_ops _ _ _, rfl, by rw [C116_reveals_violated, beNat_intBytes, Int.natAbs_natCast]⟩

theorem bitOps_count (b : Byte) : (bitOps 8 b).count .dbl = 8 ∧ (bitOps 8 b).count .add = (Nat.digits 2 b.toNat).sum := by
  have h : ∀ b : Byte, (bitOps 8 b).count .dbl = 8 ∧ (bitOps 8 b).count .add = (Nat.digits 2 b.toNat).sum := by decide +kernel
  exact h b

theorem digits_shift (j a b : ℕ) (hb : b < 2 ^ j) : (Nat.digits 2 (2 ^ j * a + b)).sum = (Nat.digits 2 a).sum + (Nat.digits 2 b).sum := by
  induction j generalizing b with
  | zero => simp at hb; simp [hb]
  | succ j ih =>
    have e : ∀ x : ℕ, (Nat.digits 2 x).sum = x % 2 + (Nat.digits 2 (x / 2)).sum := by
      intro x
      rcases Nat.eq_zero_or_pos x with rfl | hx
      · simp
      · rw [Nat.digits_def' (by norm_num) hx, List.sum_cons]
    rw [e, e b]
    have h1 : (2 ^ (j + 1) * a + b) % 2 = b % 2 := by rw [pow_succ, mul_assoc, mul_comm, mul_assoc, Nat.mul_add_mod]
    have h2 : (2 ^ (j + 1) * a + b) / 2 = 2 ^ j * a + b / 2 := by
      rw [show 2 ^ (j + 1) * a = 2 * (2 ^ j * a) by rw [pow_succ]; ring]
      omega
    rw [h1, h2, ih _ (by rw [pow_succ] at hb; omega)]
    omega

/-- The number of operations: eight doublings for every byte of the scalar, one addition for every bit that is set. -/
theorem C116_count_partial (k : Bytes) : (ops k).count .dbl = 8 * k.length ∧ (ops k).count .add = (Nat.digits 2 (beNat k)).sum := by
  unfold ops
  induction k using List.reverseRecOn with
  | nil => simp [beNat]
  | append_singleton k b ih =>
    obtain ⟨h1, h2⟩ := bitOps_count b
    rw [List.flatMap_append, List.flatMap_cons, List.flatMap_nil, List.append_nil, List.count_append, List.count_append, ih.1, ih.2, h1, h2, beNat_snoc,
      List.length_append, mul_comm (beNat k), show 256 = 2 ^ 8 by norm_num, digits_shift 8 _ _ b.isLt]
    exact ⟨by simp; omega, rfl⟩

/-- Nonces of the same length do not take the same number of operations, and nonces of different lengths do not take the same number
of doublings. -/
theorem C116_constant_violated : ∃ k₁ k₂ k₃ : ℕ, (1 ≤ k₁ ∧ k₁ < n) ∧ (1 ≤ k₂ ∧ k₂ < n) ∧ (1 ≤ k₃ ∧ k₃ < n) ∧
    (ops (intBytes k₁)).length ≠ (ops (intBytes k₂)).length ∧ (ops (intBytes k₁)).count .dbl = (ops (intBytes k₂)).count .dbl ∧
    (ops (intBytes k₁)).count .dbl ≠ (ops (intBytes k₃)).count .dbl := by
  refine ⟨1, 3, 256, ?_⟩
  rw [n_val]
  decide +kernel

/-- The calls for the scalar 5: the first five double the point at infinity. -/
example : ops (intBytes 5) = [.dbl, .dbl, .dbl, .dbl, .dbl, .dbl, .add, .dbl, .dbl, .add] := by decide +kernel

/-- The signature of the example of C35. -/
example : keyFromNonce exR exS (scalarOf (ops (intBytes (beNat (toBE 32 3))))) = 2 :=
  C116_key_violated 2 (by have := n_gt; omega) none [0x61] (toBE 32 3) exR exS example_sign

end Verif.Props
