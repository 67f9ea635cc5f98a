import Verif.Props.Sm3Collision
/-!
# Property C112: digests of data with a secret beginning
-/
namespace Verif.Props
open Verif Verif.Sm3 Verif.Spec.SM3

/-- A digest read as registers. -/
def digestRegs (h : Bytes) : Regs :=
  let w (i : Nat) : Word := BitVec.ofNat 32 (beNat ((h.drop (4 * i)).take 4))
  (w 0, w 1, w 2, w 3, w 4, w 5, w 6, w 7)

/-- What the padding of a message of `len` bytes appends. -/
def sm3Glue (len : Nat) : Bytes := [0x80] ++ List.replicate ((119 - len % 64) % 64) 0 ++ toBE 8 (8 * len)

/-- The compression function over the blocks of `m'`, from `v` on. -/
def chainFrom (v : Regs) (m' : Bytes) : Nat → Regs
  | 0 => v
  | i + 1 => CF (chainFrom v m' i) ((m'.drop (64 * i)).take 64)

/-- The digest of `secret ++ sm3Glue secret.length ++ suffix`, made from the digest and the length of `secret` alone. -/
def extendDigest (h : Bytes) (len : Nat) (suffix : Bytes) : Bytes :=
  let tail := suffix ++ sm3Glue (len + (sm3Glue len).length + suffix.length)
  outBytes (chainFrom (digestRegs h) tail (tail.length / 64))

theorem digestRegs_outBytes (v : Regs) : digestRegs (outBytes v) = v := by
  obtain ⟨a, b, c, d, e, f, g, k⟩ := v
  have w : ∀ x : Word, BitVec.ofNat 32 (beNat (toBE 4 x.toNat)) = x := fun x => by
    rw [beNat_toBE_of_lt (by have := x.isLt; omega), BitVec.ofNat_toNat, BitVec.setWidth_eq]
  have cut : ∀ (pre x post : Bytes) (i : Nat), pre.length = i → x.length = 4 → ((pre ++ (x ++ post)).drop i).take 4 = x := by
    intro pre x post i h1 h2
    rw [List.drop_left' h1, List.take_left' h2]
  unfold digestRegs outBytes
  simp only [List.append_assoc, Prod.mk.injEq]
  refine ⟨?_, ?_, ?_, ?_, ?_, ?_, ?_, ?_⟩
  · rw [List.drop_zero, List.take_left' (by simp), w]
  · rw [cut _ _ _ (4 * 1) (by simp) (by simp), w]
  · rw [← List.append_assoc, cut _ _ _ (4 * 2) (by simp) (by simp), w]
  · rw [← List.append_assoc, ← List.append_assoc, cut _ _ _ (4 * 3) (by simp) (by simp), w]
  · rw [← List.append_assoc, ← List.append_assoc, ← List.append_assoc, cut _ _ _ (4 * 4) (by simp) (by simp), w]
  · rw [← List.append_assoc, ← List.append_assoc, ← List.append_assoc, ← List.append_assoc, cut _ _ _ (4 * 5) (by simp) (by simp), w]
  · rw [← List.append_assoc, ← List.append_assoc, ← List.append_assoc, ← List.append_assoc, ← List.append_assoc,
      cut _ _ _ (4 * 6) (by simp) (by simp), w]
  · rw [← List.append_assoc, ← List.append_assoc, ← List.append_assoc, ← List.append_assoc, ← List.append_assoc, ← List.append_assoc,
      List.drop_left' (by simp), List.take_of_length_le (by simp), w]

theorem pad_eq_glue (m : Bytes) : pad m = m ++ sm3Glue m.length := by unfold pad sm3Glue; simp [List.append_assoc]

/-- The chaining values of `x ++ y` go on from those of whole blocks `x`. -/
theorem chain_append (x y : Bytes) (k : Nat) (hx : x.length = 64 * k) : ∀ j, V (x ++ y) (k + j) = chainFrom (V x k) y j
  | 0 => by
    have : ∀ i, i ≤ k → V (x ++ y) i = V x i := by
      intro i
      induction i with
      | zero => intro _; rfl
      | succ i ih =>
        intro hi
        show CF _ _ = CF _ _
        rw [ih (by omega), List.drop_append_of_le_length (by omega), List.take_append_of_le_length (by simp; omega)]
    exact this k (Nat.le_refl k)
  | j + 1 => by
    show CF (V (x ++ y) (k + j)) (((x ++ y).drop (64 * (k + j))).take 64) = CF _ _
    rw [chain_append x y k hx j, List.drop_append, List.drop_of_length_le (by omega), List.nil_append,
      show 64 * (k + j) - x.length = 64 * j by omega]

/-- A digest of a padded message and something behind it, from the digest of the message. -/
theorem hash_extend (m suffix : Bytes) : Spec.SM3.hash (pad m ++ suffix) = extendDigest (Spec.SM3.hash m) m.length suffix := by
  have h1 := length_pad m
  have hl : (pad m).length = m.length + (sm3Glue m.length).length := by rw [pad_eq_glue, List.length_append]
  unfold extendDigest
  show outBytes (V (pad (pad m ++ suffix)) _) = outBytes _
  have h2 : pad (pad m ++ suffix) = pad m ++ (suffix ++ sm3Glue (m.length + (sm3Glue m.length).length + suffix.length)) := by
    rw [pad_eq_glue (pad m ++ suffix), List.append_assoc, List.length_append, hl]
  have h3 : (pad (pad m ++ suffix)).length / 64 = (pad m).length / 64 +
      (suffix ++ sm3Glue (m.length + (sm3Glue m.length).length + suffix.length)).length / 64 := by
    rw [h2, List.length_append]
    omega
  rw [h3, h2, chain_append _ _ _ (by omega)]
  congr 2
  show _ = digestRegs (outBytes _)
  rw [digestRegs_outBytes]

/-- C112 is violated (by SM3 itself): the digest of the padded secret data with anything behind it is a function of the digest of the
secret data, its length and what is put behind it. `Sum(key ‖ message)` is therefore no authentication code. -/
theorem C112_sum_violated (secret suffix : Bytes) (h0 : secret ≠ []) (hl : (secret ++ sm3Glue secret.length ++ suffix).length < 2 ^ 31) :
    ∃ v, sum secret = .ok v ∧ sum (secret ++ sm3Glue secret.length ++ suffix) = .ok (extendDigest v secret.length suffix) := by
  refine ⟨_, C01_sum_conforms secret h0 (by simp only [List.length_append] at hl; omega), ?_⟩
  rw [C01_sum_conforms _ (by simp [h0]) hl, ← pad_eq_glue, hash_extend]

/-- "key" as secret data, "x" behind it. -/
example : ∃ v, sum [0x6b, 0x65, 0x79] = .ok v ∧ sum ([0x6b, 0x65, 0x79] ++ sm3Glue 3 ++ [0x78]) = .ok (extendDigest v 3 [0x78]) :=
  C112_sum_violated [0x6b, 0x65, 0x79] [0x78] (by simp) (by simp [sm3Glue])

end Verif.Props
