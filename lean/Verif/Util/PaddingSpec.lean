import Verif.Base.Basic
/-!
# What padding means (RFC 8018 / PKCS#5, PKCS#7), stated without reference to the code
-/
namespace Verif.Spec

/-- `p` is `m` followed by `k` copies of the byte `k`, for some `1 ≤ k ≤ n`, and fills whole
blocks of `n` bytes. -/
def PKCS7 (n : Nat) (m p : Bytes) : Prop :=
  ∃ k, 1 ≤ k ∧ k ≤ n ∧ k ≤ 255 ∧ p = m ++ List.replicate k (BitVec.ofNat 8 k) ∧ n ∣ p.length

/-- Trailing bytes of `p` form some valid padding: the last byte is `k ≥ 1` and the last `k` bytes
all equal `k`. -/
def PKCS7Tail (p : Bytes) : Prop :=
  ∃ m k, 1 ≤ k ∧ k ≤ 255 ∧ p = m ++ List.replicate k (BitVec.ofNat 8 k)

/-- `p` is `m` followed by between 1 and `n` zero bytes, and fills whole blocks. -/
def ZeroPadded (n : Nat) (m p : Bytes) : Prop :=
  ∃ k, 1 ≤ k ∧ k ≤ n ∧ p = m ++ List.replicate k 0#8 ∧ n ∣ p.length

end Verif.Spec
