import Verif.Sm3.Capacity
import Verif.Sm3.Abs
/-!
# What lies behind the written slice does not matter (C05)
-/
namespace Verif.Props
open Verif Verif.Sm3

theorem processWordCap_eq (d : Digest) (p spare : Bytes) (i : Nat) (hi : i + 4 ≤ p.length) :
    processWordCap d p spare (BitVec.ofNat 32 i) = processWord d p (BitVec.ofNat 32 i) := by
  have e : (BitVec.ofNat 32 i + 4) = BitVec.ofNat 32 (i + 4) := by
    rw [show (4 : BitVec 32) = BitVec.ofNat 32 4 from rfl, BitVec.ofNat_add]
  have hle : (BitVec.ofNat 32 (i + 4)).toInt ≤ p.length := by
    have h : (BitVec.ofNat 32 (i + 4)).toInt ≤ (BitVec.ofNat 32 (i + 4)).toNat := by rw [BitVec.toInt_eq_toNat_cond]; split <;> omega
    have h2 : (BitVec.ofNat 32 (i + 4)).toNat ≤ i + 4 := by rw [BitVec.toNat_ofNat]; exact Nat.mod_le _ _
    omega
  unfold processWordCap processWord
  rw [e]
  dsimp only
  by_cases hc : 0 ≤ (BitVec.ofNat 32 i).toInt ∧ (BitVec.ofNat 32 i).toInt ≤ (BitVec.ofNat 32 (i + 4)).toInt
  · rw [if_pos ⟨hc.1, hc.2, by omega⟩, if_pos ⟨hc.1, hc.2, hle⟩, List.drop_append_of_le_length (by omega), List.take_append_of_le_length (by simp; omega)]
  · rw [if_neg (fun x => hc ⟨x.1, x.2.1⟩), if_neg (fun x => hc ⟨x.1, x.2.1⟩)]

theorem wordLoopCap_eq (p spare : Bytes) (cnt : Nat) (d : Digest) (i : Nat) (hi : i + 4 * cnt ≤ p.length) :
    wordLoopCap p spare d i cnt = wordLoop p d i cnt := by
  induction cnt generalizing d i with
  | zero => rfl
  | succ cnt ih =>
    rw [wordLoopCap, wordLoop, processWordCap_eq d p spare i (by omega)]
    congr 1
    funext d'
    exact ih d' (i + 4) (by omega)

theorem fillLoop_index (d : Digest) (i : Nat) (p : Bytes) {r : Digest × Nat} (h : fillLoop d i p = .ok r) : r.2 ≤ i + p.length := by
  induction p generalizing d i with
  | nil => cases h; simp
  | cons b rest ih =>
    rw [fillLoop] at h
    obtain ⟨d1, _, h⟩ := Res.bind_eq_ok.1 h
    split at h
    · obtain ⟨d2, _, h⟩ := Res.bind_eq_ok.1 h
      cases h
      simp
    · have := ih _ _ h
      simp only [List.length_cons]; omega

/-- C05: in any state of the digest, the outcome of `Write` depends neither on the capacity of the written slice nor on the
bytes behind it. -/
theorem C05_capacity (d : Digest) (p spare : Bytes) : writeCap d p spare = write d p := by
  unfold writeCap write
  split
  · rfl
  · cases hf : fill d p with
    | ok r =>
      have hr : r.2 ≤ p.length := by
        unfold fill at hf
        split at hf
        · have := fillLoop_index _ _ _ hf; omega
        · cases hf; simp
      simp only [Res.ok_bind]
      rw [wordLoopCap_eq p spare _ _ _ (by omega)]
    | err m => rfl
    | panic => rfl
    | loop => rfl

/-- The slice expression itself would reach behind the slice. -/
theorem C05_slice_reaches : (processWordCap Sm3.new [1, 2] [3, 4] 0 ≠ .panic) ∧ processWord Sm3.new [1, 2] 0 = .panic := by decide

end Verif.Props
