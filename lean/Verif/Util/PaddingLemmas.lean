import Verif.Util.Padding
/-! Helper lemmas for the padding model. -/
namespace Verif.Padding
open Verif

theorem tmod_natCast (l n : Nat) : Int.tmod (l : Int) (n : Int) = ((l % n : Nat) : Int) := by
  rw [Int.tmod_eq_emod_of_nonneg (by omega)]; rfl

/-- For a positive block size the number of bytes added is `n - l % n`. -/
theorem pkcs5Padding_pos (src : Bytes) {n : Nat} (hn : 0 < n) :
    pkcs5Padding src n = .ok (src ++ List.replicate (n - src.length % n) (BitVec.ofNat 8 (n - src.length % n))) := by
  have hlt := Nat.mod_lt src.length hn
  unfold pkcs5Padding
  rw [if_neg (by omega), tmod_natCast]
  have : ((n : Int) - ((src.length % n : Nat) : Int)) = ((n - src.length % n : Nat) : Int) := by omega
  simp only [this]
  rw [if_neg (by omega), Int.toNat_natCast]
  rfl

theorem zeroPadding_pos (src : Bytes) {n : Nat} (hn : 0 < n) :
    zeroPadding src n = .ok (src ++ List.replicate (n - src.length % n) 0#8) := by
  have hlt := Nat.mod_lt src.length hn
  unfold zeroPadding
  rw [if_neg (by omega), tmod_natCast]
  have : ((n : Int) - ((src.length % n : Nat) : Int)) = ((n - src.length % n : Nat) : Int) := by omega
  simp only [this]
  rw [if_neg (by omega), Int.toNat_natCast]

theorem pkcs5Padding_nonpos (src : Bytes) {n : Int} (hn : n ≤ 0) : pkcs5Padding src n = .panic := by
  unfold pkcs5Padding
  split
  · rfl
  · have : 0 ≤ Int.tmod src.length n := Int.tmod_nonneg n (Int.natCast_nonneg _)
    simp only
    rw [if_pos (by omega)]

theorem zeroPadding_nonpos (src : Bytes) {n : Int} (hn : n ≤ 0) : zeroPadding src n = .panic := by
  unfold zeroPadding
  split
  · rfl
  · have : 0 ≤ Int.tmod src.length n := Int.tmod_nonneg n (Int.natCast_nonneg _)
    simp only
    rw [if_pos (by omega)]

theorem dvd_padded (l : Nat) {n : Nat} (hn : 0 < n) : n ∣ l + (n - l % n) := by
  have h := Nat.mod_add_div l n
  have hlt := Nat.mod_lt l hn
  exact ⟨l / n + 1, by rw [Nat.mul_add]; omega⟩

/-- Unpadding something that ends in `k` copies of a byte `b`. -/
theorem unpad_replicate (m : Bytes) {k : Nat} (b : Byte) (hk : 0 < k) :
    pkcs5UnPadding (m ++ List.replicate k b)
      = if (m.length + k) < b.toNat then .panic
        else .ok ((m ++ List.replicate k b).take (m.length + k - b.toNat)) := by
  unfold pkcs5UnPadding
  have hl : (m ++ List.replicate k b).length = m.length + k := by simp
  have hget : (m ++ List.replicate k b)[(m ++ List.replicate k b).length - 1]? = some b := by
    rw [hl, List.getElem?_append_right (by omega), List.getElem?_replicate, if_pos (by omega)]
  rw [hl] at hget; simp only [hget, hl]

theorem goAppend_get {spare : Nat} {h : Heap} {s : Slice} {ext : Bytes} (hv : s.Valid h) :
    (goAppend spare h s ext).2.get (goAppend spare h s ext).1 = s.get h ++ ext := by
  obtain ⟨hlc, a, ha, hcap⟩ := hv
  unfold goAppend
  split
  · rename_i hfit
    have hlt : s.arr < h.length := by
      rcases Nat.lt_or_ge s.arr h.length with h1 | h1
      · exact h1
      · rw [List.getElem?_eq_none h1] at ha; cases ha
    simp only [Slice.get, ha, Option.getD_some, List.getElem?_set_self hlt]
    have e1 : (overwrite a (s.off + s.len) ext).drop s.off
        = (a.drop s.off).take s.len ++ ext ++ a.drop (s.off + s.len + ext.length) := by
      unfold overwrite
      rw [List.append_assoc, List.drop_append_of_le_length (by simp; omega), List.append_assoc,
        List.drop_take]
      congr 2
      omega
    rw [e1]
    apply List.take_left'
    simp; omega
  · simp only [Slice.get, List.getElem?_append_right (Nat.le_refl _), Nat.sub_self,
      List.getElem?_cons_zero, Option.getD_some, List.drop_zero, ha]
    apply List.take_left'
    simp; omega

end Verif.Padding
