import Verif.CB.Int32
import Verif.CB.ReadLemmas
/-! The element reader on 32-bit platforms against the one on 64-bit platforms. -/
namespace Verif.CB.P32
open Verif Verif.CB Spec.DER

theorem int_small {w : Word} (h : w.toNat < 2 ^ 31) : int w = (w.toNat : Int) := by
  unfold int
  rw [BitVec.toInt_eq_toNat_cond, if_pos (by omega)]

theorem int_large {w : Word} (h : 2 ^ 31 ≤ w.toNat) : int w < 0 := by
  unfold int
  have := w.isLt
  rw [BitVec.toInt_eq_toNat_cond, if_neg (by omega)]
  omega

theorem takeElement_small {tag : Tag} {L H : Word} {sk : Bool} {s : Str} (hL : L.toNat < 2 ^ 31) (hH : H.toNat < 2 ^ 31) :
    takeElement tag L H sk s = CB.takeElement tag L H sk s := by
  unfold takeElement CB.takeElement
  rw [int_small hL, int_small hH]
  rfl

theorem readBytes_negative {n : Int} (s : Str) (h : n < 0) : readBytes n s = .panic := by
  unfold readBytes read
  rw [if_neg (by omega)]
  unfold Str.slice
  rw [if_neg (by omega)]
  rfl

theorem takeElement_large {tag : Tag} {L H : Word} {sk : Bool} {s : Str} (hL : 2 ^ 31 ≤ L.toNat) :
    takeElement tag L H sk s = .panic := by
  unfold takeElement
  rw [if_neg (by unfold int; simp), readBytes_negative s (int_large hL)]
  rfl

/-- The long form: what the length octets must be for the length to be taken for a negative number. -/
def Huge (b : Byte) (r : Bytes) : Prop :=
  b = 0x84 ∧ 4 ≤ r.length ∧ 2 ^ 31 ≤ 6 + beNat (r.take 4) ∧ 6 + beNat (r.take 4) < 2 ^ 32

theorem readASN1_short (sk : Bool) (t b : Byte) (r : Bytes) (hb : b.toNat < 128) :
    readASN1 sk (some (t :: b :: r)) = CB.readASN1 sk (some (t :: b :: r)) := by
  unfold readASN1 CB.readASN1
  rw [if_neg (by simp), if_neg (by simp), at_some (by simp), at_some (by simp)]
  simp only [Res.ok_bind, List.getElem_cons_zero, List.getElem_cons_succ]
  split
  · rfl
  · rw [if_pos (by rw [and_80]; exact hb), if_pos (by rw [and_80]; exact hb)]
    refine takeElement_small ?_ (by decide)
    rw [BitVec.toNat_add, BitVec.toNat_setWidth]
    change (b.toNat % 2 ^ 32 + 2) % 2 ^ 32 < 2 ^ 31
    omega

theorem readASN1_long (sk : Bool) (t b : Byte) (r : Bytes) (ht : LowTag t) (hb : 128 ≤ b.toNat) :
    (Huge b r → readASN1 sk (some (t :: b :: r)) = .panic) ∧
    (¬ Huge b r → readASN1 sk (some (t :: b :: r)) = CB.readASN1 sk (some (t :: b :: r))) := by
  have hb256 := b.isLt
  have hk : (b &&& 0x7f).toNat = b.toNat - 128 := by rw [and_7f]; omega
  have c0 : ((b &&& 0x7f) = 0) ↔ b.toNat - 128 = 0 := by
    rw [← hk]; constructor
    · intro h; rw [h]; rfl
    · intro h; exact BitVec.eq_of_toNat_eq (by simpa using h)
  have c4 : ((4 : Byte) < (b &&& 0x7f)) ↔ 4 < b.toNat - 128 := by
    rw [← hk, BitVec.lt_def]; rfl
  have huge : Huge b r ↔ b.toNat - 128 = 4 ∧ 4 ≤ r.length ∧ 2 ^ 31 ≤ 6 + beNat (r.take 4) ∧ 6 + beNat (r.take 4) < 2 ^ 32 := by
    unfold Huge
    have : b = 0x84 ↔ b.toNat - 128 = 4 := by
      constructor
      · rintro rfl; rfl
      · intro h; exact BitVec.eq_of_toNat_eq (by show b.toNat = 132; omega)
    rw [this]
  rw [huge]
  unfold readASN1 CB.readASN1
  rw [if_neg (by simp), if_neg (by simp)]
  rw [at_some (by simp), at_some (by simp)]
  simp only [Res.ok_bind, List.getElem_cons_zero, List.getElem_cons_succ]
  have t1 : ¬ (t &&& 0x1f = 0x1f) := by rw [and_1f]; exact ht
  have t2 : ¬ (b &&& 0x80 = 0) := by rw [and_80]; omega
  rw [if_neg t1, if_neg t2, if_neg t1, if_neg t2]
  generalize hq : (b &&& 0x7f) = q at *
  generalize hkk : b.toNat - 128 = k at *
  simp only [c0, c4]
  by_cases h1 : k = 0 ∨ 4 < k
  · have h1' : k = 0 ∨ 4 < k ∨ Str.len (some (t :: b :: r)) < (2 + q).toNat := by
      rcases h1 with h | h
      · exact .inl h
      · exact .inr (.inl h)
    rw [if_pos h1', if_pos h1']
    exact ⟨fun h => by omega, fun _ => rfl⟩
  have h2q : (2 + q).toNat = 2 + k := by
    rw [BitVec.toNat_add, hk]; simp; omega
  by_cases h2 : r.length < k
  · have h2' : k = 0 ∨ 4 < k ∨ Str.len (some (t :: b :: r)) < (2 + q).toNat := by
      right; right; rw [h2q]; simp; omega
    rw [if_pos h2', if_pos h2']
    exact ⟨fun h => by omega, fun _ => rfl⟩
  have h3' : ¬ (k = 0 ∨ 4 < k ∨ Str.len (some (t :: b :: r)) < (2 + q).toNat) := by
    rw [h2q]; simp; omega
  rw [if_neg h3', if_neg h3']
  rw [h2q]
  have hs : Str.slice (some (t :: b :: r)) 2 ((2 + k : Nat) : Int) = .ok (some (r.take k)) := by
    have := slice_some (bs := t :: b :: r) (a := 2) (b := 2 + k) (by omega) (by simp; omega)
    rw [show ((2 : Nat) : Int) = 2 from rfl] at this
    rw [this, Nat.add_comm 2 k]
    rfl
  rw [hs, Res.ok_bind, Res.ok_bind, hk, readUnsigned_ok (by simp; omega)]
  simp only [Res.ok_bind, List.take_take, Nat.min_self]
  have hlen : (r.take k).length = k := by simp; omega
  have hn : beNat (r.take k) < 256 ^ k := by have := beNat_lt (r.take k); rwa [hlen] at this
  have hn4 : k = 4 → beNat (r.take 4) = beNat (r.take k) := by rintro rfl; rfl
  have hn3 : k < 4 → beNat (r.take k) < 2 ^ 24 := by
    intro h
    have : 256 ^ k ≤ 256 ^ 3 := Nat.pow_le_pow_right (by omega) (by omega)
    omega
  generalize beNat (r.take 4) = n4 at *
  generalize beNat (r.take k) = n at *
  have hn32 : n < 2 ^ 32 := by
    have : 256 ^ k ≤ 256 ^ 4 := Nat.pow_le_pow_right (by omega) (by omega)
    omega
  have hnn : (BitVec.ofNat 32 n).toNat = n := by rw [BitVec.toNat_ofNat, Nat.mod_eq_of_lt hn32]
  have d1 : (BitVec.ofNat 32 n < 128) ↔ n < 128 := by rw [BitVec.lt_def, hnn]; rfl
  have d2 : (BitVec.ofNat 32 n >>> ((q - 1) * 8).toNat = 0) ↔ n < 256 ^ (k - 1) := by
    have hsh : ((q - 1) * 8).toNat = (k - 1) * 8 := by
      rw [BitVec.toNat_mul, BitVec.toNat_sub, hk]
      simp; omega
    rw [hsh]
    have : (BitVec.ofNat 32 n >>> ((k - 1) * 8)).toNat = n / 256 ^ (k - 1) := by
      rw [BitVec.toNat_ushiftRight, hnn, Nat.shiftRight_eq_div_pow, Nat.mul_comm, Nat.pow_mul]
    constructor
    · intro h
      rw [h] at this
      have h0 : n / 256 ^ (k - 1) = 0 := by rw [← this]; rfl
      rcases Nat.div_eq_zero_iff.1 h0 with h | h
      · exact absurd h (Nat.pos_iff_ne_zero.1 (Nat.pow_pos (by omega)))
      · exact h
    · intro h
      apply BitVec.eq_of_toNat_eq
      rw [this, Nat.div_eq_of_lt h]; rfl
  have hh : (2 + q.setWidth 32 : Word).toNat = 2 + k := by
    rw [BitVec.toNat_add, BitVec.toNat_setWidth, hk]; simp; omega
  have hsum : (2 + q.setWidth 32 + BitVec.ofNat 32 n : Word).toNat = (2 + k + n) % 2 ^ 32 := by
    rw [BitVec.toNat_add, hh, hnn]
  have d3 : (2 + q.setWidth 32 + BitVec.ofNat 32 n < BitVec.ofNat 32 n) ↔ 2 ^ 32 ≤ 2 + k + n := by
    rw [BitVec.lt_def, hsum, hnn]; omega
  simp only [d1, d2, d3]
  by_cases e1 : n < 128
  · rw [if_pos e1, if_pos e1]
    exact ⟨fun h => by have := hn4 h.1; omega, fun _ => rfl⟩
  by_cases e2 : n < 256 ^ (k - 1)
  · rw [if_neg e1, if_neg e1, if_pos e2, if_pos e2]
    refine ⟨fun h => ?_, fun _ => rfl⟩
    have := hn4 h.1
    rw [h.1] at e2
    simp only [Nat.reduceSub, Nat.reducePow] at e2
    omega
  by_cases e3 : 2 ^ 32 ≤ 2 + k + n
  · rw [if_neg e1, if_neg e1, if_neg e2, if_neg e2, if_pos e3, if_pos e3]
    exact ⟨fun h => by have := hn4 h.1; omega, fun _ => rfl⟩
  rw [if_neg e1, if_neg e1, if_neg e2, if_neg e2, if_neg e3, if_neg e3]
  rw [Nat.mod_eq_of_lt (by omega)] at hsum
  constructor
  · intro h
    have := hn4 h.1
    exact takeElement_large (by rw [hsum]; omega)
  · intro h
    refine takeElement_small ?_ (by rw [hh]; omega)
    rw [hsum]
    by_cases h4 : k = 4
    · have := hn4 h4
      omega
    · have := hn3 (by omega)
      omega

end Verif.CB.P32
