import Verif.Sm2.Exchange
import Verif.Sm2.ExchangeSpec
import Verif.Sm2.CipherLemmas
/-!
# Lemmas about the model of the key exchange
-/
namespace Verif.Sm2
open Verif EC
open Verif.Spec.SM2 (coords fe xbar sharedPoint)

theorem reduce_nat (x : ℕ) : reduce (x : Int) 127 = (xbar x : Int) := by
  have h1 : ((1 : Int) * 2 ^ 127 - 1) = ((2 ^ 127 - 1 : ℕ) : Int) := by norm_num
  have h2 : ((2 : Int) ^ 127) = ((2 ^ 127 : ℕ) : Int) := by norm_num
  unfold reduce xbar
  dsimp only
  rw [h1, h2]
  show ((((x &&& (2 ^ 127 - 1)) ||| 2 ^ 127 : ℕ)) : Int) = _
  rw [Nat.and_two_pow_sub_one_eq_mod, Nat.lor_comm]
  congr 1
  have := Nat.two_pow_add_eq_or_of_lt (i := 127) (b := x % 2 ^ 127) (Nat.mod_lt _ (by norm_num)) 1
  rw [Nat.mul_one] at this
  exact this.symm

theorem mult_enc (Q : Pt) (k : ℕ) : scalarMult cv (enc Q) (intBytes k) = .ok (enc (k • Q)) := by
  by_cases hQ : Q = 0
  · subst hQ
    rw [show enc (0 : Pt) = ((0, 0) : Int × Int) from rfl, mult_zero, show k • (0 : Pt) = 0 from nsmul_zero k]
    rfl
  · rw [mult_int (enc_isAff hQ), Int.natAbs_natCast]

theorem smul_mod (k : ℕ) (Q : Pt) : (k % n) • Q = k • Q := by
  conv_rhs => rw [← Nat.mod_add_div k n]
  rw [add_nsmul, mul_comm n, mul_nsmul', n_smul, nsmul_zero, add_zero]

/-- The point computed by `calculateU`. -/
theorem calculateU_eq {d r x x' : ℕ} {yy : Int} {P R : Pt} {op oe : PublicKey} (hP : (op.X, op.Y) = enc P)
    (hR : (oe.X, oe.Y) = enc R) (hx : oe.X = (x' : Int)) :
    calculateU 127 ⟨d⟩ ⟨r⟩ ⟨x, yy⟩ op oe = .ok (enc (sharedPoint d r x P R x')) := by
  unfold calculateU
  dsimp only
  rw [hx, reduce_nat, reduce_nat, hP]
  have hk1 : (sm2H * ((d : Int) + (xbar x : Int) * (r : Int)) % cv.N) = (((d + xbar x * r) % n : ℕ) : Int) := by
    rw [cv_N, show sm2H = 1 from rfl]; push_cast; rw [one_mul]
  rw [hk1]
  have hk2 : ((((d + xbar x * r) % n : ℕ) : Int) * (xbar x' : Int)) % cv.N = ((((d + xbar x * r) % n) * xbar x' % n : ℕ) : Int) := by
    rw [cv_N]; push_cast; rfl
  rw [hk2, mult_enc, Res.ok_bind, ← hx, hR, mult_enc, Res.ok_bind, cvAdd_spec (enc_isPt _) (enc_isPt _), smul_mod _ R, mul_nsmul']
  unfold sharedPoint
  rw [nsmul_add]

theorem put32_one : put32 (0 + 1) = [0, 0, 0, 1] := by decide +kernel

theorem length_intBytes_pos {x : Int} (h : x ≠ 0) : intBytes x ≠ [] := by
  intro h'
  have := beNat_intBytes x
  rw [h'] at this
  simp [beNat] at this
  omega

theorem hashOf_length {cs : List Bytes} {t : Bytes} (h : hashOf cs = .ok t) : t.length = 32 := by
  rw [(hashOf_ok h).1, hash_length]

/-- A key of at most 16 bytes is cut from one hash. -/
theorem kdfForExch_eq {ux uy keyBits : Int} {za zb : Bytes} {L : ℕ} (hL : Int.tdiv (keyBits + 7) 8 = L) (h0 : 0 < L) (h16 : L ≤ 16) :
    kdfForExch ux uy za zb keyBits = (hashOf [intBytes ux, intBytes uy, za, zb, [0, 0, 0, 1]] >>= fun t => .ok (t.take L)) := by
  unfold kdfForExch
  dsimp only
  rw [hL, makeBytes_nat, Res.ok_bind, if_pos (by norm_num), List.length_replicate]
  rw [show L + 2 = (L + 1) + 1 from rfl, forLoop]
  unfold kdfForExchBody
  dsimp only
  rw [List.length_replicate, if_pos h0]
  have hb : copyAt (List.replicate 16 0) 0 (put32 (0 + 1)) = [0, 0, 0, 1] ++ List.replicate 12 (0 : Byte) := by decide +kernel
  rw [hb]
  have hs : slice ([0, 0, 0, 1] ++ List.replicate 12 (0 : Byte)) 0 4 = .ok [0, 0, 0, 1] := by decide +kernel
  rw [hs, Res.ok_bind]
  rcases hashOf_cases [intBytes ux, intBytes uy, za, zb, [0, 0, 0, 1]] with h | h
  · rw [h]; rfl
  · rw [h, Res.ok_bind, Res.ok_bind]
    generalize hH : Spec.SM3.hash [intBytes ux, intBytes uy, za, zb, [0, 0, 0, 1]].flatten = H
    have hl : H.length = 32 := by rw [← hH, hash_length]
    have s1 : slice H 0 ((16 : ℕ) : Int) = .ok (H.take 16) := by
      unfold slice; rw [if_pos (by omega)]; simp
    rw [s1, Res.ok_bind]
    have hc : copyAt ([0, 0, 0, 1] ++ List.replicate 12 (0 : Byte)) 0 (H.take 16) = H.take 16 :=
      copyAt_full (by rw [List.length_take]; simp; omega)
    rw [hc]
    have s2 : slice (H.take 16) 0 ((L - 0 : ℕ) : Int) = .ok (H.take L) := by
      unfold slice; rw [if_pos (by rw [List.length_take]; omega)]
      simp [List.take_take]; omega
    rw [s2, Res.ok_bind, Res.ok_bind]
    dsimp only
    rw [copyAt_full (by rw [List.length_take, List.length_replicate]; omega), forLoop]
    have hlt : (H.take L).length = L := by rw [List.length_take]; omega
    dsimp only
    rw [hlt, if_neg (by omega)]
    rfl

theorem kdfForExch_zero {ux uy keyBits : Int} {za zb : Bytes} (hL : Int.tdiv (keyBits + 7) 8 = 0) :
    kdfForExch ux uy za zb keyBits = .ok [] := by
  unfold kdfForExch
  dsimp only
  rw [hL]
  rfl

theorem kdfForExch_neg {ux uy keyBits : Int} {za zb : Bytes} (hL : Int.tdiv (keyBits + 7) 8 < 0) :
    kdfForExch ux uy za zb keyBits = .panic := by
  unfold kdfForExch makeBytes
  dsimp only
  rw [if_pos hL]
  rfl

theorem kdfForExch_long {ux uy keyBits : Int} {za zb : Bytes} (hL : 16 < Int.tdiv (keyBits + 7) 8) :
    kdfForExch ux uy za zb keyBits = .panic := by
  obtain ⟨L, hL'⟩ := Int.eq_ofNat_of_zero_le (show 0 ≤ Int.tdiv (keyBits + 7) 8 by omega)
  have hL2 : 16 < L := by omega
  unfold kdfForExch
  dsimp only
  rw [hL', makeBytes_nat, Res.ok_bind, if_pos (by norm_num), List.length_replicate]
  rw [show L + 2 = (L + 1) + 1 from rfl, forLoop]
  unfold kdfForExchBody
  dsimp only
  rw [List.length_replicate, if_pos (by omega)]
  have hb : copyAt (List.replicate 16 0) 0 (put32 (0 + 1)) = [0, 0, 0, 1] ++ List.replicate 12 (0 : Byte) := by decide +kernel
  rw [hb]
  have hs : slice ([0, 0, 0, 1] ++ List.replicate 12 (0 : Byte)) 0 4 = .ok [0, 0, 0, 1] := by decide +kernel
  rw [hs, Res.ok_bind]
  rcases hashOf_cases [intBytes ux, intBytes uy, za, zb, [0, 0, 0, 1]] with h | h
  · rw [h]; rfl
  · rw [h, Res.ok_bind]
    generalize hH : Spec.SM3.hash [intBytes ux, intBytes uy, za, zb, [0, 0, 0, 1]].flatten = H
    have hl : H.length = 32 := by rw [← hH, hash_length]
    have s1 : slice H 0 ((16 : ℕ) : Int) = .ok (H.take 16) := by
      unfold slice; rw [if_pos (by omega)]; simp
    rw [s1, Res.ok_bind]
    have hc : copyAt ([0, 0, 0, 1] ++ List.replicate 12 (0 : Byte)) 0 (H.take 16) = H.take 16 :=
      copyAt_full (by rw [List.length_take]; simp; omega)
    rw [hc]
    have s2 : slice (H.take 16) 0 ((L - 0 : ℕ) : Int) = .panic := by
      unfold slice; rw [if_neg (by rw [List.length_take]; omega)]
    rw [s2]
    rfl

/-- The number of bytes for `keyBits`. -/
theorem tdiv_keyBits {keyBits : Int} (h : 0 ≤ keyBits) : Int.tdiv (keyBits + 7) 8 = ((keyBits.toNat + 7) / 8 : ℕ) := by
  rw [Int.tdiv_eq_ediv_of_nonneg (by omega)]
  omega

end Verif.Sm2
