import Verif.Sm2.OtherCurve
import Verif.Sm2.SignLemmas
import Verif.Sm2.Exchange
/-!
# C123: public keys that are no point of the curve

Property: an operation with a public key from outside must be safe against a key that is not a point of prime order of
the SM2 curve: what `Encrypt` returns must be closed to those who see it, `VerifyByRS` must not accept what nobody
signed, the exchanged key must not be computable from public values.

The code does not check the key (`/repo/sm2/sm2.go:262-306`, `543-575`, `/repo/sm2/keyexchange.go:105-144`), and the
curve arithmetic never reads the coefficient `B`, so it computes on whatever curve the pair lies. Those curves have
points of small order.
-/
namespace Verif.Props
open Verif Sm2 EC Spec.SM2

/-- C123, what the code computes: for a pair of numbers that is not on the SM2 curve `ScalarMult` gives the multiples of
the pair in the group of the curve `y² = x³ - 3x + b` on which the pair lies. -/
theorem C123_other_curve (x y : Int) (h : Usable x y) :
    ∃ Q : (curveOf p (y ^ 2 - x ^ 3 + 3 * x)).Point, enc Q = (x % p, y % p) ∧
      ∀ k : ℕ, scalarMult cv (x, y) (intBytes k) = .ok (enc (k • Q)) := by
  refine ⟨ptThrough h, ?_, fun k => ?_⟩
  · show (((x : ZMod p).val : Int), ((y : ZMod p).val : Int)) = _
    rw [ZMod.val_intCast, ZMod.val_intCast]
  · rw [mult_other h, beNat_intBytes, Int.natAbs_natCast]
    rfl

/-- (2, 0) is no point of the SM2 curve, but usable; it has order 2 on its own curve. -/
theorem usable_two : Usable 2 0 ∧ isOnCurve cv 2 0 = false ∧ scalarMult cv (2, 0) (intBytes (2 : ℕ)) = .ok (0, 0) :=
  ⟨⟨by rw [p_val]; decide +kernel, by rw [p_val]; decide +kernel⟩, by decide +kernel, by decide +kernel⟩

theorem usable_five : Usable 5 0 ∧ isOnCurve cv 5 0 = false ∧ scalarMult cv (5, 0) (intBytes (2 : ℕ)) = .ok (0, 0) :=
  ⟨⟨by rw [p_val]; decide +kernel, by rw [p_val]; decide +kernel⟩, by decide +kernel, by decide +kernel⟩

/-- The second coordinate of a point of order 3 above 2. -/
def yThree : Int := 0xd2fe2145a107ea2644177798876894d992f17abd42d9bea67834aa9ec001205f

theorem usable_three : Usable 2 yThree ∧ isOnCurve cv 2 yThree = false ∧
    scalarMult cv (2, yThree) (intBytes (3 : ℕ)) = .ok (0, 0) ∧ scalarMult cv (2, yThree) (intBytes (1 : ℕ)) ≠ .ok (0, 0) :=
  ⟨⟨by rw [p_val]; decide +kernel, by rw [p_val]; decide +kernel⟩, by decide +kernel, by decide +kernel, by decide +kernel⟩

/-- The points of the SM2 curve are usable as well. -/
example : Usable cv.Gx cv.Gy := ⟨by rw [p_val]; decide +kernel, by rw [p_val]; decide +kernel⟩

/-- C123 fails: for a pair of small order a secret scalar counts only modulo that order. -/
theorem C123_period_violated (x y : Int) (h : Usable x y) (m : ℕ) (hm : scalarMult cv (x, y) (intBytes m) = .ok (0, 0))
    (k k' : ℕ) (hk : k % m = k' % m) : scalarMult cv (x, y) (intBytes k) = scalarMult cv (x, y) (intBytes k') := by
  rw [mult_mod h hm k, mult_mod h hm k', Int.natAbs_natCast, Int.natAbs_natCast, hk]

example (k : ℕ) : scalarMult cv (2, 0) (intBytes (2 * k : ℕ)) = .ok (0, 0) := by
  rw [C123_period_violated 2 0 usable_two.1 2 usable_two.2.2 (2 * k) 2 (by omega)]
  exact usable_two.2.2

/-! ## Encryption -/

/-- Opening a ciphertext for `pub` with a guess of the nonce modulo the order of `pub`. No key enters. -/
def openGuess (pub : PublicKey) (j : ℕ) (c : Bytes) (t : Int) : Res Bytes := do
  let q ← scalarMult cv (pub.X, pub.Y) (intBytes j)
  decryptRest q 65 c t

/-- C123 fails for `Encrypt`: when the public key has order `m`, one of `m` guesses opens the ciphertext. -/
theorem C123_encrypt_violated (x y : Int) (h : Usable x y) (m : ℕ) (hm0 : 0 < m)
    (hm : scalarMult cv (x, y) (intBytes m) = .ok (0, 0)) (M : Bytes) (t : Int) (tape : Tape) (c : Bytes)
    (hc : encrypt ⟨x, y⟩ M t tape = .ok c) : ∃ j < m, openGuess ⟨x, y⟩ j c t = .ok M := by
  have hk : ∀ k : ℕ, ∃ r : ℕ × ℕ, enc (k • ptThrough h) = ((r.1 : Int), (r.2 : Int)) ∧ r.1 < 2 ^ 256 ∧ r.2 < 2 ^ 256 := by
    intro k
    obtain ⟨a, b, h1, h2, h3⟩ := enc_nat_other (k • ptThrough h)
    exact ⟨(a, b), h1, h2, h3⟩
  choose kp hkp using hk
  have hpub : ∀ k : ℕ, scalarMult cv (x, y) (intBytes k) = .ok (((kp k).1 : Int), ((kp k).2 : Int)) := fun k => by
    rw [mult_other h, beNat_intBytes, Int.natAbs_natCast, (hkp k).1]
  obtain ⟨k, x1, y1, _, _, _, _, ht, _, h5, _, h7⟩ := encrypt_ok (kp := kp) (fun k => (hkp k).2) hpub hc
  refine ⟨k % m, Nat.mod_lt _ hm0, ?_⟩
  unfold openGuess
  dsimp only
  have := mult_mod h hm (k : Int)
  rw [Int.natAbs_natCast] at this
  rw [← this, hpub, Res.ok_bind, h7,
    decryptRest_eq (hkp k).2.1 (hkp k).2.2 (c1 := 4 :: (fe x1 ++ fe y1)) (by simp [length_fe]) (hash_length _) ht]
  have hl : (stream (kp k).1 (kp k).2 0 M.length).length = M.length := length_stream ..
  have hz : (List.zipWith (· ^^^ ·) M (stream (kp k).1 (kp k).2 0 M.length)).length = M.length := by
    rw [List.length_zipWith, hl, Nat.min_self]
  rw [hz, zipWith_xor_self _ _ hl, h5, Res.ok_bind, if_pos rfl]

/-- The length of a result, 0 without one. -/
def resultLength : Res Bytes → ℕ
  | .ok c => c.length
  | _ => 0

/-- A ciphertext for the public key (2, 0) exists; it is opened by one of two guesses. -/
theorem encrypt_two : resultLength (encrypt ⟨2, 0⟩ [0x61, 0x62] 1 [some (toBE 32 3)]) = 99 := by
  decide +kernel

theorem ok_of_length {x : Res Bytes} {k : ℕ} (h : resultLength x = k) (hk : k ≠ 0) :
    ∃ c, x = .ok c := by
  cases x with
  | ok c => exact ⟨c, rfl⟩
  | err e => exact absurd h.symm hk
  | panic => exact absurd h.symm hk
  | loop => exact absurd h.symm hk

example : ∃ c, encrypt ⟨2, 0⟩ [0x61, 0x62] 1 [some (toBE 32 3)] = .ok c ∧ ∃ j < 2, openGuess ⟨2, 0⟩ j c 1 = .ok [0x61, 0x62] := by
  obtain ⟨c, hc⟩ := ok_of_length encrypt_two (by decide)
  exact ⟨c, hc, C123_encrypt_violated 2 0 usable_two.1 2 (by decide) usable_two.2.2 _ _ _ c hc⟩

/-! ## Signatures -/

/-- C123 fails for `VerifyByRS`: when the public key has order `m`, anyone makes a signature for any message. They take
any `s`, compute `r` from the hash of the message and `s·G`, and are done when `m` divides `(r + s) mod N`. -/
theorem C123_forgery_violated (x y : Int) (h : Usable x y) (m : ℕ) (hm : scalarMult cv (x, y) (intBytes m) = .ok (0, 0))
    (id : Option Bytes) (M : Bytes) (e s : Int) (sg : Int × Int) (he : calculateE x y (id.getD defaultUserId) M = .ok e)
    (hs : 1 ≤ s) (hs' : s < cv.N) (hg : scalarBaseMult cv (intBytes s) = .ok sg) (hr : (e + sg.1) % cv.N ≠ 0)
    (ht : ((e + sg.1) % cv.N + s) % cv.N ≠ 0) (hd : (m : Int) ∣ ((e + sg.1) % cv.N + s) % cv.N) :
    verifyByRS ⟨x, y⟩ id M ((e + sg.1) % cv.N) s = .ok true := by
  have hn := n_gt
  rw [cv_N] at *
  have h0 : 0 ≤ (e + sg.1) % (n : Int) := Int.emod_nonneg _ (by omega)
  have h1 : (e + sg.1) % (n : Int) < n := Int.emod_lt_of_pos _ (by omega)
  have h2 : ∀ t : Int, (m : Int) ∣ t → scalarMult cv (x, y) (intBytes t) = .ok (0, 0) := by
    intro t ht
    rw [mult_mod h hm t, show t.natAbs % m = 0 from Nat.mod_eq_zero_of_dvd (Int.natCast_dvd.1 ht)]
    rfl
  rw [baseMult_int, Res.ok.injEq] at hg
  have hsg : s.natAbs • G ≠ 0 := fun h0 => not_dvd_of_lt (by omega) (by omega) ((smul_eq_zero G_ne_zero).1 h0)
  unfold verifyByRS
  dsimp only
  rw [cv_N, if_neg (by omega), if_neg (by omega), he, Res.ok_bind, if_neg ht, baseMult_int, Res.ok_bind, h2 _ hd,
    Res.ok_bind, show ((0, 0) : Int × Int) = enc (0 : Pt) from rfl, cvAdd_spec (enc_isPt _) (enc_isPt _), Res.ok_bind, add_zero,
    if_neg (fun h => hsg ((isInf_enc _).1 h)), hg]
  simp

/-- The hash of the message "a" for the public key (2, 0). -/
def eTwo : Int := 74960639737388871061737180323746559297197500355787789713358681780653095716847

theorem eTwo_spec : calculateE 2 0 defaultUserId [0x61] = .ok eTwo := by decide +kernel

/-- The point `3·G`. -/
def threeG : Int × Int := (0xa97f7cd4b3c993b4be2daa8cdb41e24ca13f6bd945302244e26918f1d0509ebf,
  0x530b5dd88c688ef5ccc5cec08a72150f7c400ee5cd045292aaacdd037458f6e6)

theorem threeG_spec : scalarBaseMult cv (intBytes 3) = .ok threeG := by decide +kernel

/-- The forged signature of the message "a" under the public key (2, 0), with `s = 3`. -/
example : verifyByRS ⟨2, 0⟩ none [0x61]
    35834673065821016383222081205668632516139879130991455188904282964947469886859 3 = .ok true := by
  have := C123_forgery_violated 2 0 usable_two.1 2 usable_two.2.2 none [0x61] eTwo 3 threeG eTwo_spec (by decide)
    (by decide +kernel) threeG_spec (by decide +kernel) (by decide +kernel) (by decide +kernel)
  rw [show (eTwo + threeG.1) % cv.N = 35834673065821016383222081205668632516139879130991455188904282964947469886859 by decide +kernel] at this
  exact this

/-! ## Key exchange -/

/-- What `CalculateKeyWithConfirmation` returns, computed without any private key from two guesses: the multiples of the
static and of the ephemeral public key of the other side. -/
def exchangeGuess (initiator : Bool) (keyBits : Int) (tag : Option Bytes) (selfStatic selfEphemeral : PublicKey)
    (selfId : Option Bytes) (otherStatic otherEphemeral : PublicKey) (otherId : Option Bytes) (i j : ℕ) : Res ExchangeResult :=
  if initiator = true ∧ tag = none then .err "if initiating, confirmationTag must be set"
  else do
    let za ← getZ selfStatic.X selfStatic.Y (selfId.getD [])
    let zb ← getZ otherStatic.X otherStatic.Y (otherId.getD [])
    let p1 ← scalarMult cv (otherStatic.X, otherStatic.Y) (intBytes i)
    let p2 ← scalarMult cv (otherEphemeral.X, otherEphemeral.Y) (intBytes j)
    let u ← EC.add cv p1 p2
    if initiator then initiatorPart keyBits (tag.getD []) u za zb selfEphemeral otherEphemeral
    else responderPart keyBits u za zb selfEphemeral otherEphemeral

/-- C123 fails for the key exchange: against keys of the orders `m1` and `m2` one of `m1·m2` guesses gives the key and the
confirmation values. The guess that fits tells the secret `d + x̄·r mod N` modulo `m1`. -/
theorem C123_exchange_violated (initiator : Bool) (keyBits : Int) (tag : Option Bytes) (d r : PrivateKey) (A R : PublicKey)
    (hA : calculatePubKey d = .ok A) (hR : calculatePubKey r = .ok R) (selfId otherId : Option Bytes) (x1 y1 x2 y2 : Int)
    (h1 : Usable x1 y1) (h2 : Usable x2 y2) (m1 m2 : ℕ) (hm1 : 0 < m1) (hm2 : 0 < m2)
    (ho1 : scalarMult cv (x1, y1) (intBytes m1) = .ok (0, 0)) (ho2 : scalarMult cv (x2, y2) (intBytes m2) = .ok (0, 0)) :
    ∃ i < m1, ∃ j < m2, (i : Int) = (d.D + reduce R.X 127 * r.D) % cv.N % m1 ∧
      (j : Int) = (d.D + reduce R.X 127 * r.D) % cv.N * reduce x2 127 % cv.N % m2 ∧
      calculateKeyWithConfirmation initiator keyBits tag d r selfId ⟨x1, y1⟩ ⟨x2, y2⟩ otherId =
        exchangeGuess initiator keyBits tag A R selfId ⟨x1, y1⟩ ⟨x2, y2⟩ otherId i j := by
  have hn := n_gt
  have hN : (0 : Int) < cv.N := by rw [cv_N]; omega
  have hk1 : 0 ≤ (d.D + reduce R.X 127 * r.D) % cv.N := Int.emod_nonneg _ (by omega)
  have hk2 : 0 ≤ (d.D + reduce R.X 127 * r.D) % cv.N * reduce x2 127 % cv.N := Int.emod_nonneg _ (by omega)
  refine ⟨((d.D + reduce R.X 127 * r.D) % cv.N).natAbs % m1, Nat.mod_lt _ hm1,
    ((d.D + reduce R.X 127 * r.D) % cv.N * reduce x2 127 % cv.N).natAbs % m2, Nat.mod_lt _ hm2, ?_, ?_, ?_⟩
  · rw [Int.natCast_mod, Int.natAbs_of_nonneg hk1]
  · rw [Int.natCast_mod, Int.natAbs_of_nonneg hk2]
  unfold calculateKeyWithConfirmation exchangeGuess
  dsimp only
  split
  · rfl
  rw [hA, Res.ok_bind, hR]
  congr 1; funext za
  congr 1; funext zb
  rw [Res.ok_bind]
  unfold calculateU
  dsimp only
  rw [show cv.bitSize / 2 - 1 = 127 from rfl, show sm2H = 1 from rfl, one_mul, ← mult_mod h1 ho1, ← mult_mod h2 ho2]
  simp only [bind_assoc]

/-- The common point for the guesses 1 and 1 is not at infinity. -/
example : (match EC.add cv (2, 0) (5, 0) with | .ok u => decide (u.1 ≠ 0) | _ => false) = true := by decide +kernel

/-- An exchange with (2, 0) and (5, 0) on the other side: the result is one of four. -/
example : ∃ A R : PublicKey, ∃ i < 2, ∃ j < 2, calculateKeyWithConfirmation false 128 none ⟨5⟩ ⟨7⟩ none ⟨2, 0⟩ ⟨5, 0⟩ none =
    exchangeGuess false 128 none A R none ⟨2, 0⟩ ⟨5, 0⟩ none i j := by
  obtain ⟨A, hA⟩ : ∃ A, calculatePubKey ⟨5⟩ = .ok A := by
    unfold calculatePubKey; rw [baseMult_int]; exact ⟨_, rfl⟩
  obtain ⟨R, hR⟩ : ∃ R, calculatePubKey ⟨7⟩ = .ok R := by
    unfold calculatePubKey; rw [baseMult_int]; exact ⟨_, rfl⟩
  obtain ⟨i, hi, j, hj, _, _, h⟩ := C123_exchange_violated false 128 none ⟨5⟩ ⟨7⟩ A R hA hR none none 2 0 5 0 usable_two.1
    usable_five.1 2 2 (by decide) (by decide) usable_two.2.2 usable_five.2.2
  exact ⟨A, R, i, hi, j, hj, h⟩

end Verif.Props
