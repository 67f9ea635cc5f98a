import Mathlib.NumberTheory.LucasPrimality
import Mathlib.Tactic.NormNum.Prime
import Mathlib.Data.Nat.Prime.Basic
import Mathlib.Algebra.BigOperators.Group.List.Basic
/-!
# The two SM2 primes

`P`, the field modulus, and `N`, the group order, of /repo/sm2/sm2.go:79-82 are prime. Pratt certificates: for
each prime `q` a primitive root and the factors of `q - 1`, checked by modular exponentiation in the kernel.
-/
namespace Verif.EC

/-- `b ^ e % m` by squaring; `fuel` bounds the number of bits of `e`. -/
def powMod : Nat → Nat → Nat → Nat → Nat
  | 0, _, _, m => 1 % m
  | fuel + 1, b, e, m =>
    if e = 0 then 1 % m
    else if e % 2 = 0 then powMod fuel (b * b % m) (e / 2) m
    else b * powMod fuel (b * b % m) (e / 2) m % m

theorem powMod_eq (m : Nat) : ∀ fuel b e, e < 2 ^ fuel → powMod fuel b e m = b ^ e % m
  | 0, b, e, h => by
    have : e = 0 := by simpa using h
    simp [powMod, this]
  | fuel + 1, b, e, h => by
    have he : e / 2 < 2 ^ fuel := by rw [Nat.pow_succ] at h; omega
    unfold powMod
    split
    · simp_all
    · have h2 : (b * b % m) ^ (e / 2) % m = (b * b) ^ (e / 2) % m := (Nat.pow_mod _ _ _).symm
      split
      · rw [powMod_eq m fuel _ _ he, h2, ← pow_two, ← pow_mul]
        congr 2; omega
      · rw [powMod_eq m fuel _ _ he, h2, Nat.mul_mod, Nat.mod_mod, ← Nat.mul_mod, ← pow_two, ← pow_mul, ← pow_succ']
        congr 2; omega

/-- The check made for one entry of a certificate. -/
def prattCheck (n g : Nat) (fs : List Nat) : Bool :=
  decide (1 < n ∧ n < 2 ^ 256 ∧ fs.prod = n - 1 ∧ powMod 256 g (n - 1) n = 1 ∧
    ∀ q ∈ fs, powMod 256 g ((n - 1) / q) n ≠ 1)

theorem prime_of_pratt (n g : Nat) (fs : List Nat) (hc : prattCheck n g fs = true) (hf : ∀ q ∈ fs, q.Prime) :
    n.Prime := by
  simp only [prattCheck, decide_eq_true_eq] at hc
  obtain ⟨h1, h256, hprod, hone, hne⟩ := hc
  have key : ∀ e, e < 2 ^ 256 → ((g : ZMod n) ^ e = 1 ↔ powMod 256 g e n = 1) := by
    intro e he
    rw [powMod_eq n 256 g e he, show (1 : ZMod n) = ((1 : ℕ) : ZMod n) by simp, ← Nat.cast_pow,
      ZMod.natCast_eq_natCast_iff, Nat.ModEq, Nat.mod_eq_of_lt h1]
  refine lucas_primality n (g : ZMod n) ((key _ (by omega)).2 hone) ?_
  intro q hq hd h
  have hmem : q ∈ fs := by
    rw [← hprod] at hd
    obtain ⟨r, hr, hqr⟩ := (Prime.dvd_prod_iff hq.prime).1 hd
    rwa [(Nat.prime_dvd_prime_iff_eq hq (hf r hr)).1 hqr]
  refine hne q hmem ((key _ ?_).1 h)
  have := Nat.div_le_self (n - 1) q
  omega

private theorem p2 : Nat.Prime 2 := by norm_num
private theorem p3 : Nat.Prime 3 := by norm_num
private theorem p5 : Nat.Prime 5 := by norm_num
private theorem p7 : Nat.Prime 7 := by norm_num
private theorem p11 : Nat.Prime 11 := by norm_num
private theorem p13 : Nat.Prime 13 := by norm_num
private theorem p17 : Nat.Prime 17 := by norm_num
private theorem p23 : Nat.Prime 23 := by norm_num
private theorem p29 : Nat.Prime 29 := by norm_num
private theorem p31 : Nat.Prime 31 := by norm_num
private theorem p37 : Nat.Prime 37 := by norm_num
private theorem p41 : Nat.Prime 41 := by norm_num
private theorem p43 : Nat.Prime 43 := by norm_num
private theorem p53 : Nat.Prime 53 := by norm_num
private theorem p59 : Nat.Prime 59 := by norm_num
private theorem p61 : Nat.Prime 61 := by norm_num
private theorem p67 : Nat.Prime 67 := by norm_num
private theorem p71 : Nat.Prime 71 := by norm_num
private theorem p73 : Nat.Prime 73 := by norm_num
private theorem p79 : Nat.Prime 79 := by norm_num
private theorem p83 : Nat.Prime 83 := by norm_num
private theorem p97 : Nat.Prime 97 := by norm_num
private theorem p101 : Nat.Prime 101 := by norm_num
private theorem p103 : Nat.Prime 103 := by norm_num
private theorem p127 : Nat.Prime 127 := by norm_num
private theorem p181 : Nat.Prime 181 := by norm_num
private theorem p233 : Nat.Prime 233 := by norm_num
private theorem p241 : Nat.Prime 241 := by norm_num
private theorem p251 : Nat.Prime 251 := by norm_num
private theorem p337 : Nat.Prime 337 := by norm_num
private theorem p367 : Nat.Prime 367 := by norm_num
private theorem p431 : Nat.Prime 431 := by norm_num
private theorem p571 : Nat.Prime 571 := by norm_num
private theorem p719 : Nat.Prime 719 := by norm_num
private theorem p743 : Nat.Prime 743 := by norm_num
private theorem p769 : Nat.Prime 769 := by norm_num
private theorem p823 : Nat.Prime 823 := by norm_num
private theorem p1013 : Nat.Prime 1013 := by norm_num
private theorem p1213 : Nat.Prime 1213 := by norm_num
private theorem p1447 : Nat.Prime 1447 := by norm_num
private theorem p71209 : Nat.Prime 71209 := by
  refine prime_of_pratt _ 7 [2, 2, 2, 3, 3, 23, 43] (by decide +kernel) ?_
  simp only [List.mem_cons, List.not_mem_nil, or_false]
  rintro q (rfl | rfl | rfl | rfl | rfl | rfl | rfl)
  · exact p2
  · exact p2
  · exact p2
  · exact p3
  · exact p3
  · exact p23
  · exact p43
private theorem p54983 : Nat.Prime 54983 := by
  refine prime_of_pratt _ 5 [2, 37, 743] (by decide +kernel) ?_
  simp only [List.mem_cons, List.not_mem_nil, or_false]
  rintro q (rfl | rfl | rfl)
  · exact p2
  · exact p37
  · exact p743
private theorem p3079049 : Nat.Prime 3079049 := by
  refine prime_of_pratt _ 3 [2, 2, 2, 7, 54983] (by decide +kernel) ?_
  simp only [List.mem_cons, List.not_mem_nil, or_false]
  rintro q (rfl | rfl | rfl | rfl | rfl)
  · exact p2
  · exact p2
  · exact p2
  · exact p7
  · exact p54983
private theorem p6158099 : Nat.Prime 6158099 := by
  refine prime_of_pratt _ 2 [2, 3079049] (by decide +kernel) ?_
  simp only [List.mem_cons, List.not_mem_nil, or_false]
  rintro q (rfl | rfl)
  · exact p2
  · exact p3079049
private theorem p34511 : Nat.Prime 34511 := by
  refine prime_of_pratt _ 7 [2, 5, 7, 17, 29] (by decide +kernel) ?_
  simp only [List.mem_cons, List.not_mem_nil, or_false]
  rintro q (rfl | rfl | rfl | rfl | rfl)
  · exact p2
  · exact p5
  · exact p7
  · exact p17
  · exact p29
private theorem p2273 : Nat.Prime 2273 := by
  refine prime_of_pratt _ 3 [2, 2, 2, 2, 2, 71] (by decide +kernel) ?_
  simp only [List.mem_cons, List.not_mem_nil, or_false]
  rintro q (rfl | rfl | rfl | rfl | rfl | rfl)
  · exact p2
  · exact p2
  · exact p2
  · exact p2
  · exact p2
  · exact p71
private theorem p4547 : Nat.Prime 4547 := by
  refine prime_of_pratt _ 2 [2, 2273] (by decide +kernel) ?_
  simp only [List.mem_cons, List.not_mem_nil, or_false]
  rintro q (rfl | rfl)
  · exact p2
  · exact p2273
private theorem p363761 : Nat.Prime 363761 := by
  refine prime_of_pratt _ 3 [2, 2, 2, 2, 5, 4547] (by decide +kernel) ?_
  simp only [List.mem_cons, List.not_mem_nil, or_false]
  rintro q (rfl | rfl | rfl | rfl | rfl | rfl)
  · exact p2
  · exact p2
  · exact p2
  · exact p2
  · exact p5
  · exact p4547
private theorem p4773264379806847 : Nat.Prime 4773264379806847 := by
  refine prime_of_pratt _ 3 [2, 3, 7, 11, 823, 34511, 363761] (by decide +kernel) ?_
  simp only [List.mem_cons, List.not_mem_nil, or_false]
  rintro q (rfl | rfl | rfl | rfl | rfl | rfl | rfl)
  · exact p2
  · exact p3
  · exact p7
  · exact p11
  · exact p823
  · exact p34511
  · exact p363761
private theorem p66013261729388519804782124120027 : Nat.Prime 66013261729388519804782124120027 := by
  refine prime_of_pratt _ 2 [2, 13, 1213, 71209, 6158099, 4773264379806847] (by decide +kernel) ?_
  simp only [List.mem_cons, List.not_mem_nil, or_false]
  rintro q (rfl | rfl | rfl | rfl | rfl | rfl)
  · exact p2
  · exact p13
  · exact p1213
  · exact p71209
  · exact p6158099
  · exact p4773264379806847
private theorem p5711 : Nat.Prime 5711 := by
  refine prime_of_pratt _ 19 [2, 5, 571] (by decide +kernel) ?_
  simp only [List.mem_cons, List.not_mem_nil, or_false]
  rintro q (rfl | rfl | rfl)
  · exact p2
  · exact p5
  · exact p571
private theorem p3017783777 : Nat.Prime 3017783777 := by
  refine prime_of_pratt _ 3 [2, 2, 2, 2, 2, 7, 7, 337, 5711] (by decide +kernel) ?_
  simp only [List.mem_cons, List.not_mem_nil, or_false]
  rintro q (rfl | rfl | rfl | rfl | rfl | rfl | rfl | rfl | rfl)
  · exact p2
  · exact p2
  · exact p2
  · exact p2
  · exact p2
  · exact p7
  · exact p7
  · exact p337
  · exact p5711
private theorem p4641351449027 : Nat.Prime 4641351449027 := by
  refine prime_of_pratt _ 2 [2, 769, 3017783777] (by decide +kernel) ?_
  simp only [List.mem_cons, List.not_mem_nil, or_false]
  rintro q (rfl | rfl | rfl)
  · exact p2
  · exact p769
  · exact p3017783777
private theorem p2473 : Nat.Prime 2473 := by
  refine prime_of_pratt _ 5 [2, 2, 2, 3, 103] (by decide +kernel) ?_
  simp only [List.mem_cons, List.not_mem_nil, or_false]
  rintro q (rfl | rfl | rfl | rfl | rfl)
  · exact p2
  · exact p2
  · exact p2
  · exact p3
  · exact p103
private theorem p8214737 : Nat.Prime 8214737 := by
  refine prime_of_pratt _ 3 [2, 2, 2, 2, 67, 79, 97] (by decide +kernel) ?_
  simp only [List.mem_cons, List.not_mem_nil, or_false]
  rintro q (rfl | rfl | rfl | rfl | rfl | rfl | rfl)
  · exact p2
  · exact p2
  · exact p2
  · exact p2
  · exact p67
  · exact p79
  · exact p97
private theorem p417514796639753 : Nat.Prime 417514796639753 := by
  refine prime_of_pratt _ 3 [2, 2, 2, 7, 367, 2473, 8214737] (by decide +kernel) ?_
  simp only [List.mem_cons, List.not_mem_nil, or_false]
  rintro q (rfl | rfl | rfl | rfl | rfl | rfl | rfl)
  · exact p2
  · exact p2
  · exact p2
  · exact p7
  · exact p367
  · exact p2473
  · exact p8214737
private theorem p179429 : Nat.Prime 179429 := by
  refine prime_of_pratt _ 2 [2, 2, 31, 1447] (by decide +kernel) ?_
  simp only [List.mem_cons, List.not_mem_nil, or_false]
  rintro q (rfl | rfl | rfl | rfl)
  · exact p2
  · exact p2
  · exact p31
  · exact p1447
private theorem p5303 : Nat.Prime 5303 := by
  refine prime_of_pratt _ 5 [2, 11, 241] (by decide +kernel) ?_
  simp only [List.mem_cons, List.not_mem_nil, or_false]
  rintro q (rfl | rfl | rfl)
  · exact p2
  · exact p11
  · exact p241
private theorem p348253387243 : Nat.Prime 348253387243 := by
  refine prime_of_pratt _ 3 [2, 3, 61, 5303, 179429] (by decide +kernel) ?_
  simp only [List.mem_cons, List.not_mem_nil, or_false]
  rintro q (rfl | rfl | rfl | rfl | rfl)
  · exact p2
  · exact p3
  · exact p61
  · exact p5303
  · exact p179429
private theorem p30223 : Nat.Prime 30223 := by
  refine prime_of_pratt _ 3 [2, 3, 3, 23, 73] (by decide +kernel) ?_
  simp only [List.mem_cons, List.not_mem_nil, or_false]
  rintro q (rfl | rfl | rfl | rfl | rfl)
  · exact p2
  · exact p3
  · exact p3
  · exact p23
  · exact p73
/-- The field modulus of /repo/sm2/sm2.go:79 is prime. -/
theorem prime_P : Nat.Prime 0xFFFFFFFEFFFFFFFFFFFFFFFFFFFFFFFFFFFFFFFF00000000FFFFFFFFFFFFFFFF := by
  refine prime_of_pratt _ 13 [2, 43, 30223, 348253387243, 4641351449027, 417514796639753, 66013261729388519804782124120027] (by decide +kernel) ?_
  simp only [List.mem_cons, List.not_mem_nil, or_false]
  rintro q (rfl | rfl | rfl | rfl | rfl | rfl | rfl)
  · exact p2
  · exact p43
  · exact p30223
  · exact p348253387243
  · exact p4641351449027
  · exact p417514796639753
  · exact p66013261729388519804782124120027
private theorem p4957 : Nat.Prime 4957 := by
  refine prime_of_pratt _ 2 [2, 2, 3, 7, 59] (by decide +kernel) ?_
  simp only [List.mem_cons, List.not_mem_nil, or_false]
  rintro q (rfl | rfl | rfl | rfl | rfl)
  · exact p2
  · exact p2
  · exact p3
  · exact p7
  · exact p59
private theorem p10042883 : Nat.Prime 10042883 := by
  refine prime_of_pratt _ 2 [2, 1013, 4957] (by decide +kernel) ?_
  simp only [List.mem_cons, List.not_mem_nil, or_false]
  rintro q (rfl | rfl | rfl)
  · exact p2
  · exact p1013
  · exact p4957
private theorem p2368433183657 : Nat.Prime 2368433183657 := by
  refine prime_of_pratt _ 3 [2, 2, 2, 41, 719, 10042883] (by decide +kernel) ?_
  simp only [List.mem_cons, List.not_mem_nil, or_false]
  rintro q (rfl | rfl | rfl | rfl | rfl | rfl)
  · exact p2
  · exact p2
  · exact p2
  · exact p41
  · exact p719
  · exact p10042883
private theorem p3258964060712033 : Nat.Prime 3258964060712033 := by
  refine prime_of_pratt _ 3 [2, 2, 2, 2, 2, 43, 2368433183657] (by decide +kernel) ?_
  simp only [List.mem_cons, List.not_mem_nil, or_false]
  rintro q (rfl | rfl | rfl | rfl | rfl | rfl | rfl)
  · exact p2
  · exact p2
  · exact p2
  · exact p2
  · exact p2
  · exact p43
  · exact p2368433183657
private theorem p17965699 : Nat.Prime 17965699 := by
  refine prime_of_pratt _ 2 [2, 3, 71, 181, 233] (by decide +kernel) ?_
  simp only [List.mem_cons, List.not_mem_nil, or_false]
  rintro q (rfl | rfl | rfl | rfl | rfl)
  · exact p2
  · exact p3
  · exact p71
  · exact p181
  · exact p233
private theorem p3037 : Nat.Prime 3037 := by
  refine prime_of_pratt _ 2 [2, 2, 3, 11, 23] (by decide +kernel) ?_
  simp only [List.mem_cons, List.not_mem_nil, or_false]
  rintro q (rfl | rfl | rfl | rfl | rfl)
  · exact p2
  · exact p2
  · exact p3
  · exact p11
  · exact p23
private theorem p12149 : Nat.Prime 12149 := by
  refine prime_of_pratt _ 2 [2, 2, 3037] (by decide +kernel) ?_
  simp only [List.mem_cons, List.not_mem_nil, or_false]
  rintro q (rfl | rfl | rfl)
  · exact p2
  · exact p2
  · exact p3037
private theorem p107615843 : Nat.Prime 107615843 := by
  refine prime_of_pratt _ 2 [2, 43, 103, 12149] (by decide +kernel) ?_
  simp only [List.mem_cons, List.not_mem_nil, or_false]
  rintro q (rfl | rfl | rfl | rfl)
  · exact p2
  · exact p43
  · exact p103
  · exact p12149
private theorem p5801 : Nat.Prime 5801 := by
  refine prime_of_pratt _ 3 [2, 2, 2, 5, 5, 29] (by decide +kernel) ?_
  simp only [List.mem_cons, List.not_mem_nil, or_false]
  rintro q (rfl | rfl | rfl | rfl | rfl | rfl)
  · exact p2
  · exact p2
  · exact p2
  · exact p5
  · exact p5
  · exact p29
private theorem p9061163 : Nat.Prime 9061163 := by
  refine prime_of_pratt _ 2 [2, 11, 71, 5801] (by decide +kernel) ?_
  simp only [List.mem_cons, List.not_mem_nil, or_false]
  rintro q (rfl | rfl | rfl | rfl)
  · exact p2
  · exact p11
  · exact p71
  · exact p5801
private theorem p5636460199499 : Nat.Prime 5636460199499 := by
  refine prime_of_pratt _ 2 [2, 31, 79, 127, 9061163] (by decide +kernel) ?_
  simp only [List.mem_cons, List.not_mem_nil, or_false]
  rintro q (rfl | rfl | rfl | rfl | rfl)
  · exact p2
  · exact p31
  · exact p79
  · exact p127
  · exact p9061163
private theorem p101456283590983 : Nat.Prime 101456283590983 := by
  refine prime_of_pratt _ 3 [2, 3, 3, 5636460199499] (by decide +kernel) ?_
  simp only [List.mem_cons, List.not_mem_nil, or_false]
  rintro q (rfl | rfl | rfl | rfl)
  · exact p2
  · exact p3
  · exact p3
  · exact p5636460199499
private theorem p3049 : Nat.Prime 3049 := by
  refine prime_of_pratt _ 11 [2, 2, 2, 3, 127] (by decide +kernel) ?_
  simp only [List.mem_cons, List.not_mem_nil, or_false]
  rintro q (rfl | rfl | rfl | rfl | rfl)
  · exact p2
  · exact p2
  · exact p2
  · exact p3
  · exact p127
private theorem p84163 : Nat.Prime 84163 := by
  refine prime_of_pratt _ 2 [2, 3, 13, 13, 83] (by decide +kernel) ?_
  simp only [List.mem_cons, List.not_mem_nil, or_false]
  rintro q (rfl | rfl | rfl | rfl | rfl)
  · exact p2
  · exact p3
  · exact p13
  · exact p13
  · exact p83
private theorem p2566129871 : Nat.Prime 2566129871 := by
  refine prime_of_pratt _ 7 [2, 5, 3049, 84163] (by decide +kernel) ?_
  simp only [List.mem_cons, List.not_mem_nil, or_false]
  rintro q (rfl | rfl | rfl | rfl)
  · exact p2
  · exact p5
  · exact p3049
  · exact p84163
private theorem p18120927127286907576013935251791662753637 : Nat.Prime 18120927127286907576013935251791662753637 := by
  refine prime_of_pratt _ 6 [2, 2, 3, 3, 17965699, 107615843, 2566129871, 101456283590983] (by decide +kernel) ?_
  simp only [List.mem_cons, List.not_mem_nil, or_false]
  rintro q (rfl | rfl | rfl | rfl | rfl | rfl | rfl | rfl)
  · exact p2
  · exact p2
  · exact p3
  · exact p3
  · exact p17965699
  · exact p107615843
  · exact p2566129871
  · exact p101456283590983
private theorem p125197554539772723432468576818475380947471091418362477724521 : Nat.Prime 125197554539772723432468576818475380947471091418362477724521 := by
  refine prime_of_pratt _ 3 [2, 2, 2, 5, 53, 3258964060712033, 18120927127286907576013935251791662753637] (by decide +kernel) ?_
  simp only [List.mem_cons, List.not_mem_nil, or_false]
  rintro q (rfl | rfl | rfl | rfl | rfl | rfl | rfl)
  · exact p2
  · exact p2
  · exact p2
  · exact p5
  · exact p53
  · exact p3258964060712033
  · exact p18120927127286907576013935251791662753637
private theorem p110899 : Nat.Prime 110899 := by
  refine prime_of_pratt _ 3 [2, 3, 3, 61, 101] (by decide +kernel) ?_
  simp only [List.mem_cons, List.not_mem_nil, or_false]
  rintro q (rfl | rfl | rfl | rfl | rfl)
  · exact p2
  · exact p3
  · exact p3
  · exact p61
  · exact p101
private theorem p117774739 : Nat.Prime 117774739 := by
  refine prime_of_pratt _ 2 [2, 3, 3, 59, 110899] (by decide +kernel) ?_
  simp only [List.mem_cons, List.not_mem_nil, or_false]
  rintro q (rfl | rfl | rfl | rfl | rfl)
  · exact p2
  · exact p3
  · exact p3
  · exact p59
  · exact p110899
private theorem p1413296869 : Nat.Prime 1413296869 := by
  refine prime_of_pratt _ 6 [2, 2, 3, 117774739] (by decide +kernel) ?_
  simp only [List.mem_cons, List.not_mem_nil, or_false]
  rintro q (rfl | rfl | rfl | rfl)
  · exact p2
  · exact p2
  · exact p3
  · exact p117774739
private theorem p14057 : Nat.Prime 14057 := by
  refine prime_of_pratt _ 3 [2, 2, 2, 7, 251] (by decide +kernel) ?_
  simp only [List.mem_cons, List.not_mem_nil, or_false]
  rintro q (rfl | rfl | rfl | rfl | rfl)
  · exact p2
  · exact p2
  · exact p2
  · exact p7
  · exact p251
private theorem p7759 : Nat.Prime 7759 := by
  refine prime_of_pratt _ 3 [2, 3, 3, 431] (by decide +kernel) ?_
  simp only [List.mem_cons, List.not_mem_nil, or_false]
  rintro q (rfl | rfl | rfl | rfl)
  · exact p2
  · exact p3
  · exact p3
  · exact p431
/-- The group order of /repo/sm2/sm2.go:82 is prime. -/
theorem prime_N : Nat.Prime 0xFFFFFFFEFFFFFFFFFFFFFFFFFFFFFFFF7203DF6B21C6052B53BBF40939D54123 := by
  refine prime_of_pratt _ 3 [2, 3, 7759, 14057, 1413296869, 125197554539772723432468576818475380947471091418362477724521] (by decide +kernel) ?_
  simp only [List.mem_cons, List.not_mem_nil, or_false]
  rintro q (rfl | rfl | rfl | rfl | rfl | rfl)
  · exact p2
  · exact p3
  · exact p7759
  · exact p14057
  · exact p1413296869
  · exact p125197554539772723432468576818475380947471091418362477724521

end Verif.EC
