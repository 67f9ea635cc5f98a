import Verif.Props.Sm2SignCount
import Verif.Props.Sm2Cipher
/-!
# Properties C105 to C107: what is accepted can be produced; what repeated randomness gives away
-/
namespace Verif.Props
open EC Verif.Sm2
open Verif.Spec.SM2 (coords fe IsCiphertext)

attribute [local irreducible] Spec.SM2.fe Spec.SM3.hash

/-! ## C105 -/

theorem verify_has_e {pub : PublicKey} {id : Option Bytes} {M : Bytes} {r s : Int} (h : verifyByRS pub id M r s = .ok true) :
    ∃ e, calculateE pub.X pub.Y (id.getD defaultUserId) M = .ok e := by
  unfold verifyByRS at h
  dsimp only at h
  split at h
  · simp at h
  split at h
  · simp at h
  rw [Res.bind_eq_ok] at h
  exact ⟨_, h.choose_spec.1⟩

/-- The nonce of an accepted signature. -/
theorem verify_nonce {d : ℕ} {pub : PublicKey} (hpub : calculatePubKey ⟨d⟩ = .ok pub) {id : Option Bytes} {M : Bytes} {r s : Int}
    (h : verifyByRS pub id M r s = .ok true) :
    ∃ (e : Int) (k : ℕ), calculateE (enc (((d : Int)).natAbs • G)).1 (enc (((d : Int)).natAbs • G)).2 (id.getD defaultUserId) M = .ok e ∧
      1 ≤ k ∧ k < n ∧ 1 ≤ r ∧ r < n ∧ 1 ≤ s ∧ s < n ∧ (r + s) % n ≠ 0 ∧
      (k : ZMod n) = s + (r + s) * d ∧ r = (e + (enc (k • G)).1) % n := by
  have hn := n_gt
  obtain ⟨e, he⟩ := verify_has_e h
  have hp := pub_of_priv hpub
  have he' : calculateE (enc (((d : Int)).natAbs • G)).1 (enc (((d : Int)).natAbs • G)).2 (id.getD defaultUserId) M = .ok e := by
    rw [Int.natAbs_natCast, ← hp]; exact he
  by_cases hd : n ∣ d
  · have hd0 : d • G = 0 := (smul_eq_zero G_ne_zero).2 hd
    rw [hd0, show enc (0 : Pt) = ((0, 0) : Int × Int) from rfl, Prod.mk.injEq] at hp
    have hp' : pub = ⟨0, 0⟩ := by cases pub; simp only at hp; rw [hp.1, hp.2]
    rw [hp'] at h he
    obtain ⟨b, hb, hb'⟩ := verifyByRS_zero (id := id) (M := M) (r := r) (s := s) he
    rw [hb, Res.ok.injEq] at h
    obtain ⟨g1, g2, g3, g4, g5, g6⟩ := hb'.1 h
    refine ⟨e, s.toNat, he', by omega, by omega, g1, g2, g3, g4, g5, ?_, ?_⟩
    · have hd' : (d : ZMod n) = 0 := (ZMod.natCast_eq_zero_iff _ _).2 hd
      rw [hd', mul_zero, add_zero, ← Int.cast_natCast, Int.toNat_of_nonneg (by omega)]
    · rw [← natCast_zsmul, Int.toNat_of_nonneg (by omega)]
      exact g6
  · obtain ⟨x, y, hc, hx, hy⟩ := coords_dG hd
    rw [pub_of_coords hpub hc] at h he
    obtain ⟨b, hb, hb'⟩ := verifyByRS_eq hc (id := id) (M := M) (r := r) (s := s) he
    rw [hb, Res.ok.injEq] at h
    obtain ⟨g1, g2, g3, g4, g5, g6, g7⟩ := hb'.1 h
    have hpos : (0 : Int) < n := by omega
    have hk0 := Int.emod_nonneg (s + (r + s) * (d : Int)) (ne_of_gt hpos)
    have hk1 := Int.emod_lt_of_pos (s + (r + s) * (d : Int)) hpos
    have hkz : ((((s + (r + s) * (d : Int)) % n).toNat : ℕ) : ZMod n) = s + (r + s) * d := by
      rw [← Int.cast_natCast, Int.toNat_of_nonneg hk0, ← cv_N, zn_cast_emod]
      push_cast
      ring
    have hpt : s • G + ((r + s) % (n : Int)) • (d • G) = ((s + (r + s) * (d : Int)) % n).toNat • G := by
      apply sign_verify_point
      rw [hkz]
      ring
    rw [hpt] at g6 g7
    refine ⟨e, _, he', ?_, by omega, g1, g2, g3, g4, g5, hkz, g7⟩
    by_contra h0
    apply g6
    rw [show ((s + (r + s) * (d : Int)) % n).toNat = 0 by omega]
    exact zero_nsmul G

/-- C105: the signatures that are accepted under the public key of `d` are exactly those that signing with `d` can return, for
every id and message, and for every private key but those that are -1 modulo `n`. -/
theorem C105_exact (d : ℕ) (hd1 : ¬ n ∣ d + 1) (pub : PublicKey) (hpub : calculatePubKey ⟨d⟩ = .ok pub) (id : Option Bytes)
    (M : Bytes) (r s : Int) :
    verifyByRS pub id M r s = .ok true ↔ ∃ tape, signToRS ⟨d⟩ id M tape = .ok (r, s) := by
  constructor
  swap
  · rintro ⟨tape, h⟩; exact C35_verifies d pub hpub id M tape r s h
  intro h
  have hn := n_gt
  obtain ⟨e, k, he, hk1, hk2, hr1, hr2, hs1, hs2, ht, hk, hr⟩ := verify_nonce hpub h
  have hd' : ((((d : ℕ) : Int) : ZMod n) + 1) ≠ 0 := by
    intro h
    apply hd1
    rw [← ZMod.natCast_eq_zero_iff]
    push_cast at h ⊢
    exact h
  have htz : ((r : ZMod n) + s) ≠ 0 := by
    intro h0
    apply ht
    apply Int.emod_eq_zero_of_dvd
    rw [← cast_eq_zero_iff]
    push_cast
    exact h0
  have hsz : (s : ZMod n) ≠ 0 := by
    intro h0
    rw [cast_eq_zero_iff] at h0
    have := Int.le_of_dvd (by omega) h0
    omega
  have hk32 : beNat (toBE 32 k) = k := beNat_toBE_of_lt (lt_of_lt_of_le (lt_trans hk2 n_lt) (by norm_num))
  obtain ⟨⟨r', s'⟩, hs⟩ := signToRS_hits (d := (d : ℕ)) (id := id) (M := M) he hd' (good := fun j => j = k)
    (fun j hj => by rw [hj]; exact ⟨hk1, hk2⟩) (by
      rintro j rfl
      rw [← hr]
      refine ⟨by omega, ?_, ?_⟩
      · intro h0
        have h1 : ((r + j : Int) : ZMod n) = 0 := by rw [h0]; simp
        push_cast at h1 hd'
        rw [hk] at h1
        have : ((r : ZMod n) + s) * (d + 1) = 0 := by linear_combination h1
        rcases mul_eq_zero.1 this with h2 | h2
        · exact htz h2
        · exact hd' h2
      · intro h0
        push_cast at h0 hd'
        rw [hk] at h0
        have : (s : ZMod n) * (d + 1) = 0 := by linear_combination h0
        rcases mul_eq_zero.1 this with h2 | h2
        · exact hsz h2
        · exact hd' h2) (tape := [some (toBE 32 k)]) (.inl hk32)
  obtain ⟨e', k', he', ⟨raw, hraw, hrk⟩, _, _, q1, _, _, _, q2, q3, q4⟩ := signToRS_ok hs
  rw [he, Res.ok.injEq] at he'
  rw [List.mem_singleton, Option.some.injEq] at hraw
  rw [hraw, hk32] at hrk
  subst he'
  subst hrk
  rw [← hr] at q1
  subst q1
  have hss : s' = s := by
    have h1 : (((d : ℕ) : Int) : ZMod n) * s' + s' = ((d : ℕ) : Int) * s + s := by
      rw [hk] at q4
      push_cast at q4 ⊢
      linear_combination q4
    have h2 : ((s' - s : Int) : ZMod n) = 0 := by
      have : ((((d : ℕ) : Int) : ZMod n) + 1) * (s' - s) = 0 := by linear_combination h1
      push_cast
      rcases mul_eq_zero.1 this with h3 | h3
      · exact absurd h3 hd'
      · exact h3
    rw [cast_eq_zero_iff] at h2
    obtain ⟨w, hw⟩ := h2
    have : w = 0 := by
      by_contra hw0
      rcases lt_or_gt_of_ne hw0 with hlt | hgt
      · have : (n : Int) * w ≤ (n : Int) * (-1) := Int.mul_le_mul_of_nonneg_left (by omega) (by omega)
        omega
      · have : (n : Int) * 1 ≤ (n : Int) * w := Int.mul_le_mul_of_nonneg_left (by omega) (by omega)
        omega
    rw [this, mul_zero] at hw
    omega
  rw [hss] at hs
  exact ⟨_, hs⟩

/-- C105 on bytes: a byte string is accepted exactly if it is read as the pair of a signature that `Sign` can return. -/
theorem C105_der (d : ℕ) (hd1 : ¬ n ∣ d + 1) (pub : PublicKey) (hpub : calculatePubKey ⟨d⟩ = .ok pub) (id : Option Bytes)
    (M sig : Bytes) :
    verify pub id M sig = .ok true ↔ ∃ tape sig0, sign ⟨d⟩ id M tape = .ok sig0 ∧
      ∃ r s, unmarshalSign sig = .ok (r, s) ∧ unmarshalSign sig0 = .ok (r, s) := by
  constructor
  · intro h
    unfold verify at h
    cases hu : unmarshalSign sig with
    | ok rs =>
      obtain ⟨r, s⟩ := rs
      rw [hu] at h
      obtain ⟨tape, ht⟩ := (C105_exact d hd1 pub hpub id M r s).1 h
      obtain ⟨g1, g2, g3, g4, _⟩ := C37_range _ _ _ _ _ _ ht
      obtain ⟨sig0, m1, m2⟩ := C38_round_trip r s 32 32 (inRange_n (by omega) g2) (inRange_n (by omega) g4) (by norm_num)
      exact ⟨tape, sig0, by unfold sign; rw [ht, Res.ok_bind]; exact m1, r, s, rfl, m2⟩
    | err m => rw [hu] at h; simp at h
    | panic => rw [hu] at h; simp at h
    | loop => rw [hu] at h; simp at h
  · rintro ⟨tape, sig0, h1, r, s, h2, h3⟩
    have h4 := C35_der_verifies d pub hpub id M tape sig0 h1
    unfold verify at h4 ⊢
    rw [h3] at h4
    rw [h2]
    exact h4

/-- The signature of "a" with key 2 in `Sm2Sign`: accepted, and hence (again) a result of signing. -/
example : ∃ pub, calculatePubKey ⟨(2 : ℕ)⟩ = .ok pub ∧ verifyByRS pub none [0x61] exR exS = .ok true ∧
    ∃ tape, signToRS ⟨(2 : ℕ)⟩ none [0x61] tape = .ok (exR, exS) := by
  obtain ⟨pub, hp, -⟩ := C62_derived_keys_partial 2 (by rw [n_val]; decide)
  have hv := C35_verifies 2 pub hp none [0x61] _ _ _ example_sign
  exact ⟨pub, hp, hv, (C105_exact 2 (by rw [n_val]; decide) pub hp _ _ _ _).1 hv⟩

/-! ## C106 -/

/-- The `C2` part of a ciphertext: the message xored with the key stream. -/
def c2Of (t : Int) (c : Bytes) : Bytes := if t = 1 then (c.drop 65).take (c.length - 97) else c.drop 97

theorem c2Of_layout {t : Int} {c c1 c2 c3 : Bytes} (h1 : c1.length = 65) (h3 : c3.length = 32) (h : Layout t c c1 c2 c3) :
    c2Of t c = c2 := by
  unfold c2Of
  rcases h with ⟨rfl, rfl⟩ | ⟨rfl, rfl⟩
  · rw [if_pos rfl, List.append_assoc, List.drop_left' h1, List.take_left']
    simp only [List.length_append, h1, h3]
    omega
  · rw [if_neg (by decide), List.drop_left']
    simp [h1, h3]

theorem specKdf_length (z : Bytes) (l : ℕ) : (Spec.SM2.kdf z l).length = l := by
  unfold Spec.SM2.kdf
  rw [List.length_take]
  have : ((List.range ((l + 31) / 32)).flatMap fun i => Spec.SM3.hash (z ++ toBE 4 (i + 1))).length = 32 * ((l + 31) / 32) := by
    generalize (l + 31) / 32 = q
    induction q with
    | zero => rfl
    | succ q ih => rw [List.range_succ, List.flatMap_append, List.length_append, ih]; simp [hash_length]; omega
  rw [this]
  omega

/-- C106, the part that holds: the ciphertexts that `Encrypt` can return for a message are exactly those that `Decrypt` takes to
this message, except those whose `C2` is the message itself (the key stream is zero). Both layouts, every private key that is not
a multiple of `n`, and every ciphertext below 2 GiB. -/
theorem C106_exact_partial (d : ℕ) (hd : ¬ n ∣ d) (pub : PublicKey) (hpub : calculatePubKey ⟨d⟩ = .ok pub) (c m : Bytes) (t : Int)
    (hc : c.length < 2 ^ 31) :
    (∃ tape, encrypt pub m t tape = .ok c) ↔ decrypt ⟨d⟩ c t = .ok m ∧ c2Of t c ≠ m := by
  obtain ⟨x, y, hP, hx, hy⟩ := coords_dG hd
  have hpe := pub_of_coords hpub hP
  have h65 : ∀ a b : ℕ, (4 :: (fe a ++ fe b) : Bytes).length = 65 := fun a b => by simp [length_fe]
  have hkl := specKdf_length
  constructor
  · rintro ⟨tape, h⟩
    refine ⟨(C42_round_trip d pub hpub m t tape c h).1, ?_⟩
    have hlen := (C42_round_trip d pub hpub m t tape c h).2
    rw [hpe] at h
    obtain ⟨k, c1, c2, c3, _, ⟨_, _, x1, y1, x2, y2, _, _, h5, h6, h7, h8⟩, hl⟩ := C43_standard _ x y hP m t tape c h
    rw [c2Of_layout (by rw [h5, h65]) (by rw [h8, hash_length]) hl, h7]
    intro h0
    exact h6 ((zipWith_xor_eq_self _ _ (hkl _ _)).1 h0)
  · rintro ⟨h, hne⟩
    obtain ⟨Q, x1, y1, c2, c3, hQ, hl, hm, h1, h2⟩ := (C45_exact d c m t hc).1 h
    rw [c2Of_layout (h65 _ _) (by rw [h2, hash_length]) hl] at hne
    obtain ⟨k, hkn, hk⟩ := exists_smul_G Q
    have hk1 : 1 ≤ k := by
      by_contra h0
      have : k = 0 := by omega
      rw [this] at hk
      exact (coords_some hQ).1 (hk.trans (zero_nsmul G))
    have hS : d • Q = k • (d • G) := by rw [hk, smul_comm]
    have hne0 : d • Q ≠ 0 := fun h0 => not_dvd_of_lt hk1 hkn ((smul_eq_zero (coords_some hP).1).1 (hS ▸ h0))
    obtain ⟨x2, y2, hs, _, _⟩ := coords_ne hne0
    have hsh : sharedXY (d • Q) = (x2, y2) := by unfold sharedXY; rw [hs]; rfl
    rw [hsh] at h1 h2
    dsimp only at h1 h2
    have hc2 : c2.length < 2 ^ 31 := by
      rcases hl with ⟨_, rfl⟩ | ⟨_, rfl⟩ <;> simp only [List.length_append] at hc <;> omega
    have hml : m.length = c2.length := by rw [h1, List.length_zipWith, hkl _ _, min_self]
    have hcm : c2 = List.zipWith (· ^^^ ·) m (Spec.SM2.kdf (fe x2 ++ fe y2) m.length) := by
      rw [hml, h1, zipWith_xor_self _ _ (hkl _ _)]
    have hk32 : beNat (toBE 32 k) = k := beNat_toBE_of_lt (lt_of_lt_of_le (lt_trans hkn n_lt) (by norm_num))
    have ht : t = 1 ∨ t = 2 := by rcases hl with ⟨ht, _⟩ | ⟨ht, _⟩; exacts [.inl ht, .inr ht]
    have hisc : IsCiphertext (d • G) m k (4 :: (fe x1 ++ fe y1)) c2 c3 := by
      refine ⟨hk1, hkn, x1, y1, x2, y2, hk ▸ hQ, hS ▸ hs, rfl, ?_, hcm, h2⟩
      intro h0
      apply hne
      rw [hcm]
      exact (zipWith_xor_eq_self _ _ (hkl _ _)).2 h0
    obtain ⟨c', hc'⟩ := C44_returns_partial _ x y hP m hm (by omega) t ht [] (toBE 32 k) [] (by rw [hk32]; exact ⟨_, _, _, hisc⟩)
    refine ⟨[some (toBE 32 k)], ?_⟩
    rw [hpe]
    have hc'' : encrypt ⟨x, y⟩ m t [some (toBE 32 k)] = .ok c' := hc'
    rw [hc'']
    obtain ⟨k', c1', c2', c3', ⟨raw, hraw, hrk⟩, ⟨_, _, a1, b1, a2, b2, e1, e2, e3, _, e5, e6⟩, hl'⟩ := C43_standard _ x y hP m t _ c' hc''
    rw [List.mem_singleton, Option.some.injEq] at hraw
    rw [hraw, hk32] at hrk
    subst hrk
    rw [← hk, hQ, Option.some.injEq, Prod.mk.injEq] at e1
    rw [← hS, hs, Option.some.injEq, Prod.mk.injEq] at e2
    obtain ⟨rfl, rfl⟩ := e1
    obtain ⟨rfl, rfl⟩ := e2
    rw [← hcm] at e5
    rw [← h2] at e6
    subst e3
    subst e5
    subst e6
    have heq : c' = c := by
      rcases hl with ⟨t1, q⟩ | ⟨t1, q⟩ <;> rcases hl' with ⟨t2, q'⟩ | ⟨t2, q'⟩
      · rw [q, q']
      · omega
      · omega
      · rw [q, q']
    rw [heq]

/-- The point `1121 G` and the hash of a ciphertext of "a" for the private key 2 whose key stream is zero. -/
def zeroC1 : Bytes :=
  [4, 199, 31, 177, 166, 155, 166, 196, 71, 104, 220, 167, 1, 165, 105, 102, 213, 90, 155, 136, 196, 154, 217, 51, 89, 188, 143, 146,
   163, 79, 12, 127, 124, 0, 85, 85, 171, 104, 183, 68, 160, 247, 162, 242, 229, 134, 36, 165, 184, 78, 86, 226, 108, 212, 32, 60, 64,
   170, 54, 81, 25, 255, 84, 209, 21]
def zeroC3 : Bytes :=
  [166, 76, 105, 146, 82, 187, 250, 182, 9, 118, 130, 172, 239, 122, 39, 7, 27, 11, 14, 231, 79, 200, 52, 56, 221, 215, 15, 164, 164,
   180, 157, 132]

/-- C106 is violated: the standard has the receiver check that the key stream is not zero (GB/T 32918.4, 7.1 B4). `Decrypt` does not:
it takes a ciphertext that holds its message in the clear and that `Encrypt` never makes. -/
theorem C106_zero_stream_violated : ∃ (d : ℕ) (pub : PublicKey) (c m : Bytes), ¬ n ∣ d ∧ calculatePubKey ⟨d⟩ = .ok pub ∧ m ≠ [] ∧
    c = zeroC1 ++ m ++ zeroC3 ∧ decrypt ⟨d⟩ c 1 = .ok m ∧ ∀ tape, encrypt pub m 1 tape ≠ .ok c := by
  have hd : ¬ n ∣ 2 := by rw [n_val]; decide
  have hdec : decrypt ⟨(2 : ℕ)⟩ (zeroC1 ++ [0x61] ++ zeroC3) 1 = .ok [0x61] := by decide +kernel
  obtain ⟨pub, hp, -⟩ := C62_derived_keys_partial 2 hd
  refine ⟨2, pub, _, [0x61], hd, hp, by decide, rfl, hdec, fun tape h => ?_⟩
  exact ((C106_exact_partial 2 hd pub hp _ _ 1 (by decide)).1 ⟨tape, h⟩).2 (by decide)

/-- C106_exact_partial on the ciphertext of "a" in `Sm2Cipher`. -/
example : decrypt ⟨(2 : ℕ)⟩ (exC1 ++ exC2 ++ exC3) 1 = .ok [0x61] ∧ c2Of 1 (exC1 ++ exC2 ++ exC3) ≠ [0x61] := by
  obtain ⟨pub, h1, h2⟩ := (Res.bind_eq_ok ..).1 example_encrypt
  exact (C106_exact_partial 2 (by rw [n_val]; decide) pub h1 _ _ 1 (by decide)).1 ⟨_, h2⟩

/-! ## C107 -/

/-- Two pairs of one nonce, solved for the private key. -/
def keyFromPairs (r s r' s' : Int) : ℕ := ((s' - s : ZMod n) / (s + r - s' - r')).val

/-- A pair and its nonce, solved for the private key. -/
def keyFromNonce (r s : Int) (k : ℕ) : ℕ := ((k - s : ZMod n) / (s + r)).val

theorem sign_single {d : ℕ} {id : Option Bytes} {M raw : Bytes} {r s : Int} (h : signToRS ⟨d⟩ id M [some raw] = .ok (r, s)) :
    (1 ≤ r ∧ r < n) ∧ (1 ≤ s ∧ s < n) ∧ (r + s) % (n : Int) ≠ 0 ∧ ((d : ZMod n) + 1) * s = beNat raw - r * d := by
  obtain ⟨g1, g2, g3, g4, _⟩ := C37_range _ _ _ _ _ _ h
  obtain ⟨e, k, _, ⟨raw', hraw, hk⟩, k1, k2, _, _, hrk, _, _, _, h10⟩ := signToRS_ok h
  rw [List.mem_singleton, Option.some.injEq] at hraw
  rw [hraw] at hk
  rw [Int.cast_natCast] at h10
  have ht := sign_t_ne h10 k1 k2 (by omega) g2 hrk
  rw [hk]
  exact ⟨⟨g1, g2⟩, ⟨g3, g4⟩, ht, h10⟩

theorem int_cast_inj_of_lt {a b : Int} (ha : 1 ≤ a ∧ a < n) (hb : 1 ≤ b ∧ b < n) (h : (a : ZMod n) = b) : a = b := by
  have := (ZMod.intCast_eq_intCast_iff _ _ _).1 h
  rw [Int.ModEq, Int.emod_eq_of_lt (by omega) ha.2, Int.emod_eq_of_lt (by omega) hb.2] at this
  exact this

/-- C107 is violated by `SignToRS`: two different signatures (of whatever messages and ids) made with the same random bytes give
away the private key, by a formula. The nonce depends on the random source alone. -/
theorem C107_sign_violated (d : ℕ) (hd : d < n) (id id' : Option Bytes) (M M' raw : Bytes) (r s r' s' : Int)
    (h : signToRS ⟨d⟩ id M [some raw] = .ok (r, s)) (h' : signToRS ⟨d⟩ id' M' [some raw] = .ok (r', s')) (hne : (r, s) ≠ (r', s')) :
    keyFromPairs r s r' s' = d := by
  obtain ⟨hr, hs, _, e1⟩ := sign_single h
  obtain ⟨hr', hs', _, e2⟩ := sign_single h'
  have e3 : (d : ZMod n) * (s + r - s' - r') = s' - s := by linear_combination e1 - e2
  have hz : (s + r - s' - r' : ZMod n) ≠ 0 := by
    intro h0
    rw [h0, mul_zero] at e3
    have h1 : (s : ZMod n) = s' := by linear_combination e3
    have h2 : (r : ZMod n) = r' := by linear_combination h0 - h1
    exact hne (by rw [int_cast_inj_of_lt hs hs' h1, int_cast_inj_of_lt hr hr' h2])
  unfold keyFromPairs
  rw [← e3, mul_div_assoc, div_self hz, mul_one, ZMod.val_natCast, Nat.mod_eq_of_lt hd]

/-- C107, likewise for the random bytes of a single signature. -/
theorem C107_nonce_violated (d : ℕ) (hd : d < n) (id : Option Bytes) (M raw : Bytes) (r s : Int)
    (h : signToRS ⟨d⟩ id M [some raw] = .ok (r, s)) : keyFromNonce r s (beNat raw) = d := by
  obtain ⟨hr, hs, ht, e1⟩ := sign_single h
  have e3 : (d : ZMod n) * (s + r) = beNat raw - s := by linear_combination e1
  have hz : (s + r : ZMod n) ≠ 0 := by
    intro h0
    apply ht
    apply Int.emod_eq_zero_of_dvd
    rw [← cast_eq_zero_iff]
    push_cast
    rw [add_comm]
    exact h0
  unfold keyFromNonce
  rw [← e3, mul_div_assoc, div_self hz, mul_one, ZMod.val_natCast, Nat.mod_eq_of_lt hd]

/-- Two pairs whose nonces are related by `k' = a·k + b`, solved for the private key. -/
def keyFromRelated (a b : Int) (r s r' s' : Int) : ℕ := ((a * s + b - s' : ZMod n) / (s' + r' - a * (s + r))).val

/-- C107, for random bytes that are not repeated but predictable: when the second nonce is a known linear function of the first
(a counter, a linear congruential generator), the two signatures give away the private key, but for the one key for which
`s' + r' = a·(s + r)`. -/
theorem C107_related_violated (d : ℕ) (hd : d < n) (id id' : Option Bytes) (M M' raw raw' : Bytes) (r s r' s' a b : Int)
    (h : signToRS ⟨d⟩ id M [some raw] = .ok (r, s)) (h' : signToRS ⟨d⟩ id' M' [some raw'] = .ok (r', s'))
    (hk : (beNat raw' : Int) % n = (a * beNat raw + b) % n) (hne : (s' + r') % (n : Int) ≠ a * (s + r) % n) :
    keyFromRelated a b r s r' s' = d := by
  obtain ⟨_, _, _, e1⟩ := sign_single h
  obtain ⟨_, _, _, e2⟩ := sign_single h'
  have hk' : (beNat raw' : ZMod n) = a * beNat raw + b := by
    have := (ZMod.intCast_eq_intCast_iff _ _ n).2 hk
    push_cast at this
    exact this
  have e3 : (d : ZMod n) * (s' + r' - a * (s + r)) = a * s + b - s' := by
    rw [hk'] at e2
    linear_combination e2 - a * e1
  have hz : (s' + r' - a * (s + r) : ZMod n) ≠ 0 := by
    intro h0
    apply hne
    apply (ZMod.intCast_eq_intCast_iff _ _ n).1
    push_cast
    linear_combination h0
  unfold keyFromRelated
  rw [← e3, mul_div_assoc, div_self hz, mul_one, ZMod.val_natCast, Nat.mod_eq_of_lt hd]

/-- C107 is violated by `Encrypt`: two messages of one length, encrypted with the same random bytes, have `C2` parts whose xor is the
xor of the messages, and the same `C1`. -/
theorem C107_encrypt_violated (P : Pt) (x y : ℕ) (hP : coords P = some (x, y)) (M M' raw c c' : Bytes) (t : Int)
    (hlen : M.length = M'.length) (h : encrypt ⟨x, y⟩ M t [some raw] = .ok c) (h' : encrypt ⟨x, y⟩ M' t [some raw] = .ok c') :
    c.take 65 = c'.take 65 ∧
      List.zipWith (· ^^^ ·) (c2Of t c) (c2Of t c') = List.zipWith (· ^^^ ·) M M' := by
  obtain ⟨k, c1, c2, c3, ⟨r1, m1, k1⟩, ⟨_, _, a, b, a2, b2, e1, e2, e3, _, e5, e6⟩, hl⟩ := C43_standard P x y hP M t _ c h
  obtain ⟨k', c1', c2', c3', ⟨r1', m1', k1'⟩, ⟨_, _, a', b', a2', b2', e1', e2', e3', _, e5', e6'⟩, hl'⟩ := C43_standard P x y hP M' t _ c' h'
  rw [List.mem_singleton, Option.some.injEq] at m1 m1'
  rw [m1] at k1
  rw [m1'] at k1'
  rw [← k1', k1, e1, Option.some.injEq, Prod.mk.injEq] at e1'
  rw [← k1', k1, e2, Option.some.injEq, Prod.mk.injEq] at e2'
  have h65 : ∀ a b : ℕ, (4 :: (fe a ++ fe b) : Bytes).length = 65 := fun a b => by simp [length_fe]
  have l1 : c1.length = 65 := by rw [e3, h65]
  have l1' : c1'.length = 65 := by rw [e3', h65]
  rw [c2Of_layout l1 (by rw [e6, hash_length]) hl, c2Of_layout l1' (by rw [e6', hash_length]) hl']
  constructor
  · have ht : c.take 65 = c1 := by rcases hl with ⟨_, rfl⟩ | ⟨_, rfl⟩ <;> rw [List.append_assoc, List.take_left' l1]
    have ht' : c'.take 65 = c1' := by rcases hl' with ⟨_, rfl⟩ | ⟨_, rfl⟩ <;> rw [List.append_assoc, List.take_left' l1']
    rw [ht, ht', e3, e3', e1'.1, e1'.2]
  · rw [e5, e5', ← e2'.1, ← e2'.2, ← hlen]
    have gen : ∀ u v w : Bytes, u.length ≤ w.length → List.zipWith (· ^^^ ·) (List.zipWith (· ^^^ ·) u w) (List.zipWith (· ^^^ ·) v w) =
        List.zipWith (· ^^^ ·) u v := by
      intro u
      induction u with
      | nil => intro v w _; simp
      | cons q u ih =>
        intro v w hw
        cases w with
        | nil => simp at hw
        | cons z w =>
          cases v with
          | nil => simp
          | cons q' v =>
            simp only [List.zipWith_cons_cons, List.cons.injEq]
            refine ⟨?_, ih v w (by simpa using hw)⟩
            rw [BitVec.xor_assoc, ← BitVec.xor_assoc z, BitVec.xor_comm z q', BitVec.xor_assoc q', BitVec.xor_self, BitVec.xor_zero]
    apply gen
    exact le_of_eq (specKdf_length _ _).symm

/-- Two signatures with the nonce 3 and the key 2, and two encryptions with the nonce 3. -/
example : ∃ r s r' s', signToRS ⟨(2 : ℕ)⟩ none [0x61] [some (toBE 32 3)] = .ok (r, s) ∧
    signToRS ⟨(2 : ℕ)⟩ none [0x62] [some (toBE 32 3)] = .ok (r', s') ∧ (r, s) ≠ (r', s') := by
  have h : ((do
      let a ← signToRS ⟨(2 : ℕ)⟩ none [0x61] [some (toBE 32 3)]
      let b ← signToRS ⟨(2 : ℕ)⟩ none [0x62] [some (toBE 32 3)]
      .ok (decide (a ≠ b))) : Res Bool) = .ok true := by decide +kernel
  obtain ⟨⟨r, s⟩, h1, h⟩ := (Res.bind_eq_ok ..).1 h
  obtain ⟨⟨r', s'⟩, h2, h⟩ := (Res.bind_eq_ok ..).1 h
  rw [Res.ok.injEq, decide_eq_true_eq] at h
  exact ⟨r, s, r', s', h1, h2, h⟩
/-- Nonces 3 and 4, from a counter (`a = b = 1`). -/
example : ∃ r s r' s', signToRS ⟨(2 : ℕ)⟩ none [0x61] [some (toBE 32 3)] = .ok (r, s) ∧
    signToRS ⟨(2 : ℕ)⟩ none [0x62] [some (toBE 32 4)] = .ok (r', s') ∧ (s' + r') % (n : Int) ≠ 1 * (s + r) % n := by
  have h : ((do
      let a ← signToRS ⟨(2 : ℕ)⟩ none [0x61] [some (toBE 32 3)]
      let b ← signToRS ⟨(2 : ℕ)⟩ none [0x62] [some (toBE 32 4)]
      .ok (decide ((b.2 + b.1) % cv.N ≠ 1 * (a.2 + a.1) % cv.N))) : Res Bool) = .ok true := by decide +kernel
  obtain ⟨⟨r, s⟩, h1, h⟩ := (Res.bind_eq_ok ..).1 h
  obtain ⟨⟨r', s'⟩, h2, h⟩ := (Res.bind_eq_ok ..).1 h
  rw [Res.ok.injEq, decide_eq_true_eq] at h
  exact ⟨r, s, r', s', h1, h2, by rw [← cv_N]; exact h⟩
example : (do
    let pub ← calculatePubKey ⟨2⟩
    let c ← encrypt pub [0x61] 1 [some (toBE 32 3)]
    let c' ← encrypt pub [0x62] 1 [some (toBE 32 3)]
    .ok (c2Of 1 c, c2Of 1 c')) = .ok ([72], [75]) := by decide +kernel

end Verif.Props
