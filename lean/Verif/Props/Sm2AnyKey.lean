import Verif.Props.Sm2Exchange
/-!
# C64, C66: no pair of numbers is refused as a public key

What `Encrypt` and `CalculateKeyWithConfirmation` do for every pair of integers as key of the other side: neither ever reports an error about it.
-/
namespace Verif.Props
open Verif Verif.Sm2 Verif.EC
open Verif.Spec.SM2 (coords fe)

/-! ## Lemmas -/

/-- The third coordinate that the formulas leave. -/
def ZFits (s : Jac) : Prop := 0 ≤ s.z ∧ s.z < cv.P

theorem cv_P_pos : (1 : Int) < cv.P := by decide +kernel

theorem zFits_mod {x y z : Int} : ZFits ⟨x, y, z % cv.P⟩ := by
  have := cv_P_pos
  exact ⟨Int.emod_nonneg _ (by omega), Int.emod_lt_of_pos _ (by omega)⟩

theorem zFits_double (s : Jac) : ZFits (doubleJacobian cv s) := zFits_mod

theorem zFits_add {s t : Jac} (hs : ZFits s) (ht : ZFits t) : ZFits (addJacobian cv s t) := by
  unfold addJacobian
  dsimp only
  split
  · exact ht
  split
  · exact hs
  split
  · exact zFits_double _
  · exact zFits_mod

theorem zFits_one (x y : Int) : ZFits ⟨x, y, 1⟩ := ⟨show (0 : Int) ≤ 1 by decide, cv_P_pos⟩

theorem zFits_bits (b : Int × Int) : ∀ (n : ℕ) (byte : Byte) (s : Jac), ZFits s → ZFits (scalarBits cv b n byte s) := by
  intro n
  induction n with
  | zero => intro byte s hs; exact hs
  | succ n ih =>
    intro byte s hs
    rw [scalarBits]
    refine ih _ _ ?_
    split
    · exact zFits_add (zFits_one _ _) (zFits_double _)
    · exact zFits_double _

theorem affine_total {s : Jac} (h : ZFits s) : ∃ u v : ℕ, affineFromJacobian cv s = .ok ((u : Int), (v : Int)) ∧ u < 2 ^ 256 ∧ v < 2 ^ 256 := by
  have hP := cv_P_pos
  have hP' : cv.P < 2 ^ 256 := by decide +kernel
  unfold affineFromJacobian
  by_cases h0 : s.z = 0
  · rw [if_pos h0]; exact ⟨0, 0, rfl, by norm_num, by norm_num⟩
  · rw [if_neg h0]
    obtain ⟨w, hw, _⟩ := modInverse_spec (c := cv) (p := p) cv_P (z := s.z) (by
      intro hz
      rw [ZMod.intCast_zmod_eq_zero_iff_dvd, ← cv_P] at hz
      obtain ⟨h1, h2⟩ := h
      have := Int.eq_zero_of_dvd_of_nonneg_of_lt h1 h2 hz
      exact h0 this)
    rw [hw]
    dsimp only
    have key : ∀ a : Int, ∃ u : ℕ, a % cv.P = (u : Int) ∧ u < 2 ^ 256 := by
      intro a
      have h1 := Int.emod_nonneg a (show cv.P ≠ 0 by omega)
      have h2 := Int.emod_lt_of_pos a (show 0 < cv.P by omega)
      exact ⟨(a % cv.P).toNat, by omega, by omega⟩
    obtain ⟨u, e1, h1⟩ := key (s.x * (w * w))
    obtain ⟨v, e2, h2⟩ := key (s.y * (w * w * w))
    exact ⟨u, v, by rw [e1, e2], h1, h2⟩

/-- `ScalarMult` returns two numbers of at most 32 octets, whatever pair it is given. -/
theorem scalarMult_total (b : Int × Int) (k : Bytes) : ∃ u v : ℕ, scalarMult cv b k = .ok ((u : Int), (v : Int)) ∧ u < 2 ^ 256 ∧ v < 2 ^ 256 := by
  refine affine_total ?_
  have : ∀ (k : Bytes) (s : Jac), ZFits s → ZFits (k.foldl (fun s byte => scalarBits cv b 8 byte s) s) := by
    intro k
    induction k with
    | nil => intro s hs; exact hs
    | cons c k ih => intro s hs; exact ih _ (zFits_bits b 8 c s hs)
  exact this k _ ⟨le_rfl, lt_trans (by decide) cv_P_pos⟩

theorem add_total (p q : Int × Int) : ∃ u v : ℕ, EC.add cv p q = .ok ((u : Int), (v : Int)) ∧ u < 2 ^ 256 ∧ v < 2 ^ 256 := by
  have h : ∀ x y : Int, ZFits ⟨x, y, zForAffine x y⟩ := by
    intro x y
    have := cv_P_pos
    unfold ZFits zForAffine
    split <;> constructor <;> dsimp only <;> omega
  exact affine_total (zFits_add (h _ _) (h _ _))

theorem calculateU_total (w : ℕ) (d r : PrivateKey) (E A R : PublicKey) :
    ∃ u v : ℕ, calculateU w d r E A R = .ok ((u : Int), (v : Int)) ∧ u < 2 ^ 256 ∧ v < 2 ^ 256 := by
  unfold calculateU
  dsimp only
  obtain ⟨a, b, h1, _⟩ := scalarMult_total (A.X, A.Y) (intBytes (sm2H * (d.D + reduce E.X w * r.D) % cv.N))
  obtain ⟨a', b', h2, _⟩ := scalarMult_total (R.X, R.Y) (intBytes (sm2H * (d.D + reduce E.X w * r.D) % cv.N * reduce R.X w % cv.N))
  rw [h1, Res.ok_bind, h2, Res.ok_bind]
  exact add_total _ _

/-! ## C64 -/

/-- **C64** For every pair of integers as public key and every message, on a random source without errors: `Encrypt` gives a ciphertext, or
goes on drawing numbers. There is no error and no panic: no key is refused. -/
theorem C64_never_refused (pub : PublicKey) (M : Bytes) (hM : M ≠ []) (hl : M.length < 2 ^ 31) (t : Int) (ht : t = 1 ∨ t = 2) (tape : Tape) (hn : none ∉ tape) :
    (∃ c, encrypt pub M t tape = .ok c) ∨ encrypt pub M t tape = .loop := by
  have hbody : ∀ k : Int, ∃ u v : ℕ, scalarMult cv (pub.X, pub.Y) (intBytes k) = .ok ((u : Int), (v : Int)) ∧ u < 2 ^ 256 ∧ v < 2 ^ 256 :=
    fun k => scalarMult_total _ _
  have hres : (∃ a, encryptLoop pub M tape = .ok a) ∨ encryptLoop pub M tape = .loop := by
    refine forLoop_res (fun s => none ∉ s.1) ?_ _ _ hn
    rintro ⟨t, m⟩ hs
    dsimp only at hs
    rcases nextK_res t hs with ⟨r, hr⟩ | hr
    · obtain ⟨_, _, _, hsuf⟩ := nextK_mem hr
      obtain ⟨k, hk, hk1, hk2⟩ := nextK_nat hr
      obtain ⟨x1, y1, hc, _, _⟩ := coords_ne (fun h0 => not_dvd_of_lt hk1 hk2 ((smul_eq_zero G_ne_zero).1 h0))
      obtain ⟨u, v, e1, e2, e3⟩ := hbody r.1
      rw [hr, Res.ok_bind]
      dsimp only
      rw [e1, hk, baseMult_int, Res.ok_bind, Int.natAbs_natCast, marshal_coords hc, Res.ok_bind, Res.ok_bind, kdf_eq e2 e3, Res.ok_bind]
      split
      · exact .inl ⟨_, rfl⟩
      · exact .inr (.inl ⟨_, rfl, fun hm => hs (hsuf.subset hm)⟩)
    · rw [hr]; exact .inr (.inr rfl)
  unfold encrypt
  rcases hres with ⟨⟨c1, c2, q⟩, ha⟩ | hl'
  · obtain ⟨s, _, hb⟩ := forLoop_inv (fun _ => True) (fun _ _ _ _ => trivial) _ _ _ trivial ha
    rw [Res.bind_eq_ok] at hb
    obtain ⟨r, _, g2⟩ := hb
    dsimp only at g2
    obtain ⟨u, v, e1, e2, e3⟩ := hbody r.1
    rw [baseMult_int, Res.ok_bind, Res.bind_eq_ok] at g2
    obtain ⟨_, _, g2⟩ := g2
    rw [e1, Res.ok_bind, kdf_eq e2 e3, Res.ok_bind] at g2
    split at g2
    · simp only [Res.ok.injEq, Sum.inr.injEq, Prod.mk.injEq] at g2
      obtain ⟨_, _, rfl⟩ := g2
      left
      rw [ha, Res.ok_bind]
      dsimp only
      rw [bigIntTo32Bytes_nat e2, Res.ok_bind, bigIntTo32Bytes_nat e3, Res.ok_bind, hashOf_eq_of (by
        simp only [List.mem_cons, List.not_mem_nil, or_false, forall_eq_or_imp, forall_eq]
        refine ⟨⟨?_, ?_⟩, ⟨hM, hl⟩, ?_, ?_⟩
        · exact List.ne_nil_of_length_pos (by rw [length_fe]; decide)
        · rw [length_fe]; decide
        · exact List.ne_nil_of_length_pos (by rw [length_fe]; decide)
        · rw [length_fe]; decide), Res.ok_bind]
      rcases ht with rfl | rfl
      · rw [if_pos (by decide)]; exact ⟨_, rfl⟩
      · rw [if_neg (by decide), if_pos (by decide)]; exact ⟨_, rfl⟩
    · simp at g2
  · rw [hl']; exact .inr rfl

/-! ## C66 -/

theorem hashOf_panic {cs : List Bytes} (h : [] ∈ cs) : hashOf cs = .panic := by
  rcases hashOf_cases cs with h1 | h1
  · exact h1
  · exact absurd rfl ((hashOf_ok h1).2 _ h).1

theorem intBytes_fits {x : Int} (h : x.natAbs < 2 ^ 256) : (intBytes x).length < 2 ^ 31 := by
  have hl : byteLen x.natAbs ≤ 32 := (byteLen_le_iff _ _).2 (lt_of_lt_of_le h (by norm_num))
  unfold intBytes
  rw [length_natBytes]
  omega

theorem intBytes_zero_eq : intBytes 0 = [] := by decide

/-- The number of an octet string of at most 32 octets, as it is hashed. -/
theorem intBytes_chunk {x : ℕ} (h : x < 2 ^ 256) (h0 : x ≠ 0) : intBytes (x : Int) ≠ [] ∧ (intBytes (x : Int)).length < 2 ^ 31 :=
  ⟨length_intBytes_pos (by omega), intBytes_fits (by simpa using h)⟩

theorem hash_chunk (m : Bytes) : Spec.SM3.hash m ≠ [] ∧ (Spec.SM3.hash m).length < 2 ^ 31 := by
  have := hash_length m
  refine ⟨fun h => ?_, by omega⟩
  rw [h] at this
  simp at this

theorem calculatePubKey_total (r : PrivateKey) : ∃ x y : ℕ, calculatePubKey r = .ok ⟨x, y⟩ ∧ x < 2 ^ 256 ∧ y < 2 ^ 256 := by
  obtain ⟨u, v, h, h1, h2⟩ := scalarMult_total (cv.Gx, cv.Gy) (intBytes r.D)
  refine ⟨u, v, ?_, h1, h2⟩
  unfold calculatePubKey scalarBaseMult
  rw [h]
  rfl

/-- The hashes of the key exchange, for numbers that are not zero. -/
theorem exchParts_ok {u v x1 y1 x2 y2 : ℕ} (hu : u < 2 ^ 256) (hv : v < 2 ^ 256) (h1 : x1 < 2 ^ 256) (h2 : y1 < 2 ^ 256) (h3 : x2 < 2 ^ 256) (h4 : y2 < 2 ^ 256)
    (h0 : u ≠ 0 ∧ v ≠ 0 ∧ x1 ≠ 0 ∧ y1 ≠ 0 ∧ x2 ≠ 0 ∧ y2 ≠ 0) (za zb : Bytes) (hza : za ≠ [] ∧ za.length < 2 ^ 31) (hzb : zb ≠ [] ∧ zb.length < 2 ^ 31)
    (keyBits : Int) (hk : 1 ≤ keyBits) (hk' : keyBits ≤ 128) :
    ∃ rv h t1 t2, kdfForExch u v za zb keyBits = .ok rv ∧ calculateInnerHash u za zb x1 y1 x2 y2 = .ok h ∧ s1 v h = .ok t1 ∧ s2 v h = .ok t2 := by
  have hL : Int.tdiv (keyBits + 7) 8 = (((keyBits + 7) / 8).toNat : ℕ) := by
    rw [Int.tdiv_eq_ediv_of_nonneg (by omega)]; omega
  have e1 := kdfForExch_eq (ux := u) (uy := v) (za := za) (zb := zb) hL (by omega) (by omega)
  rw [hashOf_eq_of (by
    simp only [List.mem_cons, List.not_mem_nil, or_false, forall_eq_or_imp, forall_eq]
    exact ⟨intBytes_chunk hu h0.1, intBytes_chunk hv h0.2.1, hza, hzb, by decide⟩), Res.ok_bind] at e1
  have e2 : calculateInnerHash u za zb x1 y1 x2 y2 = .ok _ := hashOf_eq_of (by
    simp only [List.mem_cons, List.not_mem_nil, or_false, forall_eq_or_imp, forall_eq]
    exact ⟨intBytes_chunk hu h0.1, hza, hzb, intBytes_chunk h1 h0.2.2.1, intBytes_chunk h2 h0.2.2.2.1, intBytes_chunk h3 h0.2.2.2.2.1, intBytes_chunk h4 h0.2.2.2.2.2⟩)
  refine ⟨_, _, _, _, e1, e2, hashOf_eq_of ?_, hashOf_eq_of ?_⟩ <;>
    simp only [List.mem_cons, List.not_mem_nil, or_false, forall_eq_or_imp, forall_eq] <;>
    exact ⟨by decide, intBytes_chunk hv h0.2.1, hash_chunk _⟩

/-- When one of the numbers is zero, one of the hashes panics: before anything is returned. -/
theorem exchParts_panic {u v x1 y1 x2 y2 : ℕ} (hu : u < 2 ^ 256) (hv : v < 2 ^ 256) (h0 : ¬ (u ≠ 0 ∧ v ≠ 0 ∧ x1 ≠ 0 ∧ y1 ≠ 0 ∧ x2 ≠ 0 ∧ y2 ≠ 0))
    (za zb : Bytes) (hza : za ≠ [] ∧ za.length < 2 ^ 31) (hzb : zb ≠ [] ∧ zb.length < 2 ^ 31) (keyBits : Int) (hk : 1 ≤ keyBits) (hk' : keyBits ≤ 128) :
    kdfForExch u v za zb keyBits = .panic ∨ ∃ rv, kdfForExch u v za zb keyBits = .ok rv ∧ calculateInnerHash u za zb x1 y1 x2 y2 = .panic := by
  have hL : Int.tdiv (keyBits + 7) 8 = (((keyBits + 7) / 8).toNat : ℕ) := by
    rw [Int.tdiv_eq_ediv_of_nonneg (by omega)]; omega
  have e1 := kdfForExch_eq (ux := u) (uy := v) (za := za) (zb := zb) hL (by omega) (by omega)
  by_cases hu0 : u = 0
  · left
    rw [e1, hashOf_panic (by rw [hu0]; simp [intBytes_zero_eq])]; rfl
  by_cases hv0 : v = 0
  · left
    rw [e1, hashOf_panic (by rw [hv0]; simp [intBytes_zero_eq])]; rfl
  right
  rw [hashOf_eq_of (by
    simp only [List.mem_cons, List.not_mem_nil, or_false, forall_eq_or_imp, forall_eq]
    exact ⟨intBytes_chunk hu hu0, intBytes_chunk hv hv0, hza, hzb, by decide⟩), Res.ok_bind] at e1
  refine ⟨_, e1, hashOf_panic ?_⟩
  have : x1 = 0 ∨ y1 = 0 ∨ x2 = 0 ∨ y2 = 0 := by tauto
  rcases this with rfl | rfl | rfl | rfl <;> simp [intBytes_zero_eq]

/-- **C66** Whatever 64 octets the other side sends as its two keys: the responder computes a key, unless a number is zero (then SM3 panics).
There is never an error. -/
theorem C66_responder_exact (d r : PrivateKey) (ax ay rx ry : ℕ) (h1 : ax < 2 ^ 256) (h2 : ay < 2 ^ 256) (h3 : rx < 2 ^ 256) (h4 : ry < 2 ^ 256) (keyBits : Int)
    (hk : 1 ≤ keyBits) (hk' : keyBits ≤ 128) (tag id oid : Option Bytes) (hid : (id.getD []).length < 2 ^ 31) (hoid : (oid.getD []).length < 2 ^ 31) :
    ∃ ex ey u v : ℕ, calculatePubKey r = .ok ⟨ex, ey⟩ ∧ calculateU 127 d r ⟨ex, ey⟩ ⟨ax, ay⟩ ⟨rx, ry⟩ = .ok ((u : Int), (v : Int)) ∧
      ((u ≠ 0 ∧ v ≠ 0 ∧ rx ≠ 0 ∧ ry ≠ 0 ∧ ex ≠ 0 ∧ ey ≠ 0) → ∃ res, calculateKeyWithConfirmation false keyBits tag d r id ⟨ax, ay⟩ ⟨rx, ry⟩ oid = .ok res) ∧
      (¬ (u ≠ 0 ∧ v ≠ 0 ∧ rx ≠ 0 ∧ ry ≠ 0 ∧ ex ≠ 0 ∧ ey ≠ 0) → calculateKeyWithConfirmation false keyBits tag d r id ⟨ax, ay⟩ ⟨rx, ry⟩ oid = .panic) := by
  obtain ⟨sx, sy, e1, s1, s2⟩ := calculatePubKey_total d
  obtain ⟨ex, ey, e2, s3, s4⟩ := calculatePubKey_total r
  obtain ⟨u, v, e3, s5, s6⟩ := calculateU_total 127 d r ⟨ex, ey⟩ ⟨ax, ay⟩ ⟨rx, ry⟩
  have z1 := getZ_eq s1 s2 hid
  have z2 := getZ_eq h1 h2 hoid
  have main : calculateKeyWithConfirmation false keyBits tag d r id ⟨ax, ay⟩ ⟨rx, ry⟩ oid =
      responderPart keyBits ((u : Int), (v : Int)) (Spec.SM3.hash (zIn (id.getD []) sx sy)) (Spec.SM3.hash (zIn (oid.getD []) ax ay)) ⟨ex, ey⟩ ⟨rx, ry⟩ := by
    unfold calculateKeyWithConfirmation
    dsimp only
    rw [if_neg (by simp), e1, Res.ok_bind, z1, Res.ok_bind, z2, Res.ok_bind, e2, Res.ok_bind, show cv.bitSize / 2 - 1 = 127 from rfl, e3, Res.ok_bind,
      if_neg (by simp)]
  refine ⟨ex, ey, u, v, e2, e3, ?_, ?_⟩
  · intro h0
    obtain ⟨rv, h, t1, t2, g1, g2, g3, g4⟩ := exchParts_ok s5 s6 h3 h4 s3 s4 h0 _ _ (hash_chunk (zIn (oid.getD []) ax ay)) (hash_chunk (zIn (id.getD []) sx sy)) keyBits hk hk'
    rw [main]
    unfold responderPart
    dsimp only
    rw [g1, Res.ok_bind, g2, Res.ok_bind, g3, Res.ok_bind, g4, Res.ok_bind]
    exact ⟨_, rfl⟩
  · intro h0
    rw [main]
    unfold responderPart
    dsimp only
    rcases exchParts_panic s5 s6 h0 _ _ (hash_chunk (zIn (oid.getD []) ax ay)) (hash_chunk (zIn (id.getD []) sx sy)) keyBits hk hk' with hp | ⟨rv, hp, hq⟩
    · rw [hp]; rfl
    · rw [hp, Res.ok_bind, hq]; rfl

/-- **C66** The same for the initiator: the only error is about the confirmation value, and one value is accepted. -/
theorem C66_initiator_exact (d r : PrivateKey) (ax ay rx ry : ℕ) (h1 : ax < 2 ^ 256) (h2 : ay < 2 ^ 256) (h3 : rx < 2 ^ 256) (h4 : ry < 2 ^ 256) (keyBits : Int)
    (hk : 1 ≤ keyBits) (hk' : keyBits ≤ 128) (id oid : Option Bytes) (hid : (id.getD []).length < 2 ^ 31) (hoid : (oid.getD []).length < 2 ^ 31) :
    ∃ ex ey u v : ℕ, calculatePubKey r = .ok ⟨ex, ey⟩ ∧ calculateU 127 d r ⟨ex, ey⟩ ⟨ax, ay⟩ ⟨rx, ry⟩ = .ok ((u : Int), (v : Int)) ∧
      ((u ≠ 0 ∧ v ≠ 0 ∧ ex ≠ 0 ∧ ey ≠ 0 ∧ rx ≠ 0 ∧ ry ≠ 0) → ∃ res t, ∀ tag,
        calculateKeyWithConfirmation true keyBits (some tag) d r id ⟨ax, ay⟩ ⟨rx, ry⟩ oid = if tag = t then .ok res else .err "confirmation tag mismatch") ∧
      (¬ (u ≠ 0 ∧ v ≠ 0 ∧ ex ≠ 0 ∧ ey ≠ 0 ∧ rx ≠ 0 ∧ ry ≠ 0) → ∀ tag,
        calculateKeyWithConfirmation true keyBits (some tag) d r id ⟨ax, ay⟩ ⟨rx, ry⟩ oid = .panic) := by
  obtain ⟨sx, sy, e1, s1, s2⟩ := calculatePubKey_total d
  obtain ⟨ex, ey, e2, s3, s4⟩ := calculatePubKey_total r
  obtain ⟨u, v, e3, s5, s6⟩ := calculateU_total 127 d r ⟨ex, ey⟩ ⟨ax, ay⟩ ⟨rx, ry⟩
  have z1 := getZ_eq s1 s2 hid
  have z2 := getZ_eq h1 h2 hoid
  have main : ∀ tag, calculateKeyWithConfirmation true keyBits (some tag) d r id ⟨ax, ay⟩ ⟨rx, ry⟩ oid =
      initiatorPart keyBits tag ((u : Int), (v : Int)) (Spec.SM3.hash (zIn (id.getD []) sx sy)) (Spec.SM3.hash (zIn (oid.getD []) ax ay)) ⟨ex, ey⟩ ⟨rx, ry⟩ := by
    intro tag
    unfold calculateKeyWithConfirmation
    dsimp only
    rw [if_neg (by simp), e1, Res.ok_bind, z1, Res.ok_bind, z2, Res.ok_bind, e2, Res.ok_bind, show cv.bitSize / 2 - 1 = 127 from rfl, e3, Res.ok_bind,
      if_pos rfl]
    rfl
  refine ⟨ex, ey, u, v, e2, e3, ?_, ?_⟩
  · intro h0
    obtain ⟨rv, h, t1, t2, g1, g2, g3, g4⟩ := exchParts_ok s5 s6 s3 s4 h3 h4 h0 _ _ (hash_chunk (zIn (id.getD []) sx sy)) (hash_chunk (zIn (oid.getD []) ax ay)) keyBits hk hk'
    refine ⟨⟨rv, [], t2⟩, t1, fun tag => ?_⟩
    rw [main]
    unfold initiatorPart
    dsimp only
    rw [g1, Res.ok_bind, g2, Res.ok_bind, g3, Res.ok_bind, g4, Res.ok_bind]
    by_cases ht : tag = t1
    · rw [if_pos ht, if_neg (by rw [ht]; simp)]
    · rw [if_neg ht, if_pos (fun h => ht h.symm)]
  · intro h0 tag
    rw [main]
    unfold initiatorPart
    dsimp only
    rcases exchParts_panic s5 s6 h0 _ _ (hash_chunk (zIn (id.getD []) sx sy)) (hash_chunk (zIn (oid.getD []) ax ay)) keyBits hk hk' with hp | ⟨rv, hp, hq⟩
    · rw [hp]; rfl
    · rw [hp, Res.ok_bind, hq]; rfl

/-! ## Cases -/

/-- The pair (1, 1), on no curve that the standard knows. -/
example (M : Bytes) (hM : M ≠ []) (hl : M.length < 2 ^ 31) (tape : Tape) (hn : none ∉ tape) :
    (∃ c, encrypt ⟨1, 1⟩ M 1 tape = .ok c) ∨ encrypt ⟨1, 1⟩ M 1 tape = .loop := C64_never_refused _ M hM hl 1 (.inl rfl) tape hn

/-- With (0, 0) as ephemeral key of the other side the responder panics. -/
example : calculateKeyWithConfirmation false 128 none ⟨1⟩ ⟨3⟩ none ⟨(exGx : ℕ), (exGy : ℕ)⟩ ⟨(0 : ℕ), (0 : ℕ)⟩ none = .panic := by
  obtain ⟨ex, ey, u, v, _, _, _, h⟩ := C66_responder_exact ⟨1⟩ ⟨3⟩ exGx exGy 0 0 (by decide +kernel) (by decide +kernel) (by norm_num) (by norm_num) 128 (by norm_num)
    (by norm_num) none none none (by decide) (by decide)
  exact h (by simp)

end Verif.Props
