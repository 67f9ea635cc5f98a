import Verif.Sm2.CipherLemmas
import Verif.Props.Sm2Sign
/-!
# SM2 encryption: C42 – C47, C63, C64
-/
namespace Verif.Props
open EC Verif.Sm2
open Verif.Spec.SM2 (coords fe IsCiphertext)
open Verif.Spec.DER (elem IsInt InRange)

attribute [local irreducible] Spec.SM2.fe Spec.SM3.hash streamBlock

/-! ## C42 -/

theorem mult_pub {d : ℕ} {pub : PublicKey} (hpub : calculatePubKey ⟨d⟩ = .ok pub) (k : ℕ) :
    scalarMult cv (pub.X, pub.Y) (intBytes k) = .ok (enc (k • d • G)) := by
  by_cases hd : n ∣ d
  · have hd0 : d • G = 0 := (smul_eq_zero G_ne_zero).2 hd
    have hp := pub_of_priv hpub
    have hz : enc (0 : Pt) = ((0, 0) : Int × Int) := rfl
    rw [hd0, hz] at hp
    rw [hp, mult_zero, hd0, show k • (0 : Pt) = 0 from nsmul_zero k, hz]
  · obtain ⟨x, y, hc, _, _⟩ := coords_dG hd
    rw [pub_of_coords hpub hc, mult_int (coords_isAff hc), Int.natAbs_natCast]

/-- C42: decryption inverts encryption, for every private key (multiples of `n` too), every message, both layouts and
every tape of nonces. -/
theorem C42_round_trip (d : ℕ) (pub : PublicKey) (hpub : calculatePubKey ⟨d⟩ = .ok pub) (M : Bytes) (t : Int) (tape : Tape)
    (c : Bytes) (h : encrypt pub M t tape = .ok c) : decrypt ⟨d⟩ c t = .ok M ∧ c.length = 97 + M.length := by
  have hk : ∀ k : ℕ, ∃ xy : ℕ × ℕ, enc (k • d • G) = ((xy.1 : Int), (xy.2 : Int)) ∧ xy.1 < 2 ^ 256 ∧ xy.2 < 2 ^ 256 := by
    intro k
    obtain ⟨x, y, h1, h2, h3⟩ := enc_nat (k • d • G)
    exact ⟨(x, y), h1, h2, h3⟩
  choose kp hkp using hk
  obtain ⟨k, x1, y1, _, h1, h2, h3, ht, _, h5, _, h7⟩ := encrypt_ok (X := pub.X) (Y := pub.Y) (kp := kp) (fun k => (hkp k).2)
    (fun k => by rw [mult_pub hpub, (hkp k).1]) h
  have hl : (4 :: (fe x1 ++ fe y1) : Bytes).length = 65 := by simp [length_fe]
  have hls : (stream (kp k).1 (kp k).2 0 M.length).length = M.length := length_stream ..
  constructor
  · rw [h7, decrypt_point h3, Int.natAbs_natCast, smul_comm, (hkp k).1,
      decryptRest_eq (hkp k).2.1 (hkp k).2.2 hl (hash_length _) ht]
    have hz : (List.zipWith (· ^^^ ·) M (stream (kp k).1 (kp k).2 0 M.length)).length = M.length := by
      rw [List.length_zipWith, hls, min_self]
    rw [hz, zipWith_xor_self _ _ hls, h5, Res.ok_bind, if_pos rfl]
  · rw [h7, List.length_append, hl, length_arrange, List.length_zipWith, hls, hash_length]
    omega

/-! ## C43 -/

/-- C43: the ciphertext has the parts the standard prescribes, for a nonce that the random source delivered, in the order
of the layout; in particular its key stream is not all zero. -/
theorem C43_standard (P : Pt) (x y : ℕ) (hP : coords P = some (x, y)) (M : Bytes) (t : Int) (tape : Tape) (c : Bytes)
    (h : encrypt ⟨x, y⟩ M t tape = .ok c) :
    ∃ k c1 c2 c3, (∃ raw, some raw ∈ tape ∧ beNat raw = k) ∧ IsCiphertext P M k c1 c2 c3 ∧
      (t = 1 ∧ c = c1 ++ c2 ++ c3 ∨ t = 2 ∧ c = c1 ++ c3 ++ c2) := by
  have hk : ∀ k : ℕ, ∃ xy : ℕ × ℕ, enc (k • P) = ((xy.1 : Int), (xy.2 : Int)) ∧ xy.1 < 2 ^ 256 ∧ xy.2 < 2 ^ 256 := by
    intro k
    obtain ⟨x, y, h1, h2, h3⟩ := enc_nat (k • P)
    exact ⟨(x, y), h1, h2, h3⟩
  choose kp hkp using hk
  obtain ⟨k, x1, y1, hd, h1, h2, h3, ht, h4, _, h6, h7⟩ := encrypt_ok (X := (x : Int)) (Y := (y : Int)) (kp := kp)
    (fun k => (hkp k).2) (fun k => by rw [mult_int (coords_isAff hP), Int.natAbs_natCast, (hkp k).1]) h
  obtain ⟨x2, y2, hc2, _, _⟩ := coords_ne (fun h0 => not_dvd_of_lt h1 h2 ((smul_eq_zero (coords_some hP).1).1 h0))
  have he := (hkp k).1
  rw [enc_coords hc2, Prod.mk.injEq, Int.ofNat_inj, Int.ofNat_inj] at he
  rw [← he.1, ← he.2] at h6 h7
  have hst : stream x2 y2 0 M.length = Spec.SM2.kdf (fe x2 ++ fe y2) M.length := stream_eq_kdf (by omega)
  have hls : (stream x2 y2 0 M.length).length = M.length := length_stream ..
  refine ⟨k, 4 :: (fe x1 ++ fe y1), List.zipWith (· ^^^ ·) M (stream x2 y2 0 M.length), Spec.SM3.hash (fe x2 ++ M ++ fe y2),
    hd, ⟨h1, h2, x1, y1, x2, y2, h3, hc2, rfl, ?_, ?_, rfl⟩, ?_⟩
  · intro h0
    apply h6
    rw [← hst] at h0
    exact (zipWith_xor_eq_self _ _ hls).2 h0
  · rw [hst]
  · unfold arrange at h7
    rcases ht with ht | ht
    · rw [if_pos ht] at h7; left; exact ⟨ht, by rw [h7, ← List.append_assoc]⟩
    · rw [if_neg (by rw [ht]; decide)] at h7; right; exact ⟨ht, by rw [h7, ← List.append_assoc]⟩

/-! ## C44 -/

/-- The loop of `Encrypt` ends when the tape delivers a nonce with a key stream that is not all zero. -/
theorem encryptLoop_hits {X Y : Int} {kp : ℕ → ℕ × ℕ} (hkp : ∀ k, (kp k).1 < 2 ^ 256 ∧ (kp k).2 < 2 ^ 256)
    (hpub : ∀ k : ℕ, scalarMult cv (X, Y) (intBytes k) = .ok (((kp k).1 : Int), ((kp k).2 : Int))) {M : Bytes}
    {good : ℕ → Prop} (hg : ∀ k, good k → 1 ≤ k ∧ k < n)
    (hg' : ∀ k, good k → List.zipWith (· ^^^ ·) M (stream (kp k).1 (kp k).2 0 M.length) ≠ M) {tape : Tape}
    (h : Hits good tape) :
    ∃ c1 c2 k, encryptLoop ⟨X, Y⟩ M tape = .ok (c1, c2, (((kp k).1 : Int), ((kp k).2 : Int))) := by
  unfold encryptLoop
  obtain ⟨⟨c1, c2, q⟩, h1, k, h2⟩ := forLoop_good (σ := Tape × Bytes) (α := Bytes × Bytes × (Int × Int)) (body := fun s => do
      let r ← nextK s.1 cv.N
      let kBytes := intBytes r.1
      let c1p ← scalarBaseMult cv kBytes
      let c1 ← marshal cv c1p
      let kPB ← scalarMult cv (X, Y) kBytes
      let c2 ← kdf kPB.1 kPB.2 s.2
      if !notEncrypted c2 M then .ok (.inr (c1, c2, kPB)) else .ok (.inl (r.2, c2)))
    (fun s => s.1.length) (fun s => Hits good s.1 ∧ s.2 = M)
    (fun a => ∃ k, a.2.2 = (((kp k).1 : Int), ((kp k).2 : Int))) (by
      rintro ⟨t, m⟩ ⟨hs, hm⟩
      dsimp only at hs hm
      subst hm
      obtain ⟨k, t', g1, g2, g3, g4⟩ := nextK_hits hg hs
      dsimp only
      rw [g1, Res.ok_bind]
      dsimp only
      obtain ⟨x1, y1, hc, _, _⟩ := coords_ne (fun h0 => not_dvd_of_lt g2.1 g2.2 ((smul_eq_zero G_ne_zero).1 h0))
      rw [baseMult_int, Res.ok_bind, Int.natAbs_natCast, marshal_coords hc, Res.ok_bind, hpub, Res.ok_bind,
        kdf_eq (hkp k).1 (hkp k).2, Res.ok_bind]
      split
      · exact .inl ⟨_, rfl, k, rfl⟩
      · rename_i hne
        have heq : List.zipWith (· ^^^ ·) m (stream (kp k).1 (kp k).2 0 m.length) = m := by simpa [notEncrypted] using hne
        refine .inr ⟨_, rfl, ⟨?_, heq⟩, g4⟩
        rcases g3 with g3 | g3
        · exact absurd heq (hg' k g3)
        · exact g3) (tape.length + 1) (tape, M) ⟨h, rfl⟩ (by dsimp only; omega)
  dsimp only at h2
  rw [h2] at h1
  exact ⟨c1, c2, k, h1⟩

/-- C44, the part that holds: for a non-empty message encryption returns as soon as the random source has delivered a
nonce for which the standard has a ciphertext. That every message has such a nonce is a property of SM3 that nobody can
prove. -/
theorem C44_returns_partial (P : Pt) (x y : ℕ) (hP : coords P = some (x, y)) (M : Bytes) (hM : M ≠ []) (hM' : M.length < 2 ^ 31)
    (t : Int) (ht : t = 1 ∨ t = 2) (pre : List Bytes) (raw : Bytes) (rest : Tape)
    (hk : ∃ c1 c2 c3, IsCiphertext P M (beNat raw) c1 c2 c3) :
    ∃ c, encrypt ⟨x, y⟩ M t (pre.map some ++ some raw :: rest) = .ok c := by
  have hk' : ∀ k : ℕ, ∃ xy : ℕ × ℕ, enc (k • P) = ((xy.1 : Int), (xy.2 : Int)) ∧ xy.1 < 2 ^ 256 ∧ xy.2 < 2 ^ 256 := by
    intro k
    obtain ⟨x, y, h1, h2, h3⟩ := enc_nat (k • P)
    exact ⟨(x, y), h1, h2, h3⟩
  choose kp hkp using hk'
  obtain ⟨c1, c2, k, h1⟩ := encryptLoop_hits (X := (x : Int)) (Y := (y : Int)) (M := M) (kp := kp) (fun k => (hkp k).2)
    (fun k => by rw [mult_int (coords_isAff hP), Int.natAbs_natCast, (hkp k).1])
    (good := fun k => ∃ c1 c2 c3, IsCiphertext P M k c1 c2 c3) (by
      rintro k ⟨_, _, _, h1, h2, _⟩; exact ⟨h1, h2⟩) (by
      rintro k ⟨c1, c2, c3, h1, h2, x1, y1, x2, y2, h3, h4, h5, h6, h7, h8⟩
      have he := (hkp k).1
      rw [enc_coords h4, Prod.mk.injEq, Int.ofNat_inj, Int.ofNat_inj] at he
      rw [← he.1, ← he.2, Ne, zipWith_xor_eq_self _ _ (length_stream ..), stream_eq_kdf (by omega)]
      exact h6) (hits_of_mem pre raw rest hk)
  unfold encrypt
  rw [h1, Res.ok_bind]
  dsimp only
  rw [bigIntTo32Bytes_nat (hkp k).2.1, Res.ok_bind, bigIntTo32Bytes_nat (hkp k).2.2, Res.ok_bind, hashOf_eq_of, Res.ok_bind]
  · rcases ht with ht | ht
    · rw [if_pos (show t = C1C2C3 from ht)]; exact ⟨_, rfl⟩
    · rw [if_neg (by rw [ht]; decide), if_pos (show t = C1C3C2 from ht)]; exact ⟨_, rfl⟩
  · intro c hc
    have h32 : ∀ v, fe v ≠ [] ∧ (fe v).length < 2 ^ 31 := fun v =>
      ⟨by intro h; have := length_fe v; rw [h] at this; simp at this, by rw [length_fe]; norm_num⟩
    simp only [List.mem_cons, List.not_mem_nil, or_false] at hc
    rcases hc with h | h | h
    · rw [h]; exact h32 _
    · rw [h]; exact ⟨hM, hM'⟩
    · rw [h]; exact h32 _

/-- C44 is violated: with the empty message `Encrypt` never returns a ciphertext, on no tape and for no key, and on a
random source without errors it draws nonces for ever. -/
theorem C44_empty_violated :
    (∀ (P : Pt) (x y : ℕ) (t : Int) (tape : Tape) (c : Bytes), coords P = some (x, y) → encrypt ⟨x, y⟩ [] t tape ≠ .ok c) ∧
    ∀ (P : Pt) (x y : ℕ) (t : Int) (tape : Tape), coords P = some (x, y) → none ∉ tape →
      encrypt ⟨x, y⟩ [] t tape = .loop := by
  have key : ∀ (P : Pt) (x y : ℕ) (t : Int) (tape : Tape) (c : Bytes), coords P = some (x, y) →
      encrypt ⟨x, y⟩ [] t tape ≠ .ok c := by
    intro P x y t tape c hP h
    obtain ⟨k, c1, c2, c3, _, ⟨_, _, _, _, _, _, _, _, _, h6, _⟩, _⟩ := C43_standard P x y hP [] t tape c h
    apply h6
    simp [Spec.SM2.kdf]
  refine ⟨key, fun P x y t tape hP hn => ?_⟩
  have hres : (∃ a, encryptLoop ⟨x, y⟩ [] tape = .ok a) ∨ encryptLoop ⟨x, y⟩ [] tape = .loop := by
    refine forLoop_res (fun s => none ∉ s.1 ∧ s.2 = []) ?_ _ _ ⟨hn, rfl⟩
    rintro ⟨t, m⟩ ⟨hs, hm⟩
    dsimp only at hs hm
    subst hm
    rcases nextK_res t hs with ⟨r, hr⟩ | hr
    · obtain ⟨_, _, _, hsuf⟩ := nextK_mem hr
      obtain ⟨k, hk, hk1, hk2⟩ := nextK_nat hr
      obtain ⟨x1, y1, hc, _, _⟩ := coords_ne (fun h0 => not_dvd_of_lt hk1 hk2 ((smul_eq_zero G_ne_zero).1 h0))
      obtain ⟨x2, y2, e1, e2, e3⟩ := enc_nat (k • P)
      rw [hr, Res.ok_bind]
      dsimp only
      rw [hk, baseMult_int, Res.ok_bind, Int.natAbs_natCast, marshal_coords hc, Res.ok_bind, mult_int (coords_isAff hP),
        Res.ok_bind, Int.natAbs_natCast, e1, kdf_eq e2 e3, Res.ok_bind]
      exact .inr (.inl ⟨(r.2, []), rfl, fun hm => hs (hsuf.subset hm), rfl⟩)
    · rw [hr]; exact .inr (.inr rfl)
  rcases hres with ⟨a, ha⟩ | hl
  · exfalso
    obtain ⟨⟨t', m'⟩, hI, hb⟩ := forLoop_inv (fun s => s.2 = []) (fun s s' hs h => by
      rw [Res.bind_eq_ok] at h
      obtain ⟨r, g1, g2⟩ := h
      dsimp only at g2
      rw [baseMult_int, Res.ok_bind, Res.bind_eq_ok] at g2
      obtain ⟨_, _, g2⟩ := g2
      rw [Res.bind_eq_ok] at g2
      obtain ⟨_, _, g2⟩ := g2
      rw [Res.bind_eq_ok] at g2
      obtain ⟨c2, _, g2⟩ := g2
      split at g2
      · simp at g2
      · rename_i hne
        simp only [Res.ok.injEq, Sum.inl.injEq] at g2
        subst g2
        simpa [notEncrypted] using hne) _ _ _ rfl ha
    dsimp only at hI
    subst hI
    rw [Res.bind_eq_ok] at hb
    obtain ⟨r, g1, g2⟩ := hb
    obtain ⟨x2, y2, e1, e2, e3⟩ := enc_nat (r.1.natAbs • P)
    dsimp only at g2
    rw [baseMult_int, Res.ok_bind, Res.bind_eq_ok] at g2
    obtain ⟨_, _, g2⟩ := g2
    rw [mult_int (coords_isAff hP), Res.ok_bind, e1, kdf_eq e2 e3, Res.ok_bind] at g2
    simp [notEncrypted] at g2
  · unfold encrypt; rw [hl]; rfl

/-! ## C45 -/

/-- The coordinates that enter the key derivation: those of the point, zeros for the point at infinity. -/
def sharedXY (Q : Pt) : ℕ × ℕ := (coords Q).getD (0, 0)

theorem enc_shared (Q : Pt) : enc Q = (((sharedXY Q).1 : Int), ((sharedXY Q).2 : Int)) ∧ (sharedXY Q).1 < 2 ^ 256 ∧
    (sharedXY Q).2 < 2 ^ 256 := by
  by_cases h : Q = 0
  · subst h; exact ⟨rfl, by decide, by decide⟩
  · obtain ⟨x, y, h1, h2, h3⟩ := coords_ne h
    unfold sharedXY
    rw [h1, Option.getD_some]
    exact ⟨enc_coords h1, lt_trans h2 p_lt, lt_trans h3 p_lt⟩

theorem chunks_fe {x y : ℕ} {m : Bytes} (hm : m ≠ []) (hm' : m.length < 2 ^ 31) :
    hashOf [fe x, m, fe y] = .ok (Spec.SM3.hash (fe x ++ m ++ fe y)) := by
  rw [hashOf_eq_of]
  · simp
  intro c hc
  have h32 : ∀ v, fe v ≠ [] ∧ (fe v).length < 2 ^ 31 := fun v =>
    ⟨by intro h; have := length_fe v; rw [h] at this; simp at this, by rw [length_fe]; norm_num⟩
  simp only [List.mem_cons, List.not_mem_nil, or_false] at hc
  rcases hc with h | h | h
  · rw [h]; exact h32 _
  · rw [h]; exact ⟨hm, hm'⟩
  · rw [h]; exact h32 _

theorem hash_empty_chunk (x y : ℕ) : hashOf [fe x, [], fe y] = .panic := by
  rcases hashOf_cases [fe x, [], fe y] with h | h
  · exact h
  · exact absurd rfl ((hashOf_ok h).2 [] (by simp)).1

/-- `c` consists of these parts in the order of the layout `t`. -/
def Layout (t : Int) (c c1 c2 c3 : Bytes) : Prop := (t = 1 ∧ c = c1 ++ c2 ++ c3) ∨ (t = 2 ∧ c = c1 ++ c3 ++ c2)

theorem layout_arrange {t : Int} {c c1 c2 c3 : Bytes} :
    Layout t c c1 c2 c3 ↔ (t = C1C2C3 ∨ t = C1C3C2) ∧ c = c1 ++ arrange t c2 c3 := by
  unfold Layout arrange
  constructor
  · rintro (⟨h1, h2⟩ | ⟨h1, h2⟩)
    · exact ⟨.inl h1, by rw [if_pos (show t = C1C2C3 from h1), h2, List.append_assoc]⟩
    · exact ⟨.inr h1, by rw [if_neg (by rw [h1]; decide), h2, List.append_assoc]⟩
  · rintro ⟨h1 | h1, h2⟩
    · rw [if_pos h1, ← List.append_assoc] at h2; exact .inl ⟨h1, h2⟩
    · rw [if_neg (by rw [h1]; decide), ← List.append_assoc] at h2; exact .inr ⟨h1, h2⟩

/-- C45: `Decrypt` returns `m` exactly if the ciphertext has a point `C1` of the curve, `m` is `C2` decrypted with the key
stream of the shared point, `m` is not empty and `C3 = SM3(x2 ‖ m ‖ y2)`. -/
theorem C45_exact (d : ℕ) (c m : Bytes) (t : Int) (hc : c.length < 2 ^ 31) :
    decrypt ⟨d⟩ c t = .ok m ↔ ∃ (Q : Pt) (x y : ℕ) (c2 c3 : Bytes), coords Q = some (x, y) ∧
      Layout t c (4 :: (fe x ++ fe y)) c2 c3 ∧ m ≠ [] ∧
      m = List.zipWith (· ^^^ ·) c2 (Spec.SM2.kdf (fe (sharedXY (d • Q)).1 ++ fe (sharedXY (d • Q)).2) c2.length) ∧
      c3 = Spec.SM3.hash (fe (sharedXY (d • Q)).1 ++ m ++ fe (sharedXY (d • Q)).2) := by
  constructor
  · intro h
    cases hu : unmarshal cv (c.take 65) with
    | none => rw [decrypt_bad_point hu] at h; cases h
    | some q =>
      obtain ⟨Q, x, y, hQ, _, htake⟩ := (unmarshal_iff _ _).1 hu
      have hl : (4 :: (fe x ++ fe y) : Bytes).length = 65 := by simp [length_fe]
      have hsplit : c = 4 :: (fe x ++ fe y) ++ c.drop 65 := by rw [← htake, List.take_append_drop]
      have hd : decrypt ⟨d⟩ c t = decryptRest (enc (d • Q)) 65 c t := by
        have := decrypt_point (d := d) hQ t (c.drop 65)
        rw [← hsplit, Int.natAbs_natCast] at this
        exact this
      rw [hd] at h
      obtain ⟨e1, e2, e3⟩ := enc_shared (d • Q)
      rw [e1] at h
      by_cases h97 : c.length < 97
      · unfold decryptRest at h; rw [splitCipher_short h97] at h; cases h
      by_cases ht : t = C1C2C3 ∨ t = C1C3C2
      · obtain ⟨c2, c3, p1, p2, p3⟩ := exists_parts (inp := c) t (by omega)
        rw [htake] at p1
        rw [p1, decryptRest_eq e2 e3 hl p2 ht, Res.bind_eq_ok] at h
        obtain ⟨hh, h1, h2⟩ := h
        split at h2
        · rename_i heq
          rw [Res.ok.injEq] at h2
          rw [h2] at h1
          obtain ⟨g1, g2⟩ := hashOf_ok h1
          refine ⟨Q, x, y, c2, c3, hQ, layout_arrange.2 ⟨ht, p1⟩, (g2 m (by simp)).1, ?_, ?_⟩
          · rw [← stream_eq_kdf (by omega), h2]
          · rw [← heq, g1]; simp
        · cases h2
      · rw [not_or] at ht
        unfold decryptRest at h; rw [splitCipher_unknown (by omega) ht.1 ht.2] at h; cases h
  · rintro ⟨Q, x, y, c2, c3, hQ, hlay, hm, h1, h2⟩
    have hl : (4 :: (fe x ++ fe y) : Bytes).length = 65 := by simp [length_fe]
    obtain ⟨ht, hlay⟩ := layout_arrange.1 hlay
    have hc2 : c2.length < 2 ^ 31 := by
      rw [hlay, List.length_append, length_arrange] at hc; omega
    obtain ⟨e1, e2, e3⟩ := enc_shared (d • Q)
    have hml : m.length < 2 ^ 31 := by rw [h1, List.length_zipWith]; omega
    rw [hlay, decrypt_point hQ, Int.natAbs_natCast, e1, decryptRest_eq e2 e3 hl (by rw [h2, hash_length]) ht,
      stream_eq_kdf (by omega), ← h1, chunks_fe hm hml, Res.ok_bind, if_pos h2.symm]

/-- C45: changing only the `C3` part of a ciphertext that decrypts gives an error. -/
theorem C45_changed_tag (d : ℕ) (c c' m c1 c2 c3 c3' : Bytes) (t : Int) (h1 : c1.length = 65) (h3 : c3.length = 32)
    (hc : Layout t c c1 c2 c3) (h : decrypt ⟨d⟩ c t = .ok m) (hne : c3' ≠ c3) (hlen : c3'.length = 32)
    (hc' : Layout t c' c1 c2 c3') : decrypt ⟨d⟩ c' t = .err "invalid cipher text" := by
  obtain ⟨ht, rfl⟩ := layout_arrange.1 hc
  obtain ⟨_, rfl⟩ := layout_arrange.1 hc'
  cases hu : unmarshal cv c1 with
  | none => rw [decrypt_bad_point (by rw [List.take_left' h1]; exact hu)] at h; cases h
  | some q =>
    obtain ⟨Q, x, y, hQ, _, htake⟩ := (unmarshal_iff _ _).1 hu
    subst htake
    obtain ⟨e1, e2, e3⟩ := enc_shared (d • Q)
    rw [decrypt_point hQ, Int.natAbs_natCast, e1, decryptRest_eq e2 e3 h1 h3 ht, Res.bind_eq_ok] at h
    obtain ⟨hh, g1, g2⟩ := h
    rw [decrypt_point hQ, Int.natAbs_natCast, e1, decryptRest_eq e2 e3 h1 hlen ht, g1, Res.ok_bind]
    split at g2
    · rename_i heq
      rw [if_neg (by rw [heq]; exact hne.symm)]
    · cases g2

/-! ## C46 -/

/-- `inp` begins with an uncompressed point of the curve. -/
def BeginsWithPoint (inp : Bytes) : Prop := ∃ (Q : Pt) (x y : ℕ), coords Q = some (x, y) ∧ inp.take 65 = 4 :: (fe x ++ fe y)

theorem unmarshal_none {inp : Bytes} : unmarshal cv (inp.take 65) = none ↔ ¬ BeginsWithPoint inp := by
  constructor
  · rintro h ⟨Q, x, y, h1, h2⟩
    rw [h2, unmarshal_coords h1] at h
    cases h
  · intro h
    cases hu : unmarshal cv (inp.take 65) with
    | none => rfl
    | some q =>
      obtain ⟨Q, x, y, h1, _, h2⟩ := (unmarshal_iff _ _).1 hu
      exact absurd ⟨Q, x, y, h1, h2⟩ h

/-- C46 is violated. Exactly when `Decrypt` panics, for inputs below 2 GiB: no point at the beginning, fewer than 97 bytes,
or 97 bytes (nothing encrypted) with a known layout. -/
theorem C46_panics_violated (d : ℕ) (inp : Bytes) (t : Int) (h : inp.length < 2 ^ 31) :
    decrypt ⟨d⟩ inp t = .panic ↔ ¬ BeginsWithPoint inp ∨ inp.length < 97 ∨ (inp.length = 97 ∧ (t = 1 ∨ t = 2)) := by
  by_cases hb : BeginsWithPoint inp
  · have hb' := hb
    obtain ⟨Q, x, y, hQ, htake⟩ := hb'
    have hl : (4 :: (fe x ++ fe y) : Bytes).length = 65 := by simp [length_fe]
    have hsplit : inp = 4 :: (fe x ++ fe y) ++ inp.drop 65 := by rw [← htake, List.take_append_drop]
    have hd : decrypt ⟨d⟩ inp t = decryptRest (enc (d • Q)) 65 inp t := by
      have := decrypt_point (d := d) hQ t (inp.drop 65)
      rw [← hsplit, Int.natAbs_natCast] at this
      exact this
    obtain ⟨e1, e2, e3⟩ := enc_shared (d • Q)
    rw [hd, e1]
    by_cases h97 : inp.length < 97
    · unfold decryptRest; rw [splitCipher_short h97]
      exact ⟨fun _ => .inr (.inl h97), fun _ => rfl⟩
    by_cases ht : t = C1C2C3 ∨ t = C1C3C2
    · obtain ⟨c2, c3, p1, p2, p3⟩ := exists_parts (inp := inp) t (by omega)
      rw [htake] at p1
      rw [p1, decryptRest_eq e2 e3 hl p2 ht, ← p1]
      by_cases h0 : inp.length = 97
      · have : c2 = [] := List.length_eq_zero_iff.1 (by omega)
        subst this
        rw [List.zipWith_nil_left, hash_empty_chunk]
        exact ⟨fun _ => .inr (.inr ⟨h0, ht⟩), fun _ => rfl⟩
      · have hm : (List.zipWith (· ^^^ ·) c2 (stream (sharedXY (d • Q)).1 (sharedXY (d • Q)).2 0 c2.length)).length = c2.length := by
          rw [List.length_zipWith, length_stream, min_self]
        rw [chunks_fe (fun h' => by rw [h'] at hm; simp at hm; omega) (by omega), Res.ok_bind]
        constructor
        · intro h'; split at h' <;> cases h'
        · rintro (h' | h' | h')
          · exact absurd hb h'
          · omega
          · omega
    · have ht' := ht
      rw [not_or] at ht'
      unfold decryptRest
      rw [splitCipher_unknown (by omega) ht'.1 ht'.2]
      constructor
      · intro h'; cases h'
      · rintro (h' | h' | h')
        · exact absurd hb h'
        · omega
        · exact absurd h'.2 ht
  · rw [decrypt_bad_point (unmarshal_none.2 hb)]
    exact ⟨fun _ => .inl hb, fun _ => rfl⟩

/-- C46, the part that holds: with a point and at least 98 bytes the outcome is a message or an error, and an unknown layout
is an error. -/
theorem C46_returns_partial (d : ℕ) (inp : Bytes) (t : Int) (hb : BeginsWithPoint inp) (hl : 98 ≤ inp.length)
    (h : inp.length < 2 ^ 31) :
    (t = 1 ∨ t = 2 → (∃ m, decrypt ⟨d⟩ inp t = .ok m) ∨ decrypt ⟨d⟩ inp t = .err "invalid cipher text") ∧
    (t ≠ 1 → t ≠ 2 → decrypt ⟨d⟩ inp t = .err "unknown cipherTextType") := by
  obtain ⟨Q, x, y, hQ, htake⟩ := hb
  have hlen : (4 :: (fe x ++ fe y) : Bytes).length = 65 := by simp [length_fe]
  have hsplit : inp = 4 :: (fe x ++ fe y) ++ inp.drop 65 := by rw [← htake, List.take_append_drop]
  have hd : decrypt ⟨d⟩ inp t = decryptRest (enc (d • Q)) 65 inp t := by
    have := decrypt_point (d := d) hQ t (inp.drop 65)
    rw [← hsplit, Int.natAbs_natCast] at this
    exact this
  obtain ⟨e1, e2, e3⟩ := enc_shared (d • Q)
  rw [hd, e1]
  constructor
  · intro ht
    obtain ⟨c2, c3, p1, p2, p3⟩ := exists_parts (inp := inp) t (by omega)
    rw [htake] at p1
    have hm : (List.zipWith (· ^^^ ·) c2 (stream (sharedXY (d • Q)).1 (sharedXY (d • Q)).2 0 c2.length)).length = c2.length := by
      rw [List.length_zipWith, length_stream, min_self]
    rw [p1, decryptRest_eq e2 e3 hlen p2 ht, chunks_fe (fun h' => by rw [h'] at hm; simp at hm; omega) (by omega), Res.ok_bind]
    split
    · exact .inl ⟨_, rfl⟩
    · exact .inr rfl
  · intro h1 h2
    unfold decryptRest
    rw [splitCipher_unknown (by omega) h1 h2]
    rfl

/-! ## C47 -/

theorem octets_eq {c : Bytes} (h : c.length < 2 ^ 63) : Der.marshalOctets c = elem 0x04 c := Der.makeElem_eq h

theorem inRange_fe {v : ℕ} (h : v < 2 ^ 256) : InRange (v : Int) 32 := by
  unfold InRange
  constructor
  · norm_num
  · norm_num; omega

/-- The pieces in the order in which both forms have them. -/
theorem marshalCipher_eq {x y : ℕ} (hx : x < 2 ^ 256) (hy : y < 2 ^ 256) (b : Byte) {t : Int} (ht : t = C1C2C3 ∨ t = C1C3C2)
    {c2 c3 : Bytes} (h3 : c3.length = 32) :
    marshalCipher (b :: (fe x ++ fe y) ++ arrange t c2 c3) t = .ok (Der.marshalSequence (Der.marshalInt x ++ Der.marshalInt y ++
      (if t = C1C2C3 then Der.marshalOctets c2 ++ Der.marshalOctets c3 else Der.marshalOctets c3 ++ Der.marshalOctets c2))) := by
  have hl : (b :: (fe x ++ fe y) : Bytes).length = 65 := by simp [length_fe]
  have hb32 : ((((cv.bitSize + 7) >>> 3 : Nat)) : Int) = 32 := rfl
  have s32 : ((Sm3.size : ℕ) : Int) = 32 := rfl
  have hlen : (b :: (fe x ++ fe y) ++ arrange t c2 c3).length = 65 + c2.length + 32 := by
    rw [List.length_append, length_arrange, hl, h3]; omega
  have e2 : ((b :: (fe x ++ fe y) ++ arrange t c2 c3).length : Int) - (1 + 32 * 2) - 32 = c2.length := by
    rw [hlen]; push_cast; omega
  have m2 : makeBytes 32 = .ok (List.replicate 32 0) := rfl
  have sx : slice (b :: (fe x ++ fe y) ++ arrange t c2 c3) 1 (1 + 32) = .ok (fe x) := by
    have := slice_eq [b] (fe x) (fe y ++ arrange t c2 c3) 1 (1 + 32) rfl (by rw [length_fe]; rfl)
    simpa using this
  have sy : slice (b :: (fe x ++ fe y) ++ arrange t c2 c3) (1 + 32) (1 + 32 + 32) = .ok (fe y) := by
    have := slice_eq (b :: fe x) (fe y) (arrange t c2 c3) (1 + 32) (1 + 32 + 32) (by simp [length_fe]) (by simp [length_fe])
    simpa using this
  unfold marshalCipher
  dsimp only
  rw [s32, hb32, e2, makeBytes_nat, Res.ok_bind, m2, Res.ok_bind, sx, Res.ok_bind, sy, Res.ok_bind, beNat_fe hx, beNat_fe hy]
  by_cases h : t = C1C2C3
  · have s1 : slice (b :: (fe x ++ fe y) ++ arrange t c2 c3) (1 + 32 + 32) (1 + 32 + 32 + (c2.length : Int)) = .ok c2 := by
      rw [arrange, if_pos h, ← List.append_assoc]
      exact slice_eq _ _ _ _ _ (by rw [hl]; rfl) (by rw [hl]; rfl)
    have s2 : slice (b :: (fe x ++ fe y) ++ arrange t c2 c3) (1 + 32 + 32 + (c2.length : Int)) (1 + 32 + 32 + (c2.length : Int) + 32) =
        .ok c3 := by
      rw [arrange, if_pos h, ← List.append_assoc, ← List.append_nil (b :: (fe x ++ fe y) ++ c2 ++ c3)]
      exact slice_eq _ _ _ _ _ (by rw [List.length_append, hl]; push_cast; omega)
        (by rw [List.length_append, hl, h3]; push_cast; omega)
    rw [if_pos h, s1, Res.ok_bind, s2, Res.ok_bind, copyAt_full (by simp), copyAt_full (by simp [h3]), if_pos h]
    simp only [List.append_assoc]
  · have s1 : slice (b :: (fe x ++ fe y) ++ arrange t c2 c3) (1 + 32 + 32) (1 + 32 + 32 + 32) = .ok c3 := by
      rw [arrange, if_neg h, ← List.append_assoc]
      exact slice_eq _ _ _ _ _ (by rw [hl]; rfl) (by rw [hl, h3]; rfl)
    have s2 : slice (b :: (fe x ++ fe y) ++ arrange t c2 c3) (1 + 32 + 32 + 32) (1 + 32 + 32 + 32 + (c2.length : Int)) = .ok c2 := by
      rw [arrange, if_neg h, ← List.append_assoc, ← List.append_nil (b :: (fe x ++ fe y) ++ c3 ++ c2)]
      exact slice_eq _ _ _ _ _ (by rw [List.length_append, hl, h3]; rfl)
        (by rw [List.length_append, hl, h3]; push_cast; omega)
    rw [if_neg h, if_pos (ht.resolve_left h), s1, Res.ok_bind, s2, Res.ok_bind, copyAt_full (by simp [h3]),
      copyAt_full (by simp), if_neg h]
    simp only [List.append_assoc]

theorem unmarshalFields_eq {x y : Int} {cx cy a b : Bytes} (hx : IsInt x cx) (hy : IsInt y cy) (extra tail : Bytes)
    (hl : (elem 0x02 cx ++ elem 0x02 cy ++ elem 0x04 a ++ elem 0x04 b ++ extra).length < 2 ^ 31) :
    unmarshalFields (elem 0x30 (elem 0x02 cx ++ elem 0x02 cy ++ elem 0x04 a ++ elem 0x04 b ++ extra) ++ tail) =
      .ok (x, y, a, b) := by
  have l : cx.length < 2 ^ 31 ∧ cy.length < 2 ^ 31 ∧ a.length < 2 ^ 31 ∧ b.length < 2 ^ 31 := by
    simp only [List.length_append, CB.length_elem] at hl
    omega
  unfold unmarshalFields
  rw [(Der.fieldSequence_iff _ _ tail).2 ⟨hl, rfl⟩, Res.ok_bind]
  dsimp only
  rw [(Der.fieldInt_iff _ x (elem 0x02 cy ++ elem 0x04 a ++ elem 0x04 b ++ extra)).2 ⟨cx, hx, l.1, by simp only [List.append_assoc]⟩,
    Res.ok_bind]
  dsimp only
  rw [(Der.fieldInt_iff _ y (elem 0x04 a ++ elem 0x04 b ++ extra)).2 ⟨cy, hy, l.2.1, by simp only [List.append_assoc]⟩, Res.ok_bind]
  dsimp only
  rw [(Der.fieldOctets_iff _ a (elem 0x04 b ++ extra)).2 ⟨l.2.2.1, by simp only [List.append_assoc]⟩, Res.ok_bind]
  dsimp only
  rw [(Der.fieldOctets_iff _ b extra).2 ⟨l.2.2.2, rfl⟩, Res.ok_bind]

theorem copy4 (u : Byte) (a b c d : Bytes) :
    copyAt (copyAt (copyAt (copyAt (u :: List.replicate (a.length + b.length + c.length + d.length) 0) 1 a) (1 + a.length) b)
      (1 + a.length + b.length) c) (1 + a.length + b.length + c.length) d = u :: (a ++ b ++ c ++ d) := by
  rw [copyAt_tile' (off := 1) (src := a) [u] (List.replicate a.length 0) (List.replicate (b.length + c.length + d.length) 0) (by
      rw [List.append_assoc, List.replicate_append_replicate]; simp; omega) rfl (by simp)]
  rw [copyAt_tile' (off := 1 + a.length) (src := b) ([u] ++ a) (List.replicate b.length 0) (List.replicate (c.length + d.length) 0) (by
      rw [List.append_assoc ([u] ++ a), List.replicate_append_replicate]; simp; omega) (by simp; omega) (by simp)]
  rw [copyAt_tile' (off := 1 + a.length + b.length) (src := c) ([u] ++ a ++ b) (List.replicate c.length 0) (List.replicate d.length 0) (by
      rw [List.append_assoc ([u] ++ a ++ b), List.replicate_append_replicate]) (by simp; omega) (by simp)]
  rw [copyAt_tile' (off := 1 + a.length + b.length + c.length) (src := d) ([u] ++ a ++ b ++ c) (List.replicate d.length 0) [] (by
      simp) (by simp; omega) (by simp)]
  simp

theorem unmarshalCipher_of_fields {inp : Bytes} {x y : ℕ} {a b : Bytes} (hx : x < 2 ^ 256) (hy : y < 2 ^ 256)
    (h : unmarshalFields inp = .ok ((x : Int), (y : Int), a, b)) {t : Int} (ht : t = C1C2C3 ∨ t = C1C3C2) :
    unmarshalCipher inp t = .ok (4 :: (fe x ++ fe y ++ a ++ b)) := by
  unfold unmarshalCipher
  rw [if_pos ht, h, Res.ok_bind]
  dsimp only
  rw [bigIntTo32Bytes_nat hx, Res.ok_bind, bigIntTo32Bytes_nat hy, Res.ok_bind, copy4]
  rfl

/-- C47: the DER form of a ciphertext gives back the ciphertext, for both layouts, all coordinates below 2^256 (leading
zeros and top bits included), and `C2` of any length that `encoding/asn1` can read. -/
theorem C47_round_trip (x y : ℕ) (hx : x < 2 ^ 256) (hy : y < 2 ^ 256) (c c2 c3 : Bytes) (t : Int) (h3 : c3.length = 32)
    (hc : Layout t c (4 :: (fe x ++ fe y)) c2 c3) (h2 : c2.length < 2 ^ 31 - 128) :
    ∃ der, marshalCipher c t = .ok der ∧ unmarshalCipher der t = .ok c := by
  obtain ⟨ht, rfl⟩ := layout_arrange.1 hc
  have lx := Der.makeBigInt_length (inRange_fe hx)
  have ly := Der.makeBigInt_length (inRange_fe hy)
  refine ⟨_, marshalCipher_eq hx hy 4 ht h3, ?_⟩
  have b1 := Der.elem_length_le (t := 0x02) (c := Der.makeBigInt (x : Int)) (by omega)
  have b2 := Der.elem_length_le (t := 0x02) (c := Der.makeBigInt (y : Int)) (by omega)
  have b3 := Der.elem_length_le (t := 0x04) (c := c2) (by omega)
  have b4 : (elem 0x04 c3).length = 34 := by
    rw [CB.length_elem, CB.length_lenOctets, h3]; rfl
  rw [Der.marshalInt_eq (by omega), Der.marshalInt_eq (by omega), octets_eq (by omega), octets_eq (by omega)]
  unfold Der.marshalSequence
  split
  · rename_i h
    rw [Der.makeElem_eq (by simp only [List.length_append]; omega), Der.id_seq]
    have := unmarshalFields_eq (a := c2) (b := c3) (Der.makeBigInt_isInt (x : Int)) (Der.makeBigInt_isInt (y : Int)) [] []
      (by simp only [List.length_append, List.length_nil]; omega)
    simp only [List.append_nil] at this
    rw [← List.append_assoc, unmarshalCipher_of_fields hx hy this ht, arrange, if_pos h]
    simp
  · rename_i h
    rw [Der.makeElem_eq (by simp only [List.length_append]; omega), Der.id_seq]
    have := unmarshalFields_eq (a := c3) (b := c2) (Der.makeBigInt_isInt (x : Int)) (Der.makeBigInt_isInt (y : Int)) [] []
      (by simp only [List.length_append, List.length_nil]; omega)
    simp only [List.append_nil] at this
    rw [← List.append_assoc, unmarshalCipher_of_fields hx hy this ht, arrange, if_neg h]
    simp

/-- C47, hence decryption still works after the conversion. -/
theorem C47_decrypt_after (d : ℕ) (pub : PublicKey) (hpub : calculatePubKey ⟨d⟩ = .ok pub) (M : Bytes) (t : Int) (tape : Tape)
    (c : Bytes) (h : encrypt pub M t tape = .ok c) (hM : M.length < 2 ^ 31 - 128) :
    ∃ der c', marshalCipher c t = .ok der ∧ unmarshalCipher der t = .ok c' ∧ decrypt ⟨d⟩ c' t = .ok M := by
  obtain ⟨h1, h2⟩ := C42_round_trip d pub hpub M t tape c h
  obtain ⟨Q, x, y, c2, c3, g1, g2, _, _, g5⟩ := (C45_exact d c M t (by omega)).1 h1
  obtain ⟨_, hx, hy⟩ := coords_some g1
  have hl : c2.length + 97 = c.length := by
    obtain ⟨_, g⟩ := layout_arrange.1 g2
    rw [g, List.length_append, length_arrange, g5, hash_length]
    simp [length_fe]
    omega
  obtain ⟨der, k1, k2⟩ := C47_round_trip x y (lt_trans hx p_lt) (lt_trans hy p_lt) c c2 c3 t (by rw [g5, hash_length]) g2 (by omega)
  exact ⟨der, c, k1, k2, h1⟩

/-! ## C63 -/

theorem fieldOctets_returned (bs : Bytes) : (Der.fieldOctets bs).returned = true := by
  unfold Der.fieldOctets
  exact Der.parseElem_returned _ _ _ _

theorem fieldSequence_returned (bs : Bytes) : (Der.fieldSequence bs).returned = true := by
  unfold Der.fieldSequence
  exact Der.parseElem_returned _ _ _ _

theorem unmarshalFields_returned (inp : Bytes) : (unmarshalFields inp).returned = true := by
  unfold unmarshalFields
  apply Der.returned_bind (fieldSequence_returned _)
  intro _ _
  apply Der.returned_bind (Der.fieldInt_returned _)
  intro _ _
  apply Der.returned_bind (Der.fieldInt_returned _)
  intro _ _
  apply Der.returned_bind (fieldOctets_returned _)
  intro _ _
  apply Der.returned_bind (fieldOctets_returned _)
  intro _ _
  rfl

/-- C63 is violated by `MarshalCipher`: it panics exactly on the inputs of fewer than 97 bytes; otherwise it returns, and it
reports an unknown layout. -/
theorem C63_marshal_violated (inp : Bytes) (t : Int) :
    (inp.length < 97 → marshalCipher inp t = .panic) ∧
    (97 ≤ inp.length → (t = 1 ∨ t = 2) → ∃ der, marshalCipher inp t = .ok der) ∧
    (97 ≤ inp.length → t ≠ 1 → t ≠ 2 → marshalCipher inp t = .err "unknown cipherTextType") := by
  have hb32 : ((((cv.bitSize + 7) >>> 3 : Nat)) : Int) = 32 := rfl
  have s32 : ((Sm3.size : ℕ) : Int) = 32 := rfl
  refine ⟨fun h => ?_, fun h ht => ?_, fun h h1 h2 => ?_⟩
  · unfold marshalCipher
    dsimp only
    rw [s32, hb32]
    have : makeBytes ((inp.length : Int) - (1 + 32 * 2) - 32) = .panic := by
      unfold makeBytes; rw [if_pos (by omega)]
    rw [this]
    rfl
  · obtain ⟨c2, c3, p1, p2, p3⟩ := exists_parts (inp := inp) t h
    have hl : (inp.take 65).length = 65 := by rw [List.length_take]; omega
    obtain ⟨b, xs, hx⟩ : ∃ b xs, inp.take 65 = b :: xs := by
      cases hh : inp.take 65 with
      | nil => rw [hh] at hl; simp at hl
      | cons b xs => exact ⟨b, xs, rfl⟩
    rw [hx, List.length_cons] at hl
    have h64 : xs = fe (beNat (xs.take 32)) ++ fe (beNat (xs.drop 32)) := by
      rw [fe_beNat (by rw [List.length_take]; omega), fe_beNat (by rw [List.length_drop]; omega), List.take_append_drop]
    have b1 : beNat (xs.take 32) < 2 ^ 256 := by
      have := beNat_lt (xs.take 32); rw [List.length_take, min_eq_left (by omega)] at this; exact lt_of_lt_of_eq this (by norm_num)
    have b2 : beNat (xs.drop 32) < 2 ^ 256 := by
      have := beNat_lt (xs.drop 32)
      rw [List.length_drop, show xs.length - 32 = 32 by omega] at this; exact lt_of_lt_of_eq this (by norm_num)
    rw [hx, h64] at p1
    exact ⟨_, by rw [p1]; exact marshalCipher_eq b1 b2 b ht p2⟩
  · unfold marshalCipher
    dsimp only
    rw [s32, hb32]
    have e1 : makeBytes ((inp.length : Int) - (1 + 32 * 2) - 32) = .ok (List.replicate (inp.length - 97) 0) := by
      have : (inp.length : Int) - (1 + 32 * 2) - 32 = ((inp.length - 97 : ℕ) : Int) := by omega
      rw [this, makeBytes_nat]
    have e2 : makeBytes 32 = .ok (List.replicate 32 0) := rfl
    rw [e1, Res.ok_bind, e2, Res.ok_bind]
    have e3 : ∃ a, slice inp 1 (1 + 32) = .ok a := by unfold slice; rw [if_pos (by omega)]; exact ⟨_, rfl⟩
    have e4 : ∃ a, slice inp (1 + 32) (1 + 32 + 32) = .ok a := by unfold slice; rw [if_pos (by omega)]; exact ⟨_, rfl⟩
    obtain ⟨a, e3⟩ := e3
    obtain ⟨b, e4⟩ := e4
    rw [e3, Res.ok_bind, e4, Res.ok_bind, if_neg (show ¬ t = C1C2C3 from h1), if_neg (show ¬ t = C1C3C2 from h2)]

/-- What `UnmarshalCipher` reads: a SEQUENCE of two integers, two octet strings and anything, followed by anything. -/
def CipherFields (inp : Bytes) (x y : Int) (a b : Bytes) : Prop :=
  ∃ cx cy extra tail, IsInt x cx ∧ IsInt y cy ∧
    (elem 0x02 cx ++ elem 0x02 cy ++ elem 0x04 a ++ elem 0x04 b ++ extra).length < 2 ^ 31 ∧
    inp = elem 0x30 (elem 0x02 cx ++ elem 0x02 cy ++ elem 0x04 a ++ elem 0x04 b ++ extra) ++ tail

theorem unmarshalFields_iff (inp : Bytes) (x y : Int) (a b : Bytes) :
    unmarshalFields inp = .ok (x, y, a, b) ↔ CipherFields inp x y a b := by
  constructor
  · intro h
    unfold unmarshalFields at h
    simp only [Res.bind_eq_ok, Res.ok.injEq, Prod.mk.injEq] at h
    obtain ⟨⟨c, t2⟩, h1, ⟨x', u⟩, h2, ⟨y', v⟩, h3, ⟨a', w⟩, h4, ⟨b', e⟩, h5, rfl, rfl, rfl, rfl⟩ := h
    obtain ⟨h4', h5'⟩ := (Der.fieldSequence_iff _ _ _).1 h1
    obtain ⟨cx, h6, _, h8⟩ := (Der.fieldInt_iff _ _ _).1 h2
    obtain ⟨cy, h9, _, h11⟩ := (Der.fieldInt_iff _ _ _).1 h3
    obtain ⟨_, h12⟩ := (Der.fieldOctets_iff _ _ _).1 h4
    obtain ⟨_, h13⟩ := (Der.fieldOctets_iff _ _ _).1 h5
    dsimp only at h8 h11 h12 h13
    rw [h11, h12, h13, ← List.append_assoc, ← List.append_assoc, ← List.append_assoc] at h8
    exact ⟨cx, cy, e, t2, h6, h9, h8 ▸ h4', h8 ▸ h5'⟩
  · rintro ⟨cx, cy, extra, tail, h1, h2, h3, rfl⟩
    exact unmarshalFields_eq h1 h2 extra tail h3

/-- C63 is violated by `UnmarshalCipher`: exactly when it panics, for every byte string. -/
theorem C63_unmarshal_violated (inp : Bytes) (t : Int) :
    unmarshalCipher inp t = .panic ↔ (t = 1 ∨ t = 2) ∧ ∃ (x y : Int) (a b : Bytes), CipherFields inp x y a b ∧
      (2 ^ 256 ≤ x.natAbs ∨ 2 ^ 256 ≤ y.natAbs) := by
  unfold unmarshalCipher
  by_cases ht : t = C1C2C3 ∨ t = C1C3C2
  · rw [if_pos ht]
    cases hf : unmarshalFields inp with
    | panic => have := unmarshalFields_returned inp; rw [hf] at this; cases this
    | loop => have := unmarshalFields_returned inp; rw [hf] at this; cases this
    | err m =>
      constructor
      · intro h; cases h
      · rintro ⟨_, x, y, a, b, h, _⟩
        rw [(unmarshalFields_iff _ _ _ _ _).2 h] at hf; cases hf
    | ok q =>
      obtain ⟨x, y, a, b⟩ := q
      rw [Res.ok_bind]
      dsimp only
      have hF := (unmarshalFields_iff _ _ _ _ _).1 hf
      by_cases hx : x.natAbs < 2 ^ 256
      · rw [bigIntTo32Bytes_lt hx, Res.ok_bind]
        by_cases hy : y.natAbs < 2 ^ 256
        · rw [bigIntTo32Bytes_lt hy, Res.ok_bind]
          constructor
          · intro h; cases h
          · rintro ⟨_, x', y', a', b', h, h'⟩
            rw [(unmarshalFields_iff _ _ _ _ _).2 h] at hf
            simp only [Res.ok.injEq, Prod.mk.injEq] at hf
            rw [← hf.1] at hx
            rw [← hf.2.1] at hy
            omega
        · rw [bigIntTo32Bytes_ge (by omega)]
          exact ⟨fun _ => ⟨ht, x, y, a, b, hF, .inr (by omega)⟩, fun _ => rfl⟩
      · rw [bigIntTo32Bytes_ge (by omega)]
        exact ⟨fun _ => ⟨ht, x, y, a, b, hF, .inl (by omega)⟩, fun _ => rfl⟩
  · rw [if_neg ht]
    constructor
    · intro h; cases h
    · rintro ⟨h, _⟩; exact absurd h ht

theorem bigIntTo32Bytes_abs {x : Int} (h : x.natAbs < 2 ^ 256) : bigIntTo32Bytes x = .ok (fe x.natAbs) := by
  rw [bigIntTo32Bytes_lt h]; unfold Spec.SM2.fe; rfl

/-- C63, the part that holds: `UnmarshalCipher` returns a ciphertext exactly if it could read the four fields, with
coordinates of at most 256 bits. The signs of the coordinates, the lengths of the octet strings and the curve are not
looked at, and anything may follow. -/
theorem C63_unmarshal_partial (inp c : Bytes) (t : Int) :
    unmarshalCipher inp t = .ok c ↔ (t = 1 ∨ t = 2) ∧ ∃ (x y : Int) (a b : Bytes), CipherFields inp x y a b ∧
      x.natAbs < 2 ^ 256 ∧ y.natAbs < 2 ^ 256 ∧ c = 4 :: (fe x.natAbs ++ fe y.natAbs ++ a ++ b) := by
  unfold unmarshalCipher
  by_cases ht : t = C1C2C3 ∨ t = C1C3C2
  · rw [if_pos ht, Res.bind_eq_ok]
    constructor
    · rintro ⟨⟨x, y, a, b⟩, h1, h2⟩
      dsimp only at h2
      by_cases hx : x.natAbs < 2 ^ 256
      · by_cases hy : y.natAbs < 2 ^ 256
        · rw [bigIntTo32Bytes_abs hx, Res.ok_bind, bigIntTo32Bytes_abs hy, Res.ok_bind, copy4, Res.ok.injEq] at h2
          exact ⟨ht, x, y, a, b, (unmarshalFields_iff _ _ _ _ _).1 h1, hx, hy, h2.symm⟩
        · rw [bigIntTo32Bytes_lt hx, Res.ok_bind, bigIntTo32Bytes_ge (by omega)] at h2; cases h2
      · rw [bigIntTo32Bytes_ge (by omega)] at h2; cases h2
    · rintro ⟨_, x, y, a, b, h1, hx, hy, rfl⟩
      refine ⟨_, (unmarshalFields_iff _ _ _ _ _).2 h1, ?_⟩
      dsimp only
      rw [bigIntTo32Bytes_abs hx, Res.ok_bind, bigIntTo32Bytes_abs hy, Res.ok_bind, copy4]
      rfl
  · rw [if_neg ht]
    constructor
    · intro h; cases h
    · rintro ⟨h, _⟩; exact absurd h ht

/-- C63: a coordinate of 2^256 makes `UnmarshalCipher` panic; the empty input makes `MarshalCipher` and `Decrypt` panic. -/
example : unmarshalCipher (elem 0x30 (elem 0x02 (1 :: List.replicate 32 0) ++ elem 0x02 [1] ++ elem 0x04 [] ++ elem 0x04 [])) 1 =
    .panic := by decide +kernel
example : marshalCipher [] 1 = .panic ∧ decrypt ⟨1⟩ [] 1 = .panic := by decide +kernel
/-- Signs are lost and trailing bytes ignored: -5 is read as 5. -/
example : unmarshalCipher [0x30, 10, 2, 1, 5, 2, 1, 6, 4, 0, 4, 0] 1 = unmarshalCipher [0x30, 10, 2, 1, 0xfb, 2, 1, 6, 4, 0, 4, 0, 0xaa] 1 ∧
    unmarshalCipher [0x30, 10, 2, 1, 5, 2, 1, 6, 4, 0, 4, 0] 1 = .ok (4 :: (toBE 32 5 ++ toBE 32 6)) := by decide +kernel

/-! ## C64 -/

/-- C64 is violated: the pair (0, 0) is accepted as a public key, `Encrypt` encrypts to it, and the private key 0 (or any
multiple of `n`) decrypts every such ciphertext. -/
theorem C64_violated :
    rawBytesToPublicKey (List.replicate 64 0) = .ok ⟨0, 0⟩ ∧
    ∀ (M : Bytes) (t : Int) (tape : Tape) (c : Bytes), encrypt ⟨0, 0⟩ M t tape = .ok c → decrypt ⟨0⟩ c t = .ok M := by
  refine ⟨by decide +kernel, fun M t tape c h => ?_⟩
  exact (C42_round_trip 0 ⟨0, 0⟩ (by decide +kernel) M t tape c h).1

/-! ## A concrete ciphertext

Private key 2, nonce 3, message "a". -/

def exC1 : Bytes := 
  [4, 169, 127, 124, 212, 179, 201, 147, 180, 190, 45, 170, 140, 219, 65, 226, 76, 161, 63, 107, 217, 69, 48, 34, 68,
   226, 105, 24, 241, 208, 80, 158, 191, 83, 11, 93, 216, 140, 104, 142, 245, 204, 197, 206, 192, 138, 114, 21, 15,
   124, 64, 14, 229, 205, 4, 82, 146, 170, 172, 221, 3, 116, 88, 246, 230]
def exC2 : Bytes := [72]
def exC3 : Bytes := 
  [161, 80, 161, 172, 67, 98, 4, 250, 109, 77, 218, 15, 62, 201, 136, 241, 2, 174, 213, 193, 27, 19, 19, 8, 110, 60,
   36, 116, 66, 11, 137, 163]

theorem example_encrypt : (do let pub ← calculatePubKey ⟨2⟩; encrypt pub [0x61] 1 [some (toBE 32 3)]) =
    .ok (exC1 ++ exC2 ++ exC3) := by decide +kernel

/-- The hypotheses of C42, C45, C47 are met by it. -/
example : decrypt ⟨(2 : ℕ)⟩ (exC1 ++ exC2 ++ exC3) 1 = .ok [0x61] := by
  obtain ⟨pub, h1, h2⟩ := (Res.bind_eq_ok ..).1 example_encrypt
  exact (C42_round_trip 2 pub h1 _ _ _ _ h2).1
example : decrypt ⟨(2 : ℕ)⟩ (exC1 ++ exC2 ++ exC3) 1 = .ok [0x61] := by decide +kernel
example : decrypt ⟨(2 : ℕ)⟩ (exC1 ++ exC3 ++ exC2) 2 = .ok [0x61] := by decide +kernel
/-- C46: the three panics, and the two errors. -/
example : decrypt ⟨2⟩ (exC1.take 64) 1 = .panic ∧ decrypt ⟨2⟩ (5 :: exC1) 1 = .panic ∧ decrypt ⟨2⟩ (exC1 ++ exC3) 1 = .panic ∧
    decrypt ⟨2⟩ (exC1 ++ exC2 ++ exC3) 2 = .err "invalid cipher text" ∧
    decrypt ⟨2⟩ (exC1 ++ exC2 ++ exC3) 3 = .err "unknown cipherTextType" := by decide +kernel
/-- C47. -/
example : (do let der ← marshalCipher (exC1 ++ exC2 ++ exC3) 1; unmarshalCipher der 1) = .ok (exC1 ++ exC2 ++ exC3) := by
  decide +kernel
/-- C64. -/
example : (match encrypt ⟨0, 0⟩ [0x61] 1 [some (toBE 32 3)] with | .ok c => c.length | _ => 0) = 98 := by decide +kernel

end Verif.Props
