import Verif.Sm2.SignLemmas
import Verif.Der.Lemmas
/-!
# SM2 signatures: C35 – C41
-/
namespace Verif.Props
open EC Verif.Sm2
open Verif.Spec.SM2 (coords fe Accepts IsSignature)
open Verif.Spec.DER (elem IsInt InRange)

attribute [local irreducible] Spec.SM2.fe Spec.SM3.hash

theorem pub_of_priv {d : ℕ} {pub : PublicKey} (h : calculatePubKey ⟨d⟩ = .ok pub) :
    ((pub.X, pub.Y) : Int × Int) = enc (d • G) := by
  unfold calculatePubKey at h
  rw [baseMult_int, Res.ok_bind, Res.ok.injEq, Int.natAbs_natCast] at h
  rw [← h]

theorem coords_dG {d : ℕ} (hd : ¬ n ∣ d) : ∃ x y, coords (d • G) = some (x, y) ∧ x < 2 ^ 256 ∧ y < 2 ^ 256 := by
  obtain ⟨x, y, h1, h2, h3⟩ := coords_ne (fun h => hd ((smul_eq_zero G_ne_zero).1 h))
  exact ⟨x, y, h1, lt_trans h2 p_lt, lt_trans h3 p_lt⟩

theorem pub_of_coords {d x y : ℕ} {pub : PublicKey} (h : calculatePubKey ⟨d⟩ = .ok pub)
    (hc : coords (d • G) = some (x, y)) : pub = ⟨x, y⟩ := by
  have h2 := pub_of_priv h
  rw [enc_coords hc, Prod.mk.injEq] at h2
  cases pub
  simp only at h2
  rw [h2.1, h2.2]

/-! ## The DER form -/

theorem marshalSign_eq {r s : Int} {k k' : ℕ} (hr : InRange r k) (hs : InRange s k') (h : k + k' < 2 ^ 31 - 14) :
    ∃ cr cs, IsInt r cr ∧ IsInt s cs ∧ cr.length < 2 ^ 31 ∧ cs.length < 2 ^ 31 ∧
      (elem 0x02 cr ++ elem 0x02 cs).length < 2 ^ 31 ∧
      marshalSign r s = .ok (elem 0x30 (elem 0x02 cr ++ elem 0x02 cs)) := by
  have l1 := Der.makeBigInt_length hr
  have l2 := Der.makeBigInt_length hs
  refine ⟨_, _, Der.makeBigInt_isInt r, Der.makeBigInt_isInt s, by omega, by omega, ?_, ?_⟩
  · have := Der.elem_length_le (t := 0x02) (c := Der.makeBigInt r) (by omega)
    have := Der.elem_length_le (t := 0x02) (c := Der.makeBigInt s) (by omega)
    rw [List.length_append]
    omega
  · unfold marshalSign Der.marshalSequence
    have h1 := Der.elem_length_le (t := 0x02) (c := Der.makeBigInt r) (by omega)
    have h2 := Der.elem_length_le (t := 0x02) (c := Der.makeBigInt s) (by omega)
    rw [Der.marshalInt_eq (by omega), Der.marshalInt_eq (by omega), Der.makeElem_eq, Der.id_seq]
    rw [List.length_append]
    omega

/-- Exactly what `UnmarshalSign` accepts. -/
theorem unmarshalSign_iff (sig : Bytes) (r s : Int) :
    unmarshalSign sig = .ok (r, s) ↔ ∃ cr cs t1 t2, IsInt r cr ∧ IsInt s cs ∧
      (elem 0x02 cr ++ elem 0x02 cs ++ t1).length < 2 ^ 31 ∧ sig = elem 0x30 (elem 0x02 cr ++ elem 0x02 cs ++ t1) ++ t2 := by
  unfold unmarshalSign
  simp only [Res.bind_eq_ok, Res.ok.injEq, Prod.mk.injEq]
  constructor
  · rintro ⟨⟨c, t2⟩, h1, ⟨r', u⟩, h2, ⟨s', t1⟩, h3, rfl, rfl⟩
    obtain ⟨h4, h5⟩ := (Der.fieldSequence_iff _ _ _).1 h1
    obtain ⟨cr, h6, h7, h8⟩ := (Der.fieldInt_iff _ _ _).1 h2
    obtain ⟨cs, h9, h10, h11⟩ := (Der.fieldInt_iff _ _ _).1 h3
    dsimp only at h8 h11
    rw [h11, ← List.append_assoc] at h8
    exact ⟨cr, cs, t1, t2, h6, h9, h8 ▸ h4, h8 ▸ h5⟩
  · rintro ⟨cr, cs, t1, t2, h1, h2, h3, h4⟩
    have l : cr.length < 2 ^ 31 ∧ cs.length < 2 ^ 31 := by
      simp only [List.length_append, CB.length_elem] at h3
      omega
    refine ⟨(_, t2), (Der.fieldSequence_iff _ _ _).2 ⟨h3, h4⟩, (r, elem 0x02 cs ++ t1),
      (Der.fieldInt_iff _ _ _).2 ⟨cr, h1, l.1, by simp⟩, (s, t1), (Der.fieldInt_iff _ _ _).2 ⟨cs, h2, l.2, rfl⟩, rfl, rfl⟩

theorem inRange_n {v : Int} (h0 : 0 ≤ v) (h1 : v < n) : InRange v 32 := by
  have := n_lt
  unfold InRange
  constructor <;> norm_num <;> omega

/-- Signature bytes from numbers in range are read back. -/
theorem unmarshal_marshal {r s : Int} {k k' : ℕ} (hr : InRange r k) (hs : InRange s k') (h : k + k' < 2 ^ 31 - 14) :
    ∃ sig, marshalSign r s = .ok sig ∧ ∀ tail, unmarshalSign (sig ++ tail) = .ok (r, s) := by
  obtain ⟨cr, cs, h1, h2, _, _, h3, h4⟩ := marshalSign_eq hr hs h
  refine ⟨_, h4, fun tail => (unmarshalSign_iff _ _ _).2 ⟨cr, cs, [], tail, h1, h2, ?_, ?_⟩⟩
  · rw [List.append_nil]; exact h3
  · rw [List.append_nil]

/-! ## C35 -/

/-- C35 on numbers: every signature verifies under the public key of the signer, for every private key, every id (nil,
empty or not), every message and every tape of nonces. Multiples of `n` as private keys are covered too: their public key
is the pair (0, 0), which is not on the curve. -/
theorem C35_verifies (d : ℕ) (pub : PublicKey) (hpub : calculatePubKey ⟨d⟩ = .ok pub)
    (id : Option Bytes) (M : Bytes) (tape : Tape) (r s : Int) (h : signToRS ⟨d⟩ id M tape = .ok (r, s)) :
    verifyByRS pub id M r s = .ok true := by
  obtain ⟨e, k, h1, _, h2, h3, h4, h5, h6, h7, h8, h9, h10⟩ := signToRS_ok h
  rw [Int.cast_natCast] at h10
  have hn := n_gt
  have hr0 : 0 ≤ r := h4 ▸ Int.emod_nonneg _ (by omega)
  have hr1 : r < n := h4 ▸ Int.emod_lt_of_pos _ (by omega)
  have ht := sign_t_ne h10 h2 h3 hr0 hr1 h6
  by_cases hd : n ∣ d
  · have hd0 : d • G = 0 := (smul_eq_zero G_ne_zero).2 hd
    have hp := pub_of_priv hpub
    have hz : enc (0 : Pt) = ((0, 0) : Int × Int) := rfl
    rw [Int.natAbs_natCast, hd0, hz] at h1
    rw [hd0, hz, Prod.mk.injEq] at hp
    have hp' : pub = ⟨0, 0⟩ := by cases pub; simp only at hp; rw [hp.1, hp.2]
    rw [hp']
    obtain ⟨b, hb, hb'⟩ := verifyByRS_zero (id := id) (M := M) (r := r) (s := s) h1
    rw [hb, hb'.2 ⟨by omega, hr1, by omega, h9, ht, ?_⟩]
    rw [h4]
    congr 4
    rw [← natCast_zsmul]
    apply zsmul_congr
    have : (d : ZMod n) = 0 := (ZMod.natCast_eq_zero_iff _ _).2 hd
    rw [this] at h10
    rw [Int.cast_natCast]
    linear_combination -h10
  · obtain ⟨x, y, hc, hx, hy⟩ := coords_dG hd
    rw [Int.natAbs_natCast, enc_coords hc] at h1
    rw [pub_of_coords hpub hc]
    have hpt := sign_verify_point h10
    obtain ⟨b, hb, hb'⟩ := verifyByRS_eq hc (id := id) (M := M) (r := r) (s := s) h1
    rw [hb, hb'.2]
    rw [hpt]
    refine ⟨by omega, hr1, by omega, h9, ht, ?_, h4⟩
    exact fun h0 => not_dvd_of_lt h2 h3 ((smul_eq_zero G_ne_zero).1 h0)

/-- C35 on bytes: `Verify` accepts what `Sign` returns. -/
theorem C35_der_verifies (d : ℕ) (pub : PublicKey) (hpub : calculatePubKey ⟨d⟩ = .ok pub)
    (id : Option Bytes) (M : Bytes) (tape : Tape) (sig : Bytes) (h : sign ⟨d⟩ id M tape = .ok sig) :
    verify pub id M sig = .ok true := by
  unfold sign at h
  rw [Res.bind_eq_ok] at h
  obtain ⟨⟨r, s⟩, h1, h2⟩ := h
  obtain ⟨e, k, _, _, _, _, h4, h5, h6, h7, h8, h9, _⟩ := signToRS_ok h1
  have hn := n_gt
  have hr0 : 0 ≤ r := h4 ▸ Int.emod_nonneg _ (by omega)
  have hr1 : r < n := h4 ▸ Int.emod_lt_of_pos _ (by omega)
  obtain ⟨sig', g1, g2⟩ := unmarshal_marshal (inRange_n hr0 hr1) (inRange_n h8 h9) (by norm_num)
  rw [g1, Res.ok.injEq] at h2
  subst h2
  have := g2 []
  rw [List.append_nil] at this
  unfold verify
  rw [this]
  exact C35_verifies d pub hpub id M tape r s h1

/-! ## C36 -/

theorem x_of_enc {Q : Pt} {v : Int} {r : Int} :
    (Q ≠ 0 ∧ r = (v + (enc Q).1) % n) ↔ ∃ x1 y1, coords Q = some (x1, y1) ∧ r = (v + x1) % n := by
  constructor
  · rintro ⟨h, h'⟩
    obtain ⟨x, y, hc, _, _⟩ := coords_ne h
    rw [enc_coords hc] at h'
    exact ⟨x, y, hc, h'⟩
  · rintro ⟨x, y, hc, h'⟩
    rw [enc_coords hc]
    exact ⟨(coords_some hc).1, h'⟩

/-- C36: for a public key on the curve, an id of fewer than 8192 bytes and a non-empty message below 2 GiB, verification
returns, and its result is the standard's, for all integers `r`, `s`. -/
theorem C36_exact (P : Pt) (x y : ℕ) (hP : coords P = some (x, y)) (id : Option Bytes)
    (hid : (id.getD defaultUserId).length < 8192) (M : Bytes) (hM : M ≠ []) (hM' : M.length < 2 ^ 31) (r s : Int) :
    ∃ b, verifyByRS ⟨x, y⟩ id M r s = .ok b ∧ (b = true ↔ Accepts P (id.getD defaultUserId) M r s) := by
  obtain ⟨_, hx, hy⟩ := coords_some hP
  have he := calculateE_eq (lt_trans hx p_lt) (lt_trans hy p_lt) (id := id.getD defaultUserId) (by omega) hM hM'
  rw [zIn_eq hid] at he
  obtain ⟨b, hb, hb'⟩ := verifyByRS_eq hP (r := r) (s := s) he
  refine ⟨b, hb, hb'.trans ?_⟩
  rw [x_of_enc]
  constructor
  · rintro ⟨h1, h2, h3, h4, h5, h6⟩
    exact ⟨x, y, hP, h1, h2, h3, h4, h5, h6⟩
  · rintro ⟨x', y', hP', h⟩
    rw [hP, Option.some.injEq, Prod.mk.injEq] at hP'
    obtain ⟨rfl, rfl⟩ := hP'
    exact h

/-- C36, soundness without any condition on the message. -/
theorem C36_sound (P : Pt) (x y : ℕ) (hP : coords P = some (x, y)) (id : Option Bytes)
    (hid : (id.getD defaultUserId).length < 8192) (M : Bytes) (r s : Int) (h : verifyByRS ⟨x, y⟩ id M r s = .ok true) :
    Accepts P (id.getD defaultUserId) M r s := by
  obtain ⟨_, hx, hy⟩ := coords_some hP
  have he : ∃ e, calculateE x y (id.getD defaultUserId) M = .ok e := by
    unfold verifyByRS at h
    dsimp only at h
    split at h
    · simp at h
    split at h
    · simp at h
    rw [Res.bind_eq_ok] at h
    exact ⟨_, h.choose_spec.1⟩
  obtain ⟨e, he⟩ := he
  obtain ⟨b, hb, hb'⟩ := verifyByRS_eq hP (r := r) (s := s) he
  rw [hb, Res.ok.injEq] at h
  obtain ⟨h1, h2, h3, h4, h5, h6⟩ := hb'.1 h
  rw [x_of_enc, (calculateE_ok (lt_trans hx p_lt) (lt_trans hy p_lt) he).1, zIn_eq hid] at h6
  exact ⟨x, y, hP, h1, h2, h3, h4, h5, h6⟩

/-- Outside the range nothing is accepted, whatever the key, id and message (all integers, keys not on the curve too). -/
theorem C36_range (pub : PublicKey) (id : Option Bytes) (M : Bytes) (r s : Int)
    (h : ¬ (1 ≤ r ∧ r < n ∧ 1 ≤ s ∧ s < n)) : verifyByRS pub id M r s = .ok false := by
  unfold verifyByRS
  dsimp only
  rw [cv_N]
  by_cases h1 : r < 1 ∨ r ≥ n
  · rw [if_pos h1]
  · rw [if_neg h1, if_pos (by omega)]

/-- What the theorems above leave open: an empty message makes verification panic (`Write` of the digest does). -/
theorem C36_empty_message_panics (x y : ℕ) (hx : x < 2 ^ 256) (hy : y < 2 ^ 256) (id : Option Bytes) (r s : Int)
    (h : 1 ≤ r ∧ r < n ∧ 1 ≤ s ∧ s < n) : verifyByRS ⟨x, y⟩ id [] r s = .panic := by
  unfold verifyByRS
  dsimp only
  rw [cv_N, if_neg (by omega), if_neg (by omega), calculateE_empty hx hy]
  rfl

/-! ## C37 -/

/-- C37: the range, for every private key whatsoever; the nonce used comes from the random source. -/
theorem C37_range (D : Int) (id : Option Bytes) (M : Bytes) (tape : Tape) (r s : Int)
    (h : signToRS ⟨D⟩ id M tape = .ok (r, s)) :
    1 ≤ r ∧ r < n ∧ 1 ≤ s ∧ s < n ∧
      ∃ k : ℕ, (∃ raw, some raw ∈ tape ∧ beNat raw = k) ∧ 1 ≤ k ∧ k < n ∧ r + k ≠ n := by
  obtain ⟨e, k, _, hd, h2, h3, h4, h5, h6, h7, h8, h9, _⟩ := signToRS_ok h
  have hn := n_gt
  have hr0 : 0 ≤ r := h4 ▸ Int.emod_nonneg _ (by omega)
  have hr1 : r < n := h4 ▸ Int.emod_lt_of_pos _ (by omega)
  exact ⟨by omega, hr1, by omega, h9, k, hd, h2, h3, h6⟩

/-- C37, more: the pair is the standard's signature for a nonce that the random source delivered. -/
theorem C37_standard (d : ℕ) (hd : ¬ n ∣ d) (id : Option Bytes) (hid : (id.getD defaultUserId).length < 8192) (M : Bytes)
    (tape : Tape) (r s : Int) (h : signToRS ⟨d⟩ id M tape = .ok (r, s)) :
    ∃ k, (∃ raw, some raw ∈ tape ∧ beNat raw = k) ∧ IsSignature d (id.getD defaultUserId) M k r s := by
  obtain ⟨e, k, h1, hdl, h2, h3, h4, h5, h6, h7, h8, h9, h10⟩ := signToRS_ok h
  obtain ⟨x, y, hc, hx, hy⟩ := coords_dG hd
  rw [Int.natAbs_natCast, enc_coords hc] at h1
  obtain ⟨x1, y1, hk, _, _⟩ := coords_ne (fun h0 => not_dvd_of_lt h2 h3 ((smul_eq_zero G_ne_zero).1 h0))
  refine ⟨k, hdl, h2, h3, x, y, x1, y1, hc, hk, ?_, h5, h6, h7, h8, h9, ?_⟩
  · rw [h4, enc_coords hk, (calculateE_ok hx hy h1).1, zIn_eq hid]
    rfl
  · rw [← Int.ModEq, ← ZMod.intCast_eq_intCast_iff]
    push_cast
    rw [Int.cast_natCast] at h10
    linear_combination h10

/-! ## C38 -/

/-- C38: encoded and decoded again, for integers of any sign whose two's complement forms have `k+1` and `k'+1` octets,
up to about 2 GiB together (longer contents have a length `encoding/asn1` refuses to read). -/
theorem C38_round_trip (r s : Int) (k k' : ℕ) (hr : InRange r k) (hs : InRange s k') (h : k + k' < 2 ^ 31 - 14) :
    ∃ sig, marshalSign r s = .ok sig ∧ unmarshalSign sig = .ok (r, s) := by
  obtain ⟨sig, h1, h2⟩ := unmarshal_marshal hr hs h
  refine ⟨sig, h1, ?_⟩
  have := h2 []
  rwa [List.append_nil] at this

/-- C38, the encoding is the DER form of `SEQUENCE { INTEGER r, INTEGER s }`. -/
theorem C38_der (r s : Int) (k k' : ℕ) (hr : InRange r k) (hs : InRange s k') (h : k + k' < 2 ^ 31 - 14) :
    ∃ cr cs, IsInt r cr ∧ IsInt s cs ∧ marshalSign r s = .ok (elem 0x30 (elem 0x02 cr ++ elem 0x02 cs)) := by
  obtain ⟨cr, cs, h1, h2, _, _, _, h4⟩ := marshalSign_eq hr hs h
  exact ⟨cr, cs, h1, h2, h4⟩

example : marshalSign (-129) (2 ^ 63) = .ok [0x30, 0x0f, 0x02, 0x02, 0xff, 0x7f, 0x02, 0x09, 0, 0x80, 0, 0, 0, 0, 0, 0, 0] := by
  decide +kernel
example : InRange (-129) 1 ∧ InRange (2 ^ 63) 8 := by unfold InRange; decide

/-! ## C39 -/

/-- C39, what is accepted: the DER form, but with any bytes after the second integer and any bytes after the SEQUENCE. -/
theorem C39_accepted_partial (sig : Bytes) (r s : Int) :
    unmarshalSign sig = .ok (r, s) ↔ ∃ cr cs extra tail, IsInt r cr ∧ IsInt s cs ∧
      (elem 0x02 cr ++ elem 0x02 cs ++ extra).length < 2 ^ 31 ∧
      sig = elem 0x30 (elem 0x02 cr ++ elem 0x02 cs ++ extra) ++ tail :=
  unmarshalSign_iff sig r s

/-- C39, the part that holds: no accepted byte string is shorter than the one `MarshalSign` makes, and of this length it
is the only one. -/
theorem C39_shortest_partial (sig m : Bytes) (r s : Int) (hs : unmarshalSign sig = .ok (r, s)) (hm : marshalSign r s = .ok m) :
    m.length ≤ sig.length ∧ (m.length = sig.length → m = sig) := by
  obtain ⟨cr, cs, e1, t1, a1, a2, a3, a4⟩ := (unmarshalSign_iff _ _ _).1 hs
  have hcr := Spec.DER.isInt_unique (Der.makeBigInt_isInt r) a1
  have hcs := Spec.DER.isInt_unique (Der.makeBigInt_isInt s) a2
  have l : (elem 0x02 cr ++ elem 0x02 cs).length < 2 ^ 31 := by
    rw [List.length_append] at a3; omega
  have l' : cr.length < 2 ^ 31 ∧ cs.length < 2 ^ 31 := by
    simp only [List.length_append, CB.length_elem] at l
    omega
  unfold marshalSign Der.marshalSequence at hm
  rw [Der.marshalInt_eq (by rw [hcr]; omega), Der.marshalInt_eq (by rw [hcs]; omega), hcr, hcs,
    Der.makeElem_eq (by omega), Der.id_seq, Res.ok.injEq] at hm
  have mono : ∀ c c' : Bytes, (elem 0x30 c).length + c'.length ≤ (elem 0x30 (c ++ c')).length := by
    intro c c'
    rw [CB.length_elem, CB.length_elem, CB.length_lenOctets, CB.length_lenOctets, List.length_append]
    have : byteLen c.length ≤ byteLen (c.length + c'.length) :=
      (byteLen_le_iff _ _).2 (lt_of_le_of_lt (Nat.le_add_right _ _) ((byteLen_le_iff _ _).1 (le_refl _)))
    have hp : 1 ≤ c.length + c'.length → 1 ≤ byteLen (c.length + c'.length) := fun h => byteLen_pos (by omega)
    split <;> split <;> omega
  have k1 := mono (elem 0x02 cr ++ elem 0x02 cs) e1
  have hlen : sig.length = (elem 0x30 (elem 0x02 cr ++ elem 0x02 cs ++ e1)).length + t1.length := by
    rw [a4, List.length_append]
  rw [← hm]
  refine ⟨by omega, fun h => ?_⟩
  rw [a4, List.length_eq_zero_iff.1 (show e1.length = 0 by omega), List.length_eq_zero_iff.1 (show t1.length = 0 by omega)]
  simp

/-- C39 is violated: every signature stays valid when any bytes are appended. -/
theorem C39_trailing_violated (d : ℕ) (pub : PublicKey) (hpub : calculatePubKey ⟨d⟩ = .ok pub)
    (id : Option Bytes) (M : Bytes) (tape : Tape) (sig : Bytes) (h : sign ⟨d⟩ id M tape = .ok sig) (tail : Bytes) :
    verify pub id M (sig ++ tail) = .ok true := by
  unfold sign at h
  rw [Res.bind_eq_ok] at h
  obtain ⟨⟨r, s⟩, h1, h2⟩ := h
  obtain ⟨e, k, _, _, _, _, h4, h5, h6, h7, h8, h9, _⟩ := signToRS_ok h1
  have hn := n_gt
  have hr0 : 0 ≤ r := h4 ▸ Int.emod_nonneg _ (by omega)
  have hr1 : r < n := h4 ▸ Int.emod_lt_of_pos _ (by omega)
  obtain ⟨sig', g1, g2⟩ := unmarshal_marshal (inRange_n hr0 hr1) (inRange_n h8 h9) (by norm_num)
  rw [g1, Res.ok.injEq] at h2
  subst h2
  unfold verify
  rw [g2 tail]
  exact C35_verifies d pub hpub id M tape r s h1

/-- Two encodings of the same pair, one with a byte inside the SEQUENCE and one behind it. -/
example : unmarshalSign [0x30, 6, 2, 1, 5, 2, 1, 7] = .ok (5, 7) ∧
    unmarshalSign [0x30, 7, 2, 1, 5, 2, 1, 7, 0xaa] = .ok (5, 7) ∧
    unmarshalSign [0x30, 6, 2, 1, 5, 2, 1, 7, 0xaa] = .ok (5, 7) := by decide +kernel

/-! ## C40 -/

/-- C40: nil means the default id, in signing and in verification. -/
theorem C40_nil_is_default (priv : PrivateKey) (pub : PublicKey) (M sig : Bytes) (tape : Tape) :
    sign priv none M tape = sign priv (some ("1234567812345678".toList.map fun c => BitVec.ofNat 8 c.toNat)) M tape ∧
    verify pub none M sig = verify pub (some ("1234567812345678".toList.map fun c => BitVec.ofNat 8 c.toNat)) M sig := by
  have h : ("1234567812345678".toList.map fun c => BitVec.ofNat 8 c.toNat) = defaultUserId := by decide +kernel
  rw [h]
  exact ⟨rfl, rfl⟩

/-- C40: the hashed bytes determine the id and the public key, for ids of every length (also where the two-byte length
field has wrapped) and all coordinates below 2^256. -/
theorem C40_injective (x y x' y' : ℕ) (hx : x < 2 ^ 256) (hy : y < 2 ^ 256) (hx' : x' < 2 ^ 256) (hy' : y' < 2 ^ 256)
    (id id' : Bytes) : ∃ cs cs', zChunks x y id = .ok cs ∧ zChunks x' y' id' = .ok cs' ∧
      (cs.flatten = cs'.flatten → id = id' ∧ x = x' ∧ y = y') := by
  obtain ⟨cs, h1, h2, _⟩ := zChunks_eq hx hy id
  obtain ⟨cs', h1', h2', _⟩ := zChunks_eq hx' hy' id'
  refine ⟨cs, cs', h1, h1', fun h => ?_⟩
  rw [h2, h2'] at h
  unfold zIn at h
  obtain ⟨h, h6⟩ := List.append_inj' h (by rw [length_fe, length_fe])
  obtain ⟨h, h5⟩ := List.append_inj' h (by rw [length_fe, length_fe])
  obtain ⟨h, _⟩ := List.append_inj' h rfl
  obtain ⟨h, _⟩ := List.append_inj' h rfl
  obtain ⟨h, _⟩ := List.append_inj' h rfl
  obtain ⟨h, _⟩ := List.append_inj' h rfl
  obtain ⟨_, h⟩ := List.append_inj h (by rw [length_toBE, length_toBE])
  exact ⟨h, fe_inj hx hx' h5, fe_inj hy hy' h6⟩

/-- C40: for ids shorter than 8192 bytes the hashed bytes are the standard's, and the digest is the standard's `Z`. -/
theorem C40_standard (x y : ℕ) (hx : x < 2 ^ 256) (hy : y < 2 ^ 256) (id : Bytes) (hid : id.length < 8192) :
    (∃ cs, zChunks x y id = .ok cs ∧ cs.flatten = Spec.SM2.zInput id x y) ∧ getZ x y id = .ok (Spec.SM2.Z id x y) := by
  obtain ⟨cs, h1, h2, _⟩ := zChunks_eq hx hy id
  refine ⟨⟨cs, h1, by rw [h2, zIn_eq hid]⟩, ?_⟩
  rw [getZ_eq hx hy (by omega), zIn_eq hid]
  rfl

/-- Two different keys and ids. -/
example : (do let c ← zChunks 1 2 [0x41]; Res.ok (c.flatten.take 5)) = .ok [0, 8, 0x41, 0xff, 0xff] := by decide +kernel

/-! ## C41 -/

theorem lt_of_signature {d k : ℕ} {id M : Bytes} {r s : Int} (h : IsSignature d id M k r s) : 1 ≤ k ∧ k < n := ⟨h.1, h.2.1⟩

theorem hits_of_mem {good : ℕ → Prop} (pre : List Bytes) (raw : Bytes) (rest : Tape) (h : good (beNat raw)) :
    Hits good (pre.map some ++ some raw :: rest) := by
  induction pre with
  | nil => exact .inl h
  | cons a pre ih => exact .inr ih

/-- C41, the part that holds: signing returns as soon as the random source has delivered a nonce for which the standard
has a signature (whatever it delivered before). -/
theorem C41_returns_partial (d : ℕ) (hd : ¬ n ∣ d) (hd1 : ¬ n ∣ d + 1) (id : Option Bytes)
    (hid : (id.getD defaultUserId).length < 8192) (M : Bytes) (hM : M ≠ []) (hM' : M.length < 2 ^ 31)
    (pre : List Bytes) (raw : Bytes) (rest : Tape)
    (hk : ∃ r s, IsSignature d (id.getD defaultUserId) M (beNat raw) r s) :
    ∃ rs, signToRS ⟨d⟩ id M (pre.map some ++ some raw :: rest) = .ok rs := by
  obtain ⟨x, y, hc, hx, hy⟩ := coords_dG hd
  have he := calculateE_eq hx hy (id := id.getD defaultUserId) (by omega) hM hM'
  rw [zIn_eq hid] at he
  have he' : calculateE (enc (((d : Int)).natAbs • G)).1 (enc (((d : Int)).natAbs • G)).2 (id.getD defaultUserId) M =
      .ok (beNat (Spec.SM3.hash (Spec.SM3.hash (Spec.SM2.zInput (id.getD defaultUserId) x y) ++ M)) : ℕ) := by
    rw [Int.natAbs_natCast, enc_coords hc]; exact he
  refine signToRS_hits he' ?_ (good := fun k => ∃ r s, IsSignature d (id.getD defaultUserId) M k r s) ?_ ?_
    (hits_of_mem pre raw rest hk)
  · intro h
    apply hd1
    rw [← ZMod.natCast_eq_zero_iff]
    push_cast at h ⊢
    exact h
  · rintro k ⟨r, s, h⟩; exact lt_of_signature h
  · rintro k ⟨r, s, _, hk2, xP, yP, x1, y1, h1, h2, h3, h4, h5, h6, h7, h8, h9⟩
    rw [hc, Option.some.injEq, Prod.mk.injEq] at h1
    obtain ⟨rfl, rfl⟩ := h1
    rw [enc_coords h2]
    have h3' : r = ((beNat (Spec.SM3.hash (Spec.SM3.hash (Spec.SM2.zInput (id.getD defaultUserId) x y) ++ M)) : ℕ) +
      (x1 : Int)) % n := h3
    rw [← h3']
    refine ⟨h4, h5, fun h0 => ?_⟩
    have h10 : (((1 + d) * s : Int) : ZMod n) = ((k - r * d : Int) : ZMod n) :=
      (ZMod.intCast_eq_intCast_iff _ _ _).2 h9
    push_cast at h0 h10
    rw [h0, sub_self] at h10
    rcases mul_eq_zero.1 h10 with h | h
    · apply hd1
      rw [← ZMod.natCast_eq_zero_iff]
      push_cast
      rw [add_comm]
      exact h
    · rw [cast_eq_zero_iff] at h
      have := Int.le_of_dvd (by omega) h
      omega

theorem coords_G : coords (1 • G) = some (Spec.SM2.gx, Spec.SM2.gy) := by
  have h : scalarBaseMult cv (intBytes 1) = .ok ((Spec.SM2.gx : ℕ), (Spec.SM2.gy : ℕ)) := by decide +kernel
  rw [baseMult_int, Res.ok.injEq] at h
  obtain ⟨x, y, h1, _, _⟩ := coords_ne (Q := 1 • G) (by rw [one_smul]; exact G_ne_zero)
  rw [show Int.natAbs 1 = 1 from rfl, enc_coords h1, Prod.mk.injEq] at h
  rw [h1, Int.ofNat_inj.1 h.1, Int.ofNat_inj.1 h.2]

/-- The x coordinate of twice the generator. -/
def x2G : ℕ := 0x56cefd60d7c87c000d58ef57fa73ba4d9c0dfa08c08a7331495c2e1da3f2bd52

theorem coords_2G : ∃ y, coords (2 • G) = some (x2G, y) := by
  have h : (match scalarBaseMult cv (intBytes 2) with | .ok q => decide (q.1 = (x2G : ℕ)) | _ => false) = true := by
    decide +kernel
  rw [baseMult_int] at h
  have hn := n_gt
  obtain ⟨x, y, h1, _, _⟩ := coords_ne (Q := 2 • G) (fun h0 => not_dvd_of_lt (by omega) (by omega) ((smul_eq_zero G_ne_zero).1 h0))
  rw [show Int.natAbs 2 = 2 from rfl, enc_coords h1] at h
  simp only [decide_eq_true_eq, Int.ofNat_inj] at h
  rw [h1, h]
  exact ⟨y, rfl⟩

theorem enc_neg_fst (Q : Pt) : (enc (-Q)).1 = (enc Q).1 := by
  cases Q with
  | zero => rfl
  | some x y h => rfl

/-- Of the nonces `j` and `n - j` one is usable, unless `r` is one of three values. -/
theorem usable_pair (d e : Int) (j : ℕ) (h1 : 1 ≤ j) (h2 : 2 * j < n) :
    (∃ k : ℕ, 1 ≤ k ∧ k < n ∧ (e + (enc (k • G)).1) % n ≠ 0 ∧ (e + (enc (k • G)).1) % n + k ≠ n ∧
      (k : ZMod n) ≠ ((e + (enc (k • G)).1) % n : Int) * d) ∨
    ((e + (enc (j • G)).1 : Int) : ZMod n) = 0 ∨ ((e + (enc (j • G)).1 : Int) : ZMod n) = j ∨
      ((e + (enc (j • G)).1 : Int) : ZMod n) = -j := by
  have hn := n_gt
  by_contra hc
  rw [not_or, not_or, not_or] at hc
  obtain ⟨hb, r0, r1, r2⟩ := hc
  have hx : (enc ((n - j) • G)).1 = (enc (j • G)).1 := by
    rw [← enc_neg_fst (j • G)]
    congr 1
    congr 1
    rw [eq_neg_iff_add_eq_zero, ← add_smul, Nat.sub_add_cancel (by omega), n_smul]
  have hcast : ((n - j : ℕ) : ZMod n) = -j := by
    rw [Nat.cast_sub (by omega)]; simp
  have hmod : (((e + (enc (j • G)).1) % (n : Int) : Int) : ZMod n) = ((e + (enc (j • G)).1 : Int) : ZMod n) := by
    have := zn_cast_emod (e + (enc (j • G)).1)
    rwa [cv_N] at this
  have bad : ∀ k : ℕ, 1 ≤ k → k < n → (enc (k • G)).1 = (enc (j • G)).1 →
      ((e + (enc (j • G)).1 : Int) : ZMod n) = -k ∨ (k : ZMod n) = ((e + (enc (j • G)).1 : Int) : ZMod n) * d := by
    intro k hk1 hk2 hk3
    by_contra hc
    rw [not_or] at hc
    refine hb ⟨k, hk1, hk2, ?_, ?_, ?_⟩
    · rw [hk3]; intro h; rw [h, Int.cast_zero] at hmod; exact r0 hmod.symm
    · rw [hk3]
      intro h
      apply hc.1
      rw [← hmod, show (e + (enc (j • G)).1) % (n : Int) = n - k by omega]
      simp
    · rw [hk3, hmod]; exact hc.2
  have b1 := bad j h1 (by omega) rfl
  have b2 := bad (n - j) (by omega) (by omega) hx
  rw [hcast, neg_neg] at b2
  rcases b1 with b1 | b1
  · exact r2 b1
  rcases b2 with b2 | b2
  · exact r1 b2
  have h0 : ((2 * j : ℕ) : ZMod n) = 0 := by
    push_cast
    linear_combination b1 - b2
  rw [ZMod.natCast_eq_zero_iff] at h0
  have := Nat.le_of_dvd (by omega) h0
  omega

/-- Some nonce is usable, for every key and every hash value. -/
theorem usable_nonce (d e : Int) :
    ∃ k : ℕ, 1 ≤ k ∧ k < n ∧ (e + (enc (k • G)).1) % n ≠ 0 ∧ (e + (enc (k • G)).1) % n + k ≠ n ∧
      (k : ZMod n) ≠ ((e + (enc (k • G)).1) % n : Int) * d := by
  have hn := n_gt
  rcases usable_pair d e 1 (by omega) (by omega) with h | h1
  · exact h
  rcases usable_pair d e 2 (by omega) (by omega) with h | h2
  · exact h
  exfalso
  obtain ⟨y2, hc2⟩ := coords_2G
  rw [enc_coords coords_G] at h1
  rw [enc_coords hc2] at h2
  have key : ∀ u : Int, u.natAbs ≤ 3 → ((x2G : Int) - (Spec.SM2.gx : ℕ) - u : ZMod n) ≠ 0 := by
    intro u hu h
    have h3 : (((x2G : Int) - (Spec.SM2.gx : ℕ) - u : Int) : ZMod n) = 0 := by push_cast at h ⊢; exact h
    rw [cast_eq_zero_iff] at h3
    have hb : ((x2G : Int) - (Spec.SM2.gx : ℕ) - u) < n := by
      rw [n_val]; unfold x2G Spec.SM2.gx; push_cast; omega
    have hb' : 0 < ((x2G : Int) - (Spec.SM2.gx : ℕ) - u) := by
      unfold x2G Spec.SM2.gx; push_cast; omega
    have := Int.le_of_dvd hb' h3
    omega
  push_cast at h1 h2
  rcases h1 with h1 | h1 | h1 <;> rcases h2 with h2 | h2 | h2
  · exact key 0 (by decide) (by push_cast; linear_combination h2 - h1)
  · exact key 2 (by decide) (by push_cast; linear_combination h2 - h1)
  · exact key (-2) (by decide) (by push_cast; linear_combination h2 - h1)
  · exact key (-1) (by decide) (by push_cast; linear_combination h2 - h1)
  · exact key 1 (by decide) (by push_cast; linear_combination h2 - h1)
  · exact key (-3) (by decide) (by push_cast; linear_combination h2 - h1)
  · exact key 1 (by decide) (by push_cast; linear_combination h2 - h1)
  · exact key 3 (by decide) (by push_cast; linear_combination h2 - h1)
  · exact key (-1) (by decide) (by push_cast; linear_combination h2 - h1)

/-- C41, the part that holds: the standard has a signature for every private key but the multiples of `n` and of `n`
minus one, every id and every message. -/
theorem C41_usable_nonce_partial (d : ℕ) (hd : ¬ n ∣ d) (hd1 : ¬ n ∣ d + 1) (id M : Bytes) :
    ∃ k r s, IsSignature d id M k r s := by
  have hn := n_gt
  obtain ⟨xP, yP, hc, _, _⟩ := coords_dG hd
  obtain ⟨k, h1, h2, h3, h4, h5⟩ := usable_nonce d (Spec.SM2.e id M xP yP)
  obtain ⟨x1, y1, hk, _, _⟩ := coords_ne (fun h0 => not_dvd_of_lt h1 h2 ((smul_eq_zero G_ne_zero).1 h0))
  rw [enc_coords hk] at h3 h4 h5
  dsimp only at h3 h4 h5
  have hd' : (1 + (d : ZMod n)) ≠ 0 := by
    intro h
    apply hd1
    rw [← ZMod.natCast_eq_zero_iff]
    push_cast
    rw [add_comm]; exact h
  have hs : (((((1 + (d : ZMod n))⁻¹ * (k - ((((Spec.SM2.e id M xP yP : ℤ) + x1) % n : Int) : ZMod n) * d)).val : ℕ) : Int) : ZMod n)
      = (1 + (d : ZMod n))⁻¹ * (k - ((((Spec.SM2.e id M xP yP : ℤ) + x1) % n : Int) : ZMod n) * d) := by
    rw [Int.cast_natCast, ZMod.natCast_zmod_val]
  refine ⟨k, ((Spec.SM2.e id M xP yP : ℤ) + x1) % n,
    (((1 + (d : ZMod n))⁻¹ * (k - ((((Spec.SM2.e id M xP yP : ℤ) + x1) % n : Int) : ZMod n) * d)).val : ℕ),
    h1, h2, xP, yP, x1, y1, hc, hk, rfl, h3, h4, ?_, by positivity, by exact_mod_cast ZMod.val_lt _, ?_⟩
  · intro h
    rw [h, Int.cast_zero] at hs
    rcases mul_eq_zero.1 hs.symm with h0 | h0
    · exact hd' (inv_eq_zero.1 h0)
    · apply h5
      push_cast at h0 ⊢
      linear_combination h0
  · rw [← Int.ModEq, ← ZMod.intCast_eq_intCast_iff, Int.cast_mul, hs]
    push_cast
    rw [← mul_assoc, mul_inv_cancel₀ hd', one_mul]

/-- The two together: there is a nonce such that signing returns on every tape that delivers it without an error before. -/
theorem C41_terminates_partial (d : ℕ) (hd : ¬ n ∣ d) (hd1 : ¬ n ∣ d + 1) (id : Option Bytes)
    (hid : (id.getD defaultUserId).length < 8192) (M : Bytes) (hM : M ≠ []) (hM' : M.length < 2 ^ 31) :
    ∃ k, 1 ≤ k ∧ k < n ∧ ∀ (pre : List Bytes) (rest : Tape),
      ∃ rs, signToRS ⟨d⟩ id M (pre.map some ++ some (toBE 32 k) :: rest) = .ok rs := by
  obtain ⟨k, r, s, h⟩ := C41_usable_nonce_partial d hd hd1 (id.getD defaultUserId) M
  refine ⟨k, h.1, h.2.1, fun pre rest => C41_returns_partial d hd hd1 id hid M hM hM' pre _ rest ⟨r, s, ?_⟩⟩
  rw [beNat_toBE_of_lt]
  · exact h
  · have := n_lt
    have := h.2.1
    exact lt_of_lt_of_le (b := 2 ^ 256) (by omega) (by norm_num)

/-! ### The singular key -/

theorem forLoop_res {σ α : Type} {body : σ → Res (σ ⊕ α)} (I : σ → Prop)
    (h : ∀ s, I s → (∃ a, body s = .ok (.inr a)) ∨ (∃ s', body s = .ok (.inl s') ∧ I s') ∨ body s = .loop) :
    ∀ (fuel : ℕ) (s : σ), I s → (∃ a, forLoop body fuel s = .ok a) ∨ forLoop body fuel s = .loop := by
  intro fuel
  induction fuel with
  | zero => intro s _; exact .inr rfl
  | succ fuel ih =>
    intro s hs
    unfold forLoop
    rcases h s hs with ⟨a, ha⟩ | ⟨s', ha, hs'⟩ | ha
    · rw [ha]; exact .inl ⟨a, rfl⟩
    · rw [ha]; exact ih s' hs'
    · rw [ha]; exact .inr rfl

theorem randInt_res (t : Tape) (h : none ∉ t) : (∃ r, randInt cv.N t = .ok r) ∨ randInt cv.N t = .loop := by
  induction t with
  | nil => exact .inr rfl
  | cons o t ih =>
    cases o with
    | none => simp at h
    | some bs =>
      rw [randInt_N_cons]
      split
      · exact .inl ⟨_, rfl⟩
      · exact ih (by simp at h; exact h)

theorem nextK_res (t : Tape) (h : none ∉ t) : (∃ r, nextK t cv.N = .ok r) ∨ nextK t cv.N = .loop := by
  refine forLoop_res (fun t => none ∉ t) ?_ _ _ h
  intro s hs
  rcases randInt_res s hs with ⟨r, hr⟩ | hr
  · obtain ⟨_, _, _, hsuf⟩ := randInt_mem hr
    rw [hr, Res.ok_bind]
    split
    · exact .inl ⟨_, rfl⟩
    · exact .inr (.inl ⟨_, rfl, fun hm => hs (hsuf.subset hm)⟩)
  · rw [hr]; exact .inr (.inr rfl)

theorem signInner_res (e : Int) (t : Tape) (h : none ∉ t) : (∃ r, signInner e t = .ok r) ∨ signInner e t = .loop := by
  refine forLoop_res (fun t => none ∉ t) ?_ _ _ h
  intro s hs
  rcases nextK_res s hs with ⟨r, hr⟩ | hr
  · obtain ⟨_, _, _, hsuf⟩ := nextK_mem hr
    rw [hr, Res.ok_bind, baseMult_int, Res.ok_bind]
    dsimp only
    split
    · exact .inl ⟨_, rfl⟩
    · exact .inr (.inl ⟨_, rfl, fun hm => hs (hsuf.subset hm)⟩)
  · rw [hr]; exact .inr (.inr rfl)

/-- On an error-free tape signing returns a pair or uses up the tape, once the message hash is computed. -/
theorem signToRS_res {d e : Int} {id : Option Bytes} {M : Bytes}
    (he : calculateE (enc (d.natAbs • G)).1 (enc (d.natAbs • G)).2 (id.getD defaultUserId) M = .ok e) (t : Tape)
    (h : none ∉ t) : (∃ r, signToRS ⟨d⟩ id M t = .ok r) ∨ signToRS ⟨d⟩ id M t = .loop := by
  unfold signToRS
  rw [baseMult_int, Res.ok_bind]
  dsimp only
  rw [he, Res.ok_bind]
  refine forLoop_res (fun t => none ∉ t) ?_ _ _ h
  intro s hs
  rcases signInner_res e s hs with ⟨⟨k, r, t'⟩, hr⟩ | hr
  · obtain ⟨_, _, hsuf⟩ := signInner_ok hr
    rw [hr, Res.ok_bind]
    dsimp only
    split
    · exact .inl ⟨_, rfl⟩
    · exact .inr (.inl ⟨_, rfl, fun hm => hs (hsuf.subset hm)⟩)
  · rw [hr]; exact .inr (.inr rfl)

/-- The private key `n - 1` signs nothing. -/
theorem signToRS_last (id M tape rs) : signToRS ⟨((n - 1 : ℕ) : Int)⟩ id M tape ≠ .ok rs := by
  have hn := n_gt
  obtain ⟨r, s⟩ := rs
  intro h
  obtain ⟨e, k, _, _, h2, h3, h4, h5, h6, _, _, _, h10⟩ := signToRS_ok h
  have hd : (((n - 1 : ℕ) : Int) : ZMod n) = -1 := by
    rw [Int.cast_natCast, Nat.cast_sub (by omega)]; simp
  rw [hd] at h10
  have hr0 : 0 ≤ r := h4 ▸ Int.emod_nonneg _ (by omega)
  have hr1 : r < n := h4 ▸ Int.emod_lt_of_pos _ (by omega)
  have h11 : ((r + k : Int) : ZMod n) = 0 := by
    push_cast
    linear_combination -h10
  rw [cast_eq_zero_iff] at h11
  have h12 := Int.le_of_dvd (by omega) h11
  obtain ⟨w, hw⟩ := h11
  have : w = 1 := by
    have h4 : (n : Int) * w < n * 2 := by omega
    have h5 : w < 2 := lt_of_mul_lt_mul_left h4 (by omega)
    have h6 : 0 < w := by
      by_contra hc
      have : (n : Int) * w ≤ 0 := Int.mul_nonpos_of_nonneg_of_nonpos (by omega) (by omega)
      omega
    omega
  subst this
  omega

theorem sign_last (id M tape sig) : sign ⟨((n - 1 : ℕ) : Int)⟩ id M tape ≠ .ok sig := by
  intro h
  unfold sign at h
  rw [Res.bind_eq_ok] at h
  obtain ⟨rs, h1, _⟩ := h
  exact signToRS_last id M tape rs h1

/-- C41 is violated: `RawBytesToPrivateKey` accepts `n - 1`, and with this key signing never returns a signature, on no
tape; on a random source without errors it draws nonces for ever. -/
theorem C41_violated : ∃ (raw : Bytes) (priv : PrivateKey), raw.length = 32 ∧ rawBytesToPrivateKey raw = .ok priv ∧
    (∀ id M tape sig, sign priv id M tape ≠ .ok sig) ∧
    ∀ (id : Option Bytes) (M : Bytes) (tape : Tape), (id.getD defaultUserId).length < 2 ^ 31 → M ≠ [] → M.length < 2 ^ 31 →
      none ∉ tape → sign priv id M tape = .loop := by
  have hn := n_gt
  have hlt : n - 1 < 2 ^ 256 := by have := n_lt; omega
  refine ⟨toBE 32 (n - 1), ⟨((n - 1 : ℕ) : Int)⟩, length_toBE .., ?_, sign_last, ?_⟩
  · unfold rawBytesToPrivateKey
    rw [if_neg (by rw [length_toBE]; decide), beNat_toBE_of_lt (lt_of_lt_of_le hlt (by norm_num))]
  · intro id M tape hid hM hM' ht
    obtain ⟨x, y, hc, hx, hy⟩ := coords_dG (d := n - 1) (not_dvd_of_lt (by omega) (by omega))
    have he := calculateE_eq hx hy (id := id.getD defaultUserId) hid hM hM'
    unfold sign
    rcases signToRS_res (d := ((n - 1 : ℕ) : Int)) (id := id) (M := M) (by rw [Int.natAbs_natCast, enc_coords hc]; exact he)
      tape ht with ⟨rs, h⟩ | h
    · exact absurd h (signToRS_last id M tape rs)
    · rw [h]; rfl

/-! ## C62: only valid public keys -/

/-- C62 is violated: for the public key (0, 0), which `RawBytesToPublicKey` accepts and which is not on the curve, anyone
can make a signature for every message and id: choose `s`, compute `r` from the message hash and `[s]G`. -/
theorem C62_forgery_violated : ∃ (raw : Bytes) (pub : PublicKey), rawBytesToPublicKey raw = .ok pub ∧
    isOnCurve cv pub.X pub.Y = false ∧
    ∀ (id : Option Bytes) (M : Bytes), (id.getD defaultUserId).length < 2 ^ 31 → M ≠ [] → M.length < 2 ^ 31 →
      ∃ sig, verify pub id M sig = .ok true := by
  refine ⟨List.replicate 64 0, ⟨0, 0⟩, by decide +kernel, by decide +kernel, fun id M hid hM hM' => ?_⟩
  have hn := n_gt
  have he := calculateE_eq (x := 0) (y := 0) (by norm_num) (by norm_num) (id := id.getD defaultUserId) hid hM hM'
  obtain ⟨k, h1, h2, h3, h4, _⟩ := usable_nonce 0 (beNat (Spec.SM3.hash (Spec.SM3.hash (zIn (id.getD defaultUserId) 0 0) ++ M)) : ℕ)
  generalize hr : ((beNat (Spec.SM3.hash (Spec.SM3.hash (zIn (id.getD defaultUserId) 0 0) ++ M)) : ℕ) + (enc (k • G)).1) % (n : Int) = r
    at h3 h4
  have hr0 : 0 ≤ r := hr ▸ Int.emod_nonneg _ (by omega)
  have hr1 : r < n := hr ▸ Int.emod_lt_of_pos _ (by omega)
  obtain ⟨sig, g1, g2⟩ := unmarshal_marshal (inRange_n hr0 hr1) (inRange_n (v := (k : Int)) (by omega) (by omega)) (by norm_num)
  refine ⟨sig, ?_⟩
  have g3 := g2 []
  rw [List.append_nil] at g3
  unfold verify
  rw [g3]
  obtain ⟨b, hb, hb'⟩ := verifyByRS_zero (id := id) (M := M) (r := r) (s := k) he
  dsimp only
  rw [hb, hb'.2]
  refine ⟨by omega, hr1, by omega, by omega, ?_, ?_⟩
  · intro h0
    obtain ⟨w, hw⟩ := Int.dvd_of_emod_eq_zero h0
    have : w = 1 := by
      have h4 : (n : Int) * w < n * 2 := by omega
      have h5 : w < 2 := lt_of_mul_lt_mul_left h4 (by omega)
      have h6 : 0 < w := by
        by_contra hc
        have : (n : Int) * w ≤ 0 := Int.mul_nonpos_of_nonneg_of_nonpos (by omega) (by omega)
        omega
      omega
    subst this
    omega
  · rw [natCast_zsmul, hr]

/-- C62, the part that holds: under a public key on the curve only the standard's signatures are accepted (C36), and a
public key on the curve is what `CalculatePubKey` makes of every private key that is no multiple of `n`. -/
theorem C62_derived_keys_partial (d : ℕ) (hd : ¬ n ∣ d) : ∃ pub, calculatePubKey ⟨d⟩ = .ok pub ∧
    isOnCurve cv pub.X pub.Y = true ∧ 0 ≤ pub.X ∧ pub.X < p ∧ 0 ≤ pub.Y ∧ pub.Y < p := by
  obtain ⟨x, y, hc, _, _⟩ := coords_dG hd
  obtain ⟨_, h1, h2⟩ := coords_some hc
  refine ⟨⟨x, y⟩, ?_, onCurve_of_coords hc, by positivity, Int.ofNat_lt.2 h1, by positivity, Int.ofNat_lt.2 h2⟩
  unfold calculatePubKey
  rw [baseMult_int, Res.ok_bind, Int.natAbs_natCast, enc_coords hc]

/-- A forged signature on "a" under the key (0, 0), with `s = 1`. -/
example : verifyByRS ⟨0, 0⟩ none [0x61] 0x147f9a6c1cb641c65c9d16607abb5e5b455f6f271a44ba035d305140fcdbb125 1 = .ok true := by
  have he : calculateE 0 0 defaultUserId [0x61] = .ok 0xe1baec3efd9cc0acfd04121a108194c6278042d249a4b34d3f91ffc103647d81 := by
    decide +kernel
  obtain ⟨b, hb, hb'⟩ := verifyByRS_zero (id := none) (r := 0x147f9a6c1cb641c65c9d16607abb5e5b455f6f271a44ba035d305140fcdbb125)
    (s := 1) he
  rw [hb, hb'.2]
  rw [show (1 : Int) • G = 1 • G by rw [one_zsmul, one_smul], enc_coords coords_G, n_val]
  decide +kernel

/-! ## A concrete signature

Private key 2, nonce 3, message "a", default id. -/

def exR : Int := 0x98d316bfef5075ff2af53978a5607184167ef05f75ae63efdc77eb800f6999b3
def exS : Int := 0x9a1df0d4607506ab38b1d9af91bfb4520daf3f2b7dfc6d361616ac5e84e43002

theorem example_sign : signToRS ⟨2⟩ none [0x61] [some (toBE 32 3)] = .ok (exR, exS) := by decide +kernel

/-- The hypotheses of C35, C37, C39 are met by it. -/
example : ∃ pub, calculatePubKey ⟨(2 : ℕ)⟩ = .ok pub ∧ verifyByRS pub none [0x61] exR exS = .ok true := by
  obtain ⟨pub, h⟩ : ∃ pub, calculatePubKey ⟨(2 : ℕ)⟩ = .ok pub := by
    unfold calculatePubKey; rw [baseMult_int]; exact ⟨_, rfl⟩
  exact ⟨pub, h, C35_verifies 2 pub h none _ _ _ _ example_sign⟩

/-- The nonce 0 and a nonce that is too large are skipped. -/
example : signToRS ⟨2⟩ none [0x61] [some (toBE 32 0), some (List.replicate 32 0xff), some (toBE 32 3)] = .ok (exR, exS) := by
  decide +kernel

end Verif.Props
