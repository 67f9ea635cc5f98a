import Verif.Sm2.ExchangeLemmas
import Verif.Props.Sm2Cipher
/-!
# SM2 key exchange: C48 – C50, C65 – C67
-/
namespace Verif.Props
open EC Verif.Sm2
open Verif.Spec.SM2 (coords fe xbar sharedPoint exKey exTag)

attribute [local irreducible] Spec.SM2.fe Spec.SM3.hash

/-- The outcome after the checks of the arguments, in terms of the parts. -/
theorem exchange_eq {i : Bool} {keyBits : Int} {tag id oid : Option Bytes} {d r x x' : ℕ} {yy : Int} {P R : Pt}
    {sp op oe : PublicKey} (hi : ¬ (i = true ∧ tag = none)) (hsp : calculatePubKey ⟨d⟩ = .ok sp)
    (hse : calculatePubKey ⟨r⟩ = .ok ⟨x, yy⟩) (hP : (op.X, op.Y) = enc P) (hR : (oe.X, oe.Y) = enc R) (hx : oe.X = (x' : Int)) :
    calculateKeyWithConfirmation i keyBits tag ⟨d⟩ ⟨r⟩ id op oe oid =
      (getZ sp.X sp.Y (id.getD []) >>= fun za => getZ op.X op.Y (oid.getD []) >>= fun zb =>
        if i = true then initiatorPart keyBits (tag.getD []) (enc (sharedPoint d r x P R x')) za zb ⟨x, yy⟩ oe
        else responderPart keyBits (enc (sharedPoint d r x P R x')) za zb ⟨x, yy⟩ oe) := by
  unfold calculateKeyWithConfirmation
  dsimp only
  rw [if_neg hi, hsp, Res.ok_bind]
  have hw : cv.bitSize / 2 - 1 = 127 := rfl
  rw [hw, hse]
  simp only [Res.ok_bind, calculateU_eq hP hR hx]

theorem pub_nat {d : ℕ} {pub : PublicKey} (h : calculatePubKey ⟨d⟩ = .ok pub) :
    ∃ x y : ℕ, pub = ⟨x, y⟩ ∧ x < 2 ^ 256 ∧ y < 2 ^ 256 ∧ enc (d • G) = ((x : Int), (y : Int)) := by
  obtain ⟨x, y, h1, h2, h3⟩ := enc_nat (d • G)
  have := pub_of_priv h
  rw [h1, Prod.mk.injEq] at this
  refine ⟨x, y, ?_, h2, h3, h1⟩
  cases pub
  simp only at this
  rw [this.1, this.2]

/-- Both sides compute the same point. -/
theorem shared_symm (dA rA xA dB rB xB : ℕ) :
    sharedPoint dA rA xA (dB • G) (rB • G) xB = sharedPoint dB rB xB (dA • G) (rA • G) xA := by
  unfold sharedPoint
  rw [smul_mod, smul_mod, ← mul_nsmul', ← mul_nsmul', ← add_nsmul, ← add_nsmul, ← mul_nsmul', ← mul_nsmul', Nat.mul_comm]

/-! ## C48 -/

/-- C48: whenever the responder returns a result, the initiator given its `S1` returns a result with the same key and the
`S2` the responder expects. For all private keys, ids (nil too) and key lengths. -/
theorem C48_agree (dA rA dB rB : ℕ) (pA eA pB eB : PublicKey) (hpA : calculatePubKey ⟨dA⟩ = .ok pA)
    (heA : calculatePubKey ⟨rA⟩ = .ok eA) (hpB : calculatePubKey ⟨dB⟩ = .ok pB) (heB : calculatePubKey ⟨rB⟩ = .ok eB)
    (idA idB tag : Option Bytes) (keyBits : Int) (resB : ExchangeResult)
    (h : calculateKeyWithConfirmation false keyBits tag ⟨dB⟩ ⟨rB⟩ idB pA eA idA = .ok resB) :
    ∃ resA, calculateKeyWithConfirmation true keyBits (some resB.S1) ⟨dA⟩ ⟨rA⟩ idA pB eB idB = .ok resA ∧
      resA.Key = resB.Key ∧ responderConfirm resB.S2 resA.S2 = true := by
  have qA := pub_of_priv hpA
  have qB := pub_of_priv hpB
  have uA := pub_of_priv heA
  have uB := pub_of_priv heB
  obtain ⟨xA, yA, rfl, _, _, _⟩ := pub_nat heA
  obtain ⟨xB, yB, rfl, _, _, _⟩ := pub_nat heB
  rw [exchange_eq (x' := xA) (by simp) hpB heB qA uA rfl, Res.bind_eq_ok] at h
  obtain ⟨zb, h1, h⟩ := h
  rw [Res.bind_eq_ok] at h
  obtain ⟨za, h2, h⟩ := h
  rw [if_neg (by simp)] at h
  rw [exchange_eq (x' := xB) (by simp) hpA heA qB uB rfl, h2, Res.ok_bind, h1, Res.ok_bind, if_pos rfl, shared_symm]
  unfold responderPart at h
  unfold initiatorPart
  rw [Res.bind_eq_ok] at h
  obtain ⟨rv, g1, h⟩ := h
  rw [Res.bind_eq_ok] at h
  obtain ⟨ih, g2, h⟩ := h
  rw [Res.bind_eq_ok] at h
  obtain ⟨t1, g3, h⟩ := h
  rw [Res.bind_eq_ok] at h
  obtain ⟨t2, g4, h⟩ := h
  rw [Res.ok.injEq] at h
  subst h
  rw [g1, Res.ok_bind, g2, Res.ok_bind, g3, Res.ok_bind, Option.getD_some, if_neg (by simp), g4, Res.ok_bind]
  exact ⟨_, rfl, rfl, by simp [responderConfirm]⟩

theorem y_ne_zero {Q : Pt} {x y : ℕ} (h : coords Q = some (x, y)) : y ≠ 0 := by
  intro h0
  cases Q with
  | zero => cases h
  | some a b hn =>
    simp only [coords, Option.some.injEq, Prod.mk.injEq] at h
    have hb : b = 0 := by rw [← ZMod.val_eq_zero, h.2, h0]
    have := curve_eq hn
    rw [hb] at this
    exact no_root (x := a) (by linear_combination -this)

/-- The confirmation hash with integers in their shortest form, as the code computes it. -/
def shortTag (b : Byte) (xU yU : ℕ) (zA zB : Bytes) (x1 y1 x2 y2 : ℕ) : Bytes :=
  Spec.SM3.hash (b :: (natBytes yU ++ Spec.SM3.hash (natBytes xU ++ zA ++ zB ++ natBytes x1 ++ natBytes y1 ++ natBytes x2 ++ natBytes y2)))

/-- The key with integers in their shortest form, as the code computes it. -/
def shortKey (xU yU : ℕ) (zA zB : Bytes) (klen : ℕ) : Bytes :=
  (Spec.SM3.hash (natBytes xU ++ natBytes yU ++ zA ++ zB ++ [0, 0, 0, 1])).take klen

theorem natBytes_ne {v : ℕ} (h : v ≠ 0) : natBytes v ≠ [] := by
  intro h'
  have := beNat_natBytes v
  rw [h'] at this
  exact h this.symm

theorem ne_of_natBytes {v : ℕ} (h : natBytes v ≠ []) : v ≠ 0 := by
  rintro rfl
  exact h (by decide +kernel)

theorem length_natBytes_lt {v : ℕ} (h : v < 2 ^ 256) : (natBytes v).length < 2 ^ 31 := by
  have : (natBytes v).length ≤ 32 := by
    unfold natBytes
    rw [length_toBE, byteLen_le_iff]
    exact lt_of_lt_of_eq h (by norm_num)
  omega

theorem innerHash_eq {xU x1 y1 x2 y2 : ℕ} {zA zB : Bytes} (hz : zA.length = 32 ∧ zB.length = 32)
    (h : xU ≠ 0 ∧ x1 ≠ 0 ∧ y1 ≠ 0 ∧ x2 ≠ 0 ∧ y2 ≠ 0)
    (hlt : xU < 2 ^ 256 ∧ x1 < 2 ^ 256 ∧ y1 < 2 ^ 256 ∧ x2 < 2 ^ 256 ∧ y2 < 2 ^ 256) :
    calculateInnerHash xU zA zB x1 y1 x2 y2 =
      .ok (Spec.SM3.hash (natBytes xU ++ zA ++ zB ++ natBytes x1 ++ natBytes y1 ++ natBytes x2 ++ natBytes y2)) := by
  unfold calculateInnerHash
  rw [hashOf_eq_of]
  · simp [intBytes]
  · intro c hc
    simp only [List.mem_cons, List.not_mem_nil, or_false, intBytes, Int.natAbs_natCast] at hc
    have hz' : ∀ z : Bytes, z.length = 32 → z ≠ [] ∧ z.length < 2 ^ 31 := fun z h =>
      ⟨fun h' => by rw [h'] at h; simp at h, by omega⟩
    have hn : ∀ v : ℕ, v ≠ 0 → v < 2 ^ 256 → natBytes v ≠ [] ∧ (natBytes v).length < 2 ^ 31 := fun v h h' =>
      ⟨natBytes_ne h, length_natBytes_lt h'⟩
    rcases hc with rfl | rfl | rfl | rfl | rfl | rfl | rfl
    · exact hn _ h.1 hlt.1
    · exact hz' _ hz.1
    · exact hz' _ hz.2
    · exact hn _ h.2.1 hlt.2.1
    · exact hn _ h.2.2.1 hlt.2.2.1
    · exact hn _ h.2.2.2.1 hlt.2.2.2.1
    · exact hn _ h.2.2.2.2 hlt.2.2.2.2

theorem innerHash_ok {xU x1 y1 x2 y2 : ℕ} {zA zB ih : Bytes} (h : calculateInnerHash xU zA zB x1 y1 x2 y2 = .ok ih) :
    ih = Spec.SM3.hash (natBytes xU ++ zA ++ zB ++ natBytes x1 ++ natBytes y1 ++ natBytes x2 ++ natBytes y2) ∧ xU ≠ 0 := by
  obtain ⟨h1, h2⟩ := hashOf_ok h
  refine ⟨by rw [h1]; simp [intBytes], ne_of_natBytes ?_⟩
  have := (h2 (intBytes (xU : Int)) (by simp)).1
  simpa [intBytes] using this

theorem tagHash_eq {b : Byte} {yU : ℕ} (h0 : yU ≠ 0) (h1 : yU < 2 ^ 256) {ih : Bytes} (hi : ih.length = 32) :
    hashOf [[b], intBytes (yU : Int), ih] = .ok (Spec.SM3.hash (b :: (natBytes yU ++ ih))) := by
  rw [hashOf_eq_of]
  · simp [intBytes]
  · intro c hc
    simp only [List.mem_cons, List.not_mem_nil, or_false, intBytes, Int.natAbs_natCast] at hc
    rcases hc with rfl | rfl | rfl
    · simp
    · exact ⟨natBytes_ne h0, length_natBytes_lt h1⟩
    · exact ⟨fun h' => by rw [h'] at hi; simp at hi, by omega⟩

theorem tagHash_ok {b : Byte} {yU : ℕ} {ih t : Bytes} (h : hashOf [[b], intBytes (yU : Int), ih] = .ok t) :
    t = Spec.SM3.hash (b :: (natBytes yU ++ ih)) ∧ yU ≠ 0 := by
  obtain ⟨h1, h2⟩ := hashOf_ok h
  refine ⟨by rw [h1]; simp [intBytes], ne_of_natBytes ?_⟩
  have := (h2 (intBytes (yU : Int)) (by simp)).1
  simpa [intBytes] using this

theorem kdf_ok {xU yU : ℕ} {zA zB rv : Bytes} {keyBits : Int} (h : kdfForExch xU yU zA zB keyBits = .ok rv) :
    -15 < keyBits ∧ keyBits ≤ 128 ∧ rv = shortKey xU yU zA zB ((keyBits.toNat + 7) / 8) := by
  by_cases h1 : Int.tdiv (keyBits + 7) 8 < 0
  · rw [kdfForExch_neg h1] at h; cases h
  by_cases h2 : 16 < Int.tdiv (keyBits + 7) 8
  · rw [kdfForExch_long h2] at h; cases h
  have hlow : -15 < keyBits := by
    by_contra hc
    apply h1
    rw [show keyBits + 7 = -(-(keyBits + 7)) by ring, Int.neg_tdiv, Int.tdiv_eq_ediv_of_nonneg (by omega)]
    omega
  have hhigh : keyBits ≤ 128 := by
    by_contra hc
    apply h2
    rw [Int.tdiv_eq_ediv_of_nonneg (by omega)]
    omega
  refine ⟨hlow, hhigh, ?_⟩
  by_cases h0 : 0 ≤ keyBits
  · have hL := tdiv_keyBits h0
    by_cases hz : (keyBits.toNat + 7) / 8 = 0
    · rw [hz] at hL
      rw [kdfForExch_zero hL, Res.ok.injEq] at h
      rw [← h, hz, shortKey, List.take_zero]
    · rw [kdfForExch_eq hL (by omega) (by omega), Res.bind_eq_ok] at h
      obtain ⟨t, g1, g2⟩ := h
      rw [Res.ok.injEq] at g2
      rw [← g2, (hashOf_ok g1).1]
      unfold shortKey
      simp [intBytes]
  · have hL : Int.tdiv (keyBits + 7) 8 = 0 := by
      by_cases h7 : 0 ≤ keyBits + 7
      · rw [Int.tdiv_eq_ediv_of_nonneg h7]; omega
      · rw [show keyBits + 7 = -(-(keyBits + 7)) by ring, Int.neg_tdiv, Int.tdiv_eq_ediv_of_nonneg (by omega)]
        omega
    rw [kdfForExch_zero hL, Res.ok.injEq] at h
    rw [← h, show (keyBits.toNat + 7) / 8 = 0 by omega, shortKey, List.take_zero]

theorem kdf_returns {xU yU : ℕ} (h : xU ≠ 0 ∧ yU ≠ 0) (hlt : xU < 2 ^ 256 ∧ yU < 2 ^ 256) {zA zB : Bytes}
    (hz : zA.length = 32 ∧ zB.length = 32) {keyBits : Int} (h0 : 0 ≤ keyBits) (h1 : keyBits ≤ 128) :
    kdfForExch xU yU zA zB keyBits = .ok (shortKey xU yU zA zB ((keyBits.toNat + 7) / 8)) := by
  have hL := tdiv_keyBits h0
  by_cases hz0 : (keyBits.toNat + 7) / 8 = 0
  · rw [hz0] at hL
    rw [kdfForExch_zero hL, hz0, shortKey, List.take_zero]
  · rw [kdfForExch_eq hL (by omega) (by omega), hashOf_eq_of, Res.ok_bind]
    · unfold shortKey
      simp [intBytes]
    · intro c hc
      have hz' : ∀ z : Bytes, z.length = 32 → z ≠ [] ∧ z.length < 2 ^ 31 := fun z h =>
        ⟨fun h' => by rw [h'] at h; simp at h, by omega⟩
      have hn : ∀ v : ℕ, v ≠ 0 → v < 2 ^ 256 → natBytes v ≠ [] ∧ (natBytes v).length < 2 ^ 31 := fun v h h' =>
        ⟨natBytes_ne h, length_natBytes_lt h'⟩
      simp only [List.mem_cons, List.not_mem_nil, or_false, intBytes, Int.natAbs_natCast] at hc
      rcases hc with rfl | rfl | rfl | rfl | rfl
      · exact hn _ h.1 hlt.1
      · exact hn _ h.2 hlt.2
      · exact hz' _ hz.1
      · exact hz' _ hz.2
      · simp

/-- What a result of either side consists of. -/
theorem parts_ok {xU yU x1 y1 x2 y2 : ℕ} {zA zB : Bytes} {keyBits : Int} {rv ih t1 t2 : Bytes}
    (g1 : kdfForExch xU yU zA zB keyBits = .ok rv) (g2 : calculateInnerHash xU zA zB x1 y1 x2 y2 = .ok ih)
    (g3 : s1 yU ih = .ok t1) (g4 : s2 yU ih = .ok t2) :
    xU ≠ 0 ∧ yU ≠ 0 ∧ -15 < keyBits ∧ keyBits ≤ 128 ∧ rv = shortKey xU yU zA zB ((keyBits.toNat + 7) / 8) ∧
      t1 = shortTag 2 xU yU zA zB x1 y1 x2 y2 ∧ t2 = shortTag 3 xU yU zA zB x1 y1 x2 y2 := by
  obtain ⟨a1, a2, a3⟩ := kdf_ok g1
  obtain ⟨b1, b2⟩ := innerHash_ok g2
  obtain ⟨c1, c2⟩ := tagHash_ok g3
  obtain ⟨d1, _⟩ := tagHash_ok g4
  rw [b1] at c1 d1
  exact ⟨b2, c2, a1, a2, a3, c1, d1⟩

/-- The numbers of one run: the other side's keys are the points `P`, `R`, all with coordinates. -/
structure Run (d r : ℕ) (P R : Pt) (xs ys x1 y1 xo yo x2 y2 xU yU : ℕ) : Prop where
  self : coords (d • G) = some (xs, ys)
  selfEph : coords (r • G) = some (x1, y1)
  other : coords P = some (xo, yo)
  otherEph : coords R = some (x2, y2)
  shared : coords (sharedPoint d r x1 P R x2) = some (xU, yU)

theorem pub_eq_of_coords {d x y : ℕ} (h : coords (d • G) = some (x, y)) : calculatePubKey ⟨d⟩ = .ok ⟨x, y⟩ := by
  unfold calculatePubKey
  rw [baseMult_int, Res.ok_bind, Int.natAbs_natCast, enc_coords h]

theorem getZ_std {Q : Pt} {x y : ℕ} (h : coords Q = some (x, y)) {id : Bytes} (hid : id.length < 8192) :
    getZ x y id = .ok (Spec.SM2.Z id x y) := by
  obtain ⟨_, hx, hy⟩ := coords_some h
  exact (C40_standard x y (lt_trans hx p_lt) (lt_trans hy p_lt) id hid).2

/-- The run of the initiator. -/
theorem initiator_eq {d r : ℕ} {P R : Pt} {xs ys x1 y1 xo yo x2 y2 xU yU : ℕ} (h : Run d r P R xs ys x1 y1 xo yo x2 y2 xU yU)
    {keyBits : Int} {tag : Bytes} {id oid : Option Bytes} (hid : (id.getD []).length < 8192) (hoid : (oid.getD []).length < 8192) :
    calculateKeyWithConfirmation true keyBits (some tag) ⟨d⟩ ⟨r⟩ id ⟨xo, yo⟩ ⟨x2, y2⟩ oid =
      initiatorPart keyBits tag (xU, yU) (Spec.SM2.Z (id.getD []) xs ys) (Spec.SM2.Z (oid.getD []) xo yo) ⟨x1, y1⟩ ⟨x2, y2⟩ := by
  rw [exchange_eq (x := x1) (x' := x2) (P := P) (R := R) (by simp) (pub_eq_of_coords h.self) (pub_eq_of_coords h.selfEph)
    (enc_coords h.other).symm (enc_coords h.otherEph).symm rfl]
  dsimp only
  rw [getZ_std h.self hid, Res.ok_bind, getZ_std h.other hoid, Res.ok_bind, if_pos rfl, enc_coords h.shared]
  rfl

/-- The run of the responder. -/
theorem responder_eq {d r : ℕ} {P R : Pt} {xs ys x1 y1 xo yo x2 y2 xU yU : ℕ} (h : Run d r P R xs ys x1 y1 xo yo x2 y2 xU yU)
    {keyBits : Int} {tag : Option Bytes} {id oid : Option Bytes} (hid : (id.getD []).length < 8192)
    (hoid : (oid.getD []).length < 8192) :
    calculateKeyWithConfirmation false keyBits tag ⟨d⟩ ⟨r⟩ id ⟨xo, yo⟩ ⟨x2, y2⟩ oid =
      responderPart keyBits (xU, yU) (Spec.SM2.Z (id.getD []) xs ys) (Spec.SM2.Z (oid.getD []) xo yo) ⟨x1, y1⟩ ⟨x2, y2⟩ := by
  rw [exchange_eq (x := x1) (x' := x2) (P := P) (R := R) (by simp) (pub_eq_of_coords h.self) (pub_eq_of_coords h.selfEph)
    (enc_coords h.other).symm (enc_coords h.otherEph).symm rfl]
  dsimp only
  rw [getZ_std h.self hid, Res.ok_bind, getZ_std h.other hoid, Res.ok_bind, if_neg (by simp), enc_coords h.shared]

theorem length_Z (id : Bytes) (x y : ℕ) : (Spec.SM2.Z id x y).length = 32 := hash_length _

theorem Run.lt {d r : ℕ} {P R : Pt} {xs ys x1 y1 xo yo x2 y2 xU yU : ℕ} (h : Run d r P R xs ys x1 y1 xo yo x2 y2 xU yU) :
    xU < 2 ^ 256 ∧ yU < 2 ^ 256 ∧ x1 < 2 ^ 256 ∧ y1 < 2 ^ 256 ∧ x2 < 2 ^ 256 ∧ y2 < 2 ^ 256 := by
  have g : ∀ {Q : Pt} {x y : ℕ}, coords Q = some (x, y) → x < 2 ^ 256 ∧ y < 2 ^ 256 := fun hQ =>
    ⟨lt_trans (coords_some hQ).2.1 p_lt, lt_trans (coords_some hQ).2.2 p_lt⟩
  exact ⟨(g h.shared).1, (g h.shared).2, (g h.selfEph).1, (g h.selfEph).2, (g h.otherEph).1, (g h.otherEph).2⟩

/-- C48: the responder does return, for all valid keys and at most 128 key bits, unless one of three x-coordinates is
zero. -/
theorem C48_responder_returns {d r : ℕ} {P R : Pt} {xs ys x1 y1 xo yo x2 y2 xU yU : ℕ}
    (h : Run d r P R xs ys x1 y1 xo yo x2 y2 xU yU) (h0 : xU ≠ 0 ∧ x1 ≠ 0 ∧ x2 ≠ 0)
    (keyBits : Int) (hk : 0 ≤ keyBits ∧ keyBits ≤ 128) (tag id oid : Option Bytes) (hid : (id.getD []).length < 8192)
    (hoid : (oid.getD []).length < 8192) :
    ∃ res, calculateKeyWithConfirmation false keyBits tag ⟨d⟩ ⟨r⟩ id ⟨xo, yo⟩ ⟨x2, y2⟩ oid = .ok res := by
  have hlt := h.lt
  have hy := y_ne_zero h.shared
  rw [responder_eq h hid hoid]
  unfold responderPart
  dsimp only
  rw [kdf_returns ⟨h0.1, hy⟩ ⟨hlt.1, hlt.2.1⟩ ⟨length_Z .., length_Z ..⟩ hk.1 hk.2, Res.ok_bind,
    innerHash_eq ⟨length_Z .., length_Z ..⟩ ⟨h0.1, h0.2.2, y_ne_zero h.otherEph, h0.2.1, y_ne_zero h.selfEph⟩
      ⟨hlt.1, hlt.2.2.2.2.1, hlt.2.2.2.2.2, hlt.2.2.1, hlt.2.2.2.1⟩, Res.ok_bind]
  unfold s1 s2
  rw [tagHash_eq hy hlt.2.1 (hash_length _), Res.ok_bind, tagHash_eq hy hlt.2.1 (hash_length _), Res.ok_bind]
  exact ⟨_, rfl⟩

/-! ## C49 -/

/-- C49: without a confirmation tag the initiator gets an error. -/
theorem C49_no_tag (keyBits : Int) (s e : PrivateKey) (id oid : Option Bytes) (op oe : PublicKey) :
    calculateKeyWithConfirmation true keyBits none s e id op oe oid = .err "if initiating, confirmationTag must be set" := rfl

/-- C49: the initiator accepts only the tag that belongs to the shared point, the ids and the four public keys. -/
theorem C49_tag {d r : ℕ} {P R : Pt} {xs ys x1 y1 xo yo x2 y2 xU yU : ℕ} (h : Run d r P R xs ys x1 y1 xo yo x2 y2 xU yU)
    (keyBits : Int) (tag : Bytes) (id oid : Option Bytes) (hid : (id.getD []).length < 8192) (hoid : (oid.getD []).length < 8192)
    (res : ExchangeResult)
    (hok : calculateKeyWithConfirmation true keyBits (some tag) ⟨d⟩ ⟨r⟩ id ⟨xo, yo⟩ ⟨x2, y2⟩ oid = .ok res) :
    tag = shortTag 2 xU yU (Spec.SM2.Z (id.getD []) xs ys) (Spec.SM2.Z (oid.getD []) xo yo) x1 y1 x2 y2 := by
  rw [initiator_eq h hid hoid] at hok
  unfold initiatorPart at hok
  dsimp only at hok
  rw [Res.bind_eq_ok] at hok
  obtain ⟨rv, g1, hok⟩ := hok
  rw [Res.bind_eq_ok] at hok
  obtain ⟨ih, g2, hok⟩ := hok
  rw [Res.bind_eq_ok] at hok
  obtain ⟨t1, g3, hok⟩ := hok
  split at hok
  · cases hok
  · rename_i hne
    rw [not_not] at hne
    rw [← hne, (tagHash_ok g3).1, (innerHash_ok g2).1]
    rfl

/-- C49: if the initiator accepts one tag, it answers every other tag with an error. For all other inputs. -/
theorem C49_other_tag (keyBits : Int) (tag tag' : Bytes) (s e : PrivateKey) (id oid : Option Bytes) (op oe : PublicKey)
    (res : ExchangeResult) (h : calculateKeyWithConfirmation true keyBits (some tag) s e id op oe oid = .ok res) (hne : tag' ≠ tag) :
    calculateKeyWithConfirmation true keyBits (some tag') s e id op oe oid = .err "confirmation tag mismatch" := by
  unfold calculateKeyWithConfirmation at h ⊢
  dsimp only at h ⊢
  rw [if_neg (by simp)] at h ⊢
  rw [Res.bind_eq_ok] at h
  obtain ⟨sp, g1, h⟩ := h
  rw [g1, Res.ok_bind]
  rw [Res.bind_eq_ok] at h
  obtain ⟨za, g1, h⟩ := h
  rw [g1, Res.ok_bind]
  rw [Res.bind_eq_ok] at h
  obtain ⟨zb, g1, h⟩ := h
  rw [g1, Res.ok_bind]
  rw [Res.bind_eq_ok] at h
  obtain ⟨se, g1, h⟩ := h
  rw [g1, Res.ok_bind]
  rw [Res.bind_eq_ok] at h
  obtain ⟨u, g1, h⟩ := h
  rw [g1, Res.ok_bind]
  rw [if_pos rfl] at h ⊢
  unfold initiatorPart at h ⊢
  rw [Res.bind_eq_ok] at h
  obtain ⟨rv, g1, h⟩ := h
  rw [g1, Res.ok_bind]
  rw [Res.bind_eq_ok] at h
  obtain ⟨ih, g1, h⟩ := h
  rw [g1, Res.ok_bind]
  rw [Res.bind_eq_ok] at h
  obtain ⟨t1, g1, h⟩ := h
  rw [g1, Res.ok_bind]
  rw [Option.getD_some] at h ⊢
  split at h
  · cases h
  · rename_i heq
    rw [not_not] at heq
    rw [if_pos (by rw [heq]; exact hne.symm)]

/-- C49: `ResponderConfirm` is equality. -/
theorem C49_confirm (a b : Bytes) : responderConfirm a b = true ↔ a = b := by simp [responderConfirm]

/-! ## C50 -/

theorem initiator_ok {d r : ℕ} {P R : Pt} {xs ys x1 y1 xo yo x2 y2 xU yU : ℕ} (h : Run d r P R xs ys x1 y1 xo yo x2 y2 xU yU)
    {keyBits : Int} {tag : Bytes} {id oid : Option Bytes} (hid : (id.getD []).length < 8192) (hoid : (oid.getD []).length < 8192)
    {res : ExchangeResult}
    (hok : calculateKeyWithConfirmation true keyBits (some tag) ⟨d⟩ ⟨r⟩ id ⟨xo, yo⟩ ⟨x2, y2⟩ oid = .ok res) :
    xU ≠ 0 ∧ keyBits ≤ 128 ∧
    res = ⟨shortKey xU yU (Spec.SM2.Z (id.getD []) xs ys) (Spec.SM2.Z (oid.getD []) xo yo) ((keyBits.toNat + 7) / 8), [],
      shortTag 3 xU yU (Spec.SM2.Z (id.getD []) xs ys) (Spec.SM2.Z (oid.getD []) xo yo) x1 y1 x2 y2⟩ := by
  rw [initiator_eq h hid hoid] at hok
  unfold initiatorPart at hok
  dsimp only at hok
  rw [Res.bind_eq_ok] at hok
  obtain ⟨rv, g1, hok⟩ := hok
  rw [Res.bind_eq_ok] at hok
  obtain ⟨ih, g2, hok⟩ := hok
  rw [Res.bind_eq_ok] at hok
  obtain ⟨t1, g3, hok⟩ := hok
  split at hok
  · cases hok
  · rw [Res.bind_eq_ok] at hok
    obtain ⟨t2, g4, hok⟩ := hok
    obtain ⟨a1, _, _, a4, a5, _, a7⟩ := parts_ok g1 g2 g3 g4
    rw [Res.ok.injEq] at hok
    rw [← hok, a5, a7]
    exact ⟨a1, a4, rfl⟩

theorem responder_ok {d r : ℕ} {P R : Pt} {xs ys x1 y1 xo yo x2 y2 xU yU : ℕ} (h : Run d r P R xs ys x1 y1 xo yo x2 y2 xU yU)
    {keyBits : Int} {tag id oid : Option Bytes} (hid : (id.getD []).length < 8192) (hoid : (oid.getD []).length < 8192)
    {res : ExchangeResult}
    (hok : calculateKeyWithConfirmation false keyBits tag ⟨d⟩ ⟨r⟩ id ⟨xo, yo⟩ ⟨x2, y2⟩ oid = .ok res) :
    xU ≠ 0 ∧ keyBits ≤ 128 ∧
    res = ⟨shortKey xU yU (Spec.SM2.Z (oid.getD []) xo yo) (Spec.SM2.Z (id.getD []) xs ys) ((keyBits.toNat + 7) / 8),
      shortTag 2 xU yU (Spec.SM2.Z (oid.getD []) xo yo) (Spec.SM2.Z (id.getD []) xs ys) x2 y2 x1 y1,
      shortTag 3 xU yU (Spec.SM2.Z (oid.getD []) xo yo) (Spec.SM2.Z (id.getD []) xs ys) x2 y2 x1 y1⟩ := by
  rw [responder_eq h hid hoid] at hok
  unfold responderPart at hok
  dsimp only at hok
  rw [Res.bind_eq_ok] at hok
  obtain ⟨rv, g1, hok⟩ := hok
  rw [Res.bind_eq_ok] at hok
  obtain ⟨ih, g2, hok⟩ := hok
  rw [Res.bind_eq_ok] at hok
  obtain ⟨t1, g3, hok⟩ := hok
  rw [Res.bind_eq_ok] at hok
  obtain ⟨t2, g4, hok⟩ := hok
  obtain ⟨a1, _, _, a4, a5, a6, a7⟩ := parts_ok g1 g2 g3 g4
  rw [Res.ok.injEq] at hok
  rw [← hok, a5, a6, a7]
  exact ⟨a1, a4, rfl⟩

theorem fe_full {v : ℕ} (h : 2 ^ 248 ≤ v) (h' : v < 2 ^ 256) : natBytes v = fe v := by
  unfold natBytes Spec.SM2.fe
  have h1 : byteLen v ≤ 32 := (byteLen_le_iff _ _).2 (lt_of_lt_of_eq h' (by norm_num))
  have h2 : ¬ byteLen v ≤ 31 := by
    rw [byteLen_le_iff, show (256 : ℕ) ^ 31 = 2 ^ 248 by norm_num]; omega
  rw [show byteLen v = 32 by omega]

theorem shortKey_full {xU yU : ℕ} (hx : 2 ^ 248 ≤ xU) (hx' : xU < 2 ^ 256) (hy : 2 ^ 248 ≤ yU) (hy' : yU < 2 ^ 256)
    (zA zB : Bytes) {L : ℕ} (hL : L ≤ 16) : shortKey xU yU zA zB L = exKey xU yU zA zB L := by
  unfold shortKey exKey Spec.SM2.kdf
  rw [fe_full hx hx', fe_full hy hy']
  by_cases h0 : L = 0
  · rw [h0]; rfl
  · rw [show (L + 31) / 32 = 1 by omega]
    simp only [List.range_one, List.flatMap_singleton]
    rfl

/-- C50, the part that holds: a key that is returned has the requested number of bytes (at most 16), and it is the standard's
if neither coordinate of the shared point begins with a zero byte. Responder. -/
theorem C50_responder_partial {d r : ℕ} {P R : Pt} {xs ys x1 y1 xo yo x2 y2 xU yU : ℕ}
    (h : Run d r P R xs ys x1 y1 xo yo x2 y2 xU yU) (keyBits : Int) (tag id oid : Option Bytes)
    (hid : (id.getD []).length < 8192) (hoid : (oid.getD []).length < 8192) (res : ExchangeResult)
    (hok : calculateKeyWithConfirmation false keyBits tag ⟨d⟩ ⟨r⟩ id ⟨xo, yo⟩ ⟨x2, y2⟩ oid = .ok res) :
    res.Key.length = (keyBits.toNat + 7) / 8 ∧ keyBits ≤ 128 ∧ (2 ^ 248 ≤ xU → 2 ^ 248 ≤ yU →
      res.Key = exKey xU yU (Spec.SM2.Z (oid.getD []) xo yo) (Spec.SM2.Z (id.getD []) xs ys) ((keyBits.toNat + 7) / 8)) := by
  obtain ⟨h1, h2, rfl⟩ := responder_ok h hid hoid hok
  refine ⟨?_, h2, fun hx hy => shortKey_full hx h.lt.1 hy h.lt.2.1 _ _ (by omega)⟩
  dsimp only [shortKey]
  rw [List.length_take, hash_length]
  omega

/-- C50, the part that holds, for the initiator. -/
theorem C50_initiator_partial {d r : ℕ} {P R : Pt} {xs ys x1 y1 xo yo x2 y2 xU yU : ℕ}
    (h : Run d r P R xs ys x1 y1 xo yo x2 y2 xU yU) (keyBits : Int) (tag : Bytes) (id oid : Option Bytes)
    (hid : (id.getD []).length < 8192) (hoid : (oid.getD []).length < 8192) (res : ExchangeResult)
    (hok : calculateKeyWithConfirmation true keyBits (some tag) ⟨d⟩ ⟨r⟩ id ⟨xo, yo⟩ ⟨x2, y2⟩ oid = .ok res) :
    res.Key.length = (keyBits.toNat + 7) / 8 ∧ keyBits ≤ 128 ∧ (2 ^ 248 ≤ xU → 2 ^ 248 ≤ yU →
      res.Key = exKey xU yU (Spec.SM2.Z (id.getD []) xs ys) (Spec.SM2.Z (oid.getD []) xo yo) ((keyBits.toNat + 7) / 8)) := by
  obtain ⟨h1, h2, rfl⟩ := initiator_ok h hid hoid hok
  refine ⟨?_, h2, fun hx hy => shortKey_full hx h.lt.1 hy h.lt.2.1 _ _ (by omega)⟩
  dsimp only [shortKey]
  rw [List.length_take, hash_length]
  omega

/-- C50 is violated: a key of more than 128 bits is never returned; with keys as `GenerateKey` makes them the functions
panic. -/
theorem C50_long_violated {d r : ℕ} {P R : Pt} {xs ys x1 y1 xo yo x2 y2 xU yU : ℕ}
    (h : Run d r P R xs ys x1 y1 xo yo x2 y2 xU yU) (keyBits : Int) (hk : 128 < keyBits) (tag : Bytes) (tag' id oid : Option Bytes)
    (hid : (id.getD []).length < 8192) (hoid : (oid.getD []).length < 8192) :
    calculateKeyWithConfirmation true keyBits (some tag) ⟨d⟩ ⟨r⟩ id ⟨xo, yo⟩ ⟨x2, y2⟩ oid = .panic ∧
    calculateKeyWithConfirmation false keyBits tag' ⟨d⟩ ⟨r⟩ id ⟨xo, yo⟩ ⟨x2, y2⟩ oid = .panic := by
  have hL : 16 < Int.tdiv (keyBits + 7) 8 := by rw [Int.tdiv_eq_ediv_of_nonneg (by omega)]; omega
  constructor
  · rw [initiator_eq h hid hoid]; unfold initiatorPart; rw [kdfForExch_long hL]; rfl
  · rw [responder_eq h hid hoid]; unfold responderPart; rw [kdfForExch_long hL]; rfl

/-! ## C65 -/

/-- The confirmation values are the standard's if none of the six numbers begins with a zero byte. -/
theorem shortTag_full {b : Byte} {xU yU x1 y1 x2 y2 : ℕ} (zA zB : Bytes)
    (h : ∀ v ∈ [xU, yU, x1, y1, x2, y2], 2 ^ 248 ≤ v ∧ v < 2 ^ 256) :
    shortTag b xU yU zA zB x1 y1 x2 y2 = exTag b xU yU zA zB x1 y1 x2 y2 := by
  have g : ∀ v ∈ [xU, yU, x1, y1, x2, y2], natBytes v = fe v := fun v hv => fe_full (h v hv).1 (h v hv).2
  unfold shortTag exTag
  rw [g xU (by simp), g yU (by simp), g x1 (by simp), g y1 (by simp), g x2 (by simp), g y2 (by simp)]

/-- C65, the part that holds: the confirmation values are the standard's if no coordinate of the shared point and the
ephemeral keys begins with a zero byte. -/
theorem C65_tags_partial {d r : ℕ} {P R : Pt} {xs ys x1 y1 xo yo x2 y2 xU yU : ℕ}
    (h : Run d r P R xs ys x1 y1 xo yo x2 y2 xU yU) (hf : ∀ v ∈ [xU, yU, x1, y1, x2, y2], 2 ^ 248 ≤ v)
    (keyBits : Int) (id oid : Option Bytes) (hid : (id.getD []).length < 8192) (hoid : (oid.getD []).length < 8192)
    (res : ExchangeResult) :
    (∀ tag, calculateKeyWithConfirmation false keyBits tag ⟨d⟩ ⟨r⟩ id ⟨xo, yo⟩ ⟨x2, y2⟩ oid = .ok res →
      res.S1 = exTag 2 xU yU (Spec.SM2.Z (oid.getD []) xo yo) (Spec.SM2.Z (id.getD []) xs ys) x2 y2 x1 y1 ∧
      res.S2 = exTag 3 xU yU (Spec.SM2.Z (oid.getD []) xo yo) (Spec.SM2.Z (id.getD []) xs ys) x2 y2 x1 y1) ∧
    (∀ tag, calculateKeyWithConfirmation true keyBits (some tag) ⟨d⟩ ⟨r⟩ id ⟨xo, yo⟩ ⟨x2, y2⟩ oid = .ok res →
      tag = exTag 2 xU yU (Spec.SM2.Z (id.getD []) xs ys) (Spec.SM2.Z (oid.getD []) xo yo) x1 y1 x2 y2 ∧
      res.S2 = exTag 3 xU yU (Spec.SM2.Z (id.getD []) xs ys) (Spec.SM2.Z (oid.getD []) xo yo) x1 y1 x2 y2) := by
  have hl := h.lt
  have hf1 : ∀ v ∈ [xU, yU, x1, y1, x2, y2], 2 ^ 248 ≤ v ∧ v < 2 ^ 256 := by
    intro v hv
    refine ⟨hf v hv, ?_⟩
    simp only [List.mem_cons, List.not_mem_nil, or_false] at hv
    rcases hv with rfl | rfl | rfl | rfl | rfl | rfl
    · exact hl.1
    · exact hl.2.1
    · exact hl.2.2.1
    · exact hl.2.2.2.1
    · exact hl.2.2.2.2.1
    · exact hl.2.2.2.2.2
  have hf2 : ∀ v ∈ [xU, yU, x2, y2, x1, y1], 2 ^ 248 ≤ v ∧ v < 2 ^ 256 := fun v hv => hf1 v (by
    simp only [List.mem_cons, List.not_mem_nil, or_false] at hv ⊢; tauto)
  constructor
  · intro tag hok
    obtain ⟨_, _, rfl⟩ := responder_ok h hid hoid hok
    exact ⟨shortTag_full _ _ hf2, shortTag_full _ _ hf2⟩
  · intro tag hok
    have ht := C49_tag h keyBits tag id oid hid hoid res hok
    obtain ⟨_, _, rfl⟩ := initiator_ok h hid hoid hok
    exact ⟨ht.trans (shortTag_full _ _ hf1), shortTag_full _ _ hf1⟩

/-! ## A concrete exchange

Static keys 1 and 1, ephemeral keys 1 (initiator) and 3 (responder), no ids, 128 bits. The y-coordinate of the shared point
begins with a zero byte. -/

def ex3x : ℕ := 0xa97f7cd4b3c993b4be2daa8cdb41e24ca13f6bd945302244e26918f1d0509ebf
def ex3y : ℕ := 0x530b5dd88c688ef5ccc5cec08a72150f7c400ee5cd045292aaacdd037458f6e6
def exUx : ℕ := 0x72fa9e63c5d1b5313e2644f3a7b7d4ba2bb9eb96a15c22800e2b764a57b27286
def exUy : ℕ := 0x80f7b6cc56863435262763217302ad605174a7a83f6f0c44a205bc2271a3cc

theorem coords_of_enc {Q : Pt} {x y : ℕ} (h0 : (x, y) ≠ (0, 0)) (h : enc Q = ((x : Int), (y : Int))) : coords Q = some (x, y) := by
  by_cases hQ : Q = 0
  · subst hQ
    rw [show enc (0 : Pt) = ((0, 0) : Int × Int) from rfl, Prod.mk.injEq] at h
    exact absurd (by rw [Prod.mk.injEq]; omega) h0
  · obtain ⟨a, b, h1, _, _⟩ := coords_ne hQ
    rw [enc_coords h1, Prod.mk.injEq, Int.ofNat_inj, Int.ofNat_inj] at h
    rw [h1, h.1, h.2]

theorem coords_kG {k x y : ℕ} (h0 : (x, y) ≠ (0, 0)) (h : scalarMultF cv (cv.Gx, cv.Gy) (natBytes k) = .ok ((x : Int), (y : Int))) :
    coords (k • G) = some (x, y) := by
  apply coords_of_enc h0
  have := baseMult_int (k : Int)
  rw [Int.natAbs_natCast] at this
  unfold scalarBaseMult at this
  rw [scalarMult_eq_F, show intBytes (k : Int) = natBytes k by simp [intBytes], h, Res.ok.injEq] at this
  exact this.symm

theorem coords_3G : coords (3 • G) = some (ex3x, ex3y) := coords_kG (by decide +kernel) (by decide +kernel)

/-- The private key of the shared point. -/
def exT : ℕ := 0xfe44fa5dfd0cdcfeb0d225dd94c184ba893e2062bd2acf85af483c05752e74d

theorem coords_exT : coords (exT • G) = some (exUx, exUy) := coords_kG (by decide +kernel) (by decide +kernel)

theorem shared_smul (d r x dO rO x' : ℕ) :
    sharedPoint d r x (dO • G) (rO • G) x' = (((d + xbar x * r) * (dO + xbar x' * rO)) % n) • G := by
  unfold sharedPoint
  rw [smul_mod, smul_mod, ← mul_nsmul', ← add_nsmul, ← mul_nsmul']

def exGx : ℕ := Spec.SM2.gx
def exGy : ℕ := Spec.SM2.gy

theorem coords_1G : coords (1 • G) = some (exGx, exGy) := coords_kG (by decide +kernel) (by decide +kernel)

/-- The responder's numbers. -/
theorem exRun : Run 1 3 (1 • G) (1 • G) exGx exGy ex3x ex3y exGx exGy exGx exGy exUx exUy := by
  refine ⟨coords_1G, coords_3G, coords_1G, coords_1G, ?_⟩
  rw [shared_smul, show (((1 + xbar ex3x * 3) * (1 + xbar exGx * 1)) % n) = exT by rw [n_val]; decide +kernel]
  exact coords_exT

/-- The result of the responder. -/
theorem exResponder : ∃ res, calculateKeyWithConfirmation false 128 none ⟨(1 : ℕ)⟩ ⟨(3 : ℕ)⟩ none ⟨exGx, exGy⟩ ⟨exGx, exGy⟩ none = .ok res :=
  C48_responder_returns exRun (by decide +kernel) 128 (by decide) none none none (by decide) (by decide)

theorem hash_eval {m v : Bytes} (h : hashOf [m] = .ok v) : Spec.SM3.hash m = v := by
  have := (hashOf_ok h).1
  simpa using this.symm

def exZ : Bytes := (toBE 32 0xc13adcc1829f563f2a01ef3c4e0685647bf32a650a35273443150d44f5809ff8)

theorem exZ_eq : Spec.SM2.Z [] exGx exGy = exZ := hash_eval (by decide +kernel)

/-- C50 is violated: the 128-bit key of this exchange is not the standard's. -/
theorem C50_leading_zero_violated : ∃ res,
    calculateKeyWithConfirmation false 128 none ⟨(1 : ℕ)⟩ ⟨(3 : ℕ)⟩ none ⟨exGx, exGy⟩ ⟨exGx, exGy⟩ none = .ok res ∧
    coords (sharedPoint 1 3 ex3x (1 • G) (1 • G) exGx) = some (exUx, exUy) ∧
    res.Key ≠ exKey exUx exUy (Spec.SM2.Z [] exGx exGy) (Spec.SM2.Z [] exGx exGy) 16 := by
  obtain ⟨res, h⟩ := exResponder
  refine ⟨res, h, exRun.shared, ?_⟩
  obtain ⟨_, _, rfl⟩ := responder_ok exRun (by decide) (by decide) h
  have e1 : shortKey exUx exUy exZ exZ ((Int.toNat 128 + 7) / 8) = (toBE 32 0xc1a947ba50634a14cdbb7c7bad800ad1fd884efc16759c257d7fd35a805a24fb).take 16 := by
    unfold shortKey
    rw [hash_eval (v := (toBE 32 0xc1a947ba50634a14cdbb7c7bad800ad1fd884efc16759c257d7fd35a805a24fb)) (by decide +kernel)]
    decide +kernel
  have e2 : exKey exUx exUy exZ exZ 16 = (toBE 32 0x3a19e56b5706ad94f5c3af5eb25656d1a5e25ad2461ddbe4a7e15898de1eb7bd).take 16 := by
    unfold exKey Spec.SM2.kdf
    simp only [show (16 + 31) / 32 = 1 from rfl, List.range_one, List.flatMap_singleton]
    rw [hash_eval (v := (toBE 32 0x3a19e56b5706ad94f5c3af5eb25656d1a5e25ad2461ddbe4a7e15898de1eb7bd)) (by decide +kernel)]
  dsimp only [Option.getD_none]
  rw [exZ_eq, e1, e2]
  decide +kernel

/-- C65 is violated: the confirmation value of this exchange is not the standard's. -/
theorem C65_leading_zero_violated : ∃ res,
    calculateKeyWithConfirmation false 128 none ⟨(1 : ℕ)⟩ ⟨(3 : ℕ)⟩ none ⟨exGx, exGy⟩ ⟨exGx, exGy⟩ none = .ok res ∧
    coords (sharedPoint 1 3 ex3x (1 • G) (1 • G) exGx) = some (exUx, exUy) ∧
    res.S1 ≠ exTag 2 exUx exUy (Spec.SM2.Z [] exGx exGy) (Spec.SM2.Z [] exGx exGy) exGx exGy ex3x ex3y := by
  obtain ⟨res, h⟩ := exResponder
  refine ⟨res, h, exRun.shared, ?_⟩
  obtain ⟨_, _, rfl⟩ := responder_ok exRun (by decide) (by decide) h
  have e1 : shortTag 2 exUx exUy exZ exZ exGx exGy ex3x ex3y = (toBE 32 0x6698fc5ca4b5fbfdfcd25ee6b5c6919d272ffe2d2437c870066d1df79dbf68c8) := by
    unfold shortTag
    rw [hash_eval (m := natBytes exUx ++ exZ ++ exZ ++ natBytes exGx ++ natBytes exGy ++ natBytes ex3x ++ natBytes ex3y)
      (v := (toBE 32 0x92c0a2c561e8514749539aba13a0fcbcb0cb7bdb969bbca2e98616de177189e4)) (by decide +kernel)]
    exact hash_eval (by decide +kernel)
  have e2 : exTag 2 exUx exUy exZ exZ exGx exGy ex3x ex3y = (toBE 32 0x19942817d433fa4e7544bef6bcbc3ea1c9687e26fabb5ef14181f1ad8cdbf6c6) := by
    unfold exTag
    rw [hash_eval (m := fe exUx ++ exZ ++ exZ ++ fe exGx ++ fe exGy ++ fe ex3x ++ fe ex3y) (v := (toBE 32 0x92c0a2c561e8514749539aba13a0fcbcb0cb7bdb969bbca2e98616de177189e4)) (by decide +kernel)]
    exact hash_eval (by decide +kernel)
  dsimp only [Option.getD_none]
  rw [exZ_eq, e1, e2]
  decide +kernel

/-- C50, C48: with the standard's key length of 256 bits the same exchange panics. -/
example : calculateKeyWithConfirmation false 256 none ⟨(1 : ℕ)⟩ ⟨(3 : ℕ)⟩ none ⟨exGx, exGy⟩ ⟨exGx, exGy⟩ none = .panic :=
  (C50_long_violated exRun 256 (by decide) [] none none none (by decide) (by decide)).2

/-- C48: the exchange in full. -/
example : ∃ resA resB, calculateKeyWithConfirmation false 128 none ⟨(1 : ℕ)⟩ ⟨(3 : ℕ)⟩ none ⟨exGx, exGy⟩ ⟨exGx, exGy⟩ none = .ok resB ∧
    calculateKeyWithConfirmation true 128 (some resB.S1) ⟨(1 : ℕ)⟩ ⟨(1 : ℕ)⟩ none ⟨exGx, exGy⟩ ⟨ex3x, ex3y⟩ none = .ok resA ∧
    resA.Key = resB.Key := by
  obtain ⟨resB, h⟩ := exResponder
  have p1 := pub_eq_of_coords coords_1G
  obtain ⟨resA, h1, h2, _⟩ := C48_agree 1 1 1 3 _ _ _ _ p1 p1 p1 (pub_eq_of_coords coords_3G) none none none 128 resB h
  exact ⟨resA, resB, h, h1, h2⟩

/-! ## C66 -/

theorem ok_of_isOk {α : Type} {x : Res α} (h : (match x with | .ok _ => true | _ => false) = true) : ∃ a, x = .ok a := by
  cases x with
  | ok a => exact ⟨a, rfl⟩
  | err _ => cases h
  | panic => cases h
  | loop => cases h

theorem exU_off : calculateU 127 ⟨1⟩ ⟨3⟩ ⟨ex3x, ex3y⟩ ⟨exGx, exGy⟩ ⟨1, 1⟩ =
    .ok (20528928597557976624013580103748747289492605638431298087682517108491999507192,
      98023896785223420705618204429969279771968110956914329127811132968285364143964) := by
  unfold calculateU
  dsimp only
  have k1 : (sm2H * (1 + reduce (ex3x : Int) 127 * 3)) % cv.N = 643005028365631985851124709610113588286 := by decide +kernel
  rw [k1]
  have k2 : (643005028365631985851124709610113588286 * reduce 1 127) % cv.N =
      109401636497161214026483982808071315523346627078938014670726711062234399890494 := by decide +kernel
  rw [k2, scalarMult_eq_F, scalarMult_eq_F]
  have e1 : scalarMultF cv (exGx, exGy) (intBytes 643005028365631985851124709610113588286) =
      .ok (113459261346526513536013320305458230952862527880906809238062881368217296023927,
        82175534718694825412182852399849185772169085122167381291342576905270974497857) := by decide +kernel
  have e2 : scalarMultF cv (1, 1) (intBytes 109401636497161214026483982808071315523346627078938014670726711062234399890494) =
      .ok (86779184687553033449210000459691725988204954363504271739803727540252829087410,
        26969995675561039172279749375589962793957368316716397797118098938182036716919) := by decide +kernel
  rw [e1, Res.ok_bind, e2, Res.ok_bind]
  decide +kernel

theorem exU_zero : calculateU 127 ⟨1⟩ ⟨3⟩ ⟨ex3x, ex3y⟩ ⟨0, 0⟩ ⟨exGx, exGy⟩ =
    .ok (68841712081359048076391819298624213826016416875838000069303242879309315373775,
      53638097044601379210656290761064447434769166749496892863719477834867082060880) := by
  unfold calculateU
  dsimp only
  have k1 : (sm2H * (1 + reduce (ex3x : Int) 127 * 3)) % cv.N = 643005028365631985851124709610113588286 := by decide +kernel
  rw [k1]
  have k2 : (643005028365631985851124709610113588286 * reduce exGx 127) % cv.N =
      7188083569441601993631156609023131764603585385092612049559180797044576029455 := by decide +kernel
  rw [k2, mult_zero, scalarMult_eq_F]
  have e2 : scalarMultF cv (exGx, exGy) (intBytes 7188083569441601993631156609023131764603585385092612049559180797044576029455) =
      .ok (68841712081359048076391819298624213826016416875838000069303242879309315373775,
        53638097044601379210656290761064447434769166749496892863719477834867082060880) := by decide +kernel
  rw [Res.ok_bind, e2, Res.ok_bind]
  decide +kernel

/-- C66 is violated: the responder accepts an ephemeral key (1, 1) that is not a point of the curve, and a static key (0, 0)
that is not a point of the curve. -/
theorem C66_violated :
    isOnCurve cv 1 1 = false ∧ isOnCurve cv 0 0 = false ∧
    (∃ res, calculateKeyWithConfirmation false 128 none ⟨1⟩ ⟨3⟩ none ⟨exGx, exGy⟩ ⟨1, 1⟩ none = .ok res) ∧
    (∃ res, calculateKeyWithConfirmation false 128 none ⟨1⟩ ⟨3⟩ none ⟨0, 0⟩ ⟨exGx, exGy⟩ none = .ok res) := by
  refine ⟨by decide +kernel, by decide +kernel, ?_, ?_⟩
  · obtain ⟨z, hz⟩ : ∃ z, getZ exGx exGy [] = .ok z ∧ z = exZ := ⟨_, getZ_std coords_1G (by decide), exZ_eq⟩
    unfold calculateKeyWithConfirmation
    dsimp only [Option.getD_none]
    have e1 : calculatePubKey ⟨1⟩ = .ok ⟨exGx, exGy⟩ := pub_eq_of_coords coords_1G
    have e3 : calculatePubKey ⟨3⟩ = .ok ⟨ex3x, ex3y⟩ := pub_eq_of_coords coords_3G
    have hw : cv.bitSize / 2 - 1 = 127 := rfl
    rw [if_neg (by simp), e1, Res.ok_bind, hz.1, Res.ok_bind, Res.ok_bind, hw, e3, Res.ok_bind, exU_off, Res.ok_bind, hz.2]
    exact ok_of_isOk (by decide +kernel)
  · obtain ⟨z, hz⟩ : ∃ z, getZ exGx exGy [] = .ok z ∧ z = exZ := ⟨_, getZ_std coords_1G (by decide), exZ_eq⟩
    unfold calculateKeyWithConfirmation
    dsimp only [Option.getD_none]
    have e1 : calculatePubKey ⟨1⟩ = .ok ⟨exGx, exGy⟩ := pub_eq_of_coords coords_1G
    have e3 : calculatePubKey ⟨3⟩ = .ok ⟨ex3x, ex3y⟩ := pub_eq_of_coords coords_3G
    have hw : cv.bitSize / 2 - 1 = 127 := rfl
    have e0 : getZ 0 0 [] = .ok (toBE 32 0x0a3855179196e9668565a7a02f3f06ee504d6b1f08375c9631425596b5d982d6) := by decide +kernel
    rw [if_neg (by simp), e1, Res.ok_bind, hz.1, Res.ok_bind, e0, Res.ok_bind, hw, e3, Res.ok_bind, exU_zero, Res.ok_bind, hz.2]
    exact ok_of_isOk (by decide +kernel)

/-! ## C67 -/

/-- C67: no result is derived from the point at infinity. For all private keys and all points, also infinity as (0, 0), as
the other side's keys. -/
theorem C67_not_infinity (i : Bool) (keyBits : Int) (tag id oid : Option Bytes) (d r x1 x2 : ℕ) (P R : Pt)
    (se op oe : PublicKey) (res : ExchangeResult) (hse : calculatePubKey ⟨r⟩ = .ok se) (h1 : se.X = (x1 : Int))
    (hP : (op.X, op.Y) = enc P) (hR : (oe.X, oe.Y) = enc R) (h2 : oe.X = (x2 : Int))
    (h : calculateKeyWithConfirmation i keyBits tag ⟨d⟩ ⟨r⟩ id op oe oid = .ok res) : sharedPoint d r x1 P R x2 ≠ 0 := by
  intro h0
  by_cases hi : i = true ∧ tag = none
  · unfold calculateKeyWithConfirmation at h
    dsimp only at h
    rw [if_pos hi] at h
    cases h
  obtain ⟨sp, hsp⟩ : ∃ sp, calculatePubKey ⟨(d : Int)⟩ = .ok sp := by
    unfold calculatePubKey; rw [baseMult_int]; exact ⟨_, rfl⟩
  have hse' : calculatePubKey ⟨(r : Int)⟩ = .ok ⟨x1, se.Y⟩ := by rw [hse, ← h1]
  rw [exchange_eq hi hsp hse' hP hR h2, Res.bind_eq_ok] at h
  obtain ⟨za, _, h⟩ := h
  rw [Res.bind_eq_ok] at h
  obtain ⟨zb, _, h⟩ := h
  rw [h0, show enc (0 : Pt) = ((((0 : ℕ) : Int)), (((0 : ℕ) : Int))) from rfl] at h
  have key : ∀ (a b : Bytes) (p q : PublicKey), ¬ ∃ ih, calculateInnerHash ((0 : ℕ) : Int) a b p.X p.Y q.X q.Y = .ok ih := by
    rintro a b p q ⟨ih, g⟩
    exact ((hashOf_ok g).2 (intBytes ((0 : ℕ) : Int)) (by simp)).1 (by decide +kernel)
  split at h
  · unfold initiatorPart at h
    rw [Res.bind_eq_ok] at h
    obtain ⟨_, _, h⟩ := h
    rw [Res.bind_eq_ok] at h
    obtain ⟨ih, g, _⟩ := h
    exact key _ _ _ _ ⟨ih, g⟩
  · unfold responderPart at h
    rw [Res.bind_eq_ok] at h
    obtain ⟨_, _, h⟩ := h
    rw [Res.bind_eq_ok] at h
    obtain ⟨ih, g, _⟩ := h
    exact key zb za oe ⟨x1, se.Y⟩ ⟨ih, g⟩

/-- C67: the point at infinity does occur; the function then panics instead of returning an error. -/
example : sharedPoint 1 3 ex3x (1 • G) 0 0 ≠ 0 ∧ sharedPoint (n - xbar ex3x * 3 % n) 3 ex3x (1 • G) (1 • G) exGx = 0 := by
  constructor
  · have : sharedPoint 1 3 ex3x (1 • G) 0 0 = ((1 + xbar ex3x * 3) % n) • G := by
      unfold sharedPoint
      rw [show xbar 0 • (0 : Pt) = 0 from nsmul_zero _, add_zero, one_nsmul]
    rw [this, Ne, smul_eq_zero G_ne_zero, n_val]
    decide +kernel
  · have : (n - xbar ex3x * 3 % n + xbar ex3x * 3) % n = 0 := by rw [n_val]; decide +kernel
    unfold sharedPoint
    rw [this, zero_nsmul]

end Verif.Props
